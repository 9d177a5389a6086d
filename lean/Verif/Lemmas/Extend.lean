import Verif.Spec.Extend
import Verif.Lemmas.GenNames
import Verif.Lemmas.ParseSchema

/-! # Derived types and attribute groups -/

namespace Verif.Lemmas.Ext

open Verif Verif.Model Verif.Spec Verif.Lemmas.Parse

/-! ## The map of types -/

theorem typesMap_none {es : List RsEntity} {key : Str} : typesMap es key = none ↔ Unknown es key := by
  induction es with
  | nil => exact ⟨fun _ k t h => (nomatch h), fun _ => rfl⟩
  | cons e es ih =>
    unfold typesMap
    cases hm : typesMap es key with
    | some i =>
      dsimp only
      refine ⟨fun h => (nomatch h), fun h => ?_⟩
      have := ih.2 (fun k t ht => h (k + 1) t ht)
      rw [hm] at this; cases this
    | none =>
      have hu := ih.1 hm
      have hcons : Unknown (e :: es) key ↔ ∀ s, e = .struct s → s.name ≠ key := by
        constructor
        · intro h s hs; exact h 0 s (by rw [StructAt, hs]; rfl)
        · intro h k t ht
          cases k with
          | zero => exact h t (Option.some.inj ht)
          | succ k => exact hu k t ht
      rw [hcons]
      cases e with
      | struct s =>
        dsimp only
        by_cases hn : s.name = key
        · rw [if_pos hn]; exact ⟨fun h => (nomatch h), fun h => absurd hn (h s rfl)⟩
        · rw [if_neg hn]
          refine ⟨fun _ t ht => ?_, fun _ => rfl⟩
          obtain rfl := RsEntity.struct.inj ht
          exact hn
      | _ => exact ⟨fun _ s h => (nomatch h), fun _ => rfl⟩

theorem typesMap_some {es : List RsEntity} {key : Str} {j : Nat} : typesMap es key = some j ↔ Resolves es key j := by
  induction es generalizing j with
  | nil => exact ⟨fun h => (nomatch h), fun ⟨⟨s, h, _⟩, _⟩ => (nomatch h)⟩
  | cons e es ih =>
    unfold typesMap
    cases hm : typesMap es key with
    | some i =>
      obtain ⟨⟨s, hs, hn⟩, hl⟩ := ih.1 hm
      dsimp only
      constructor
      · intro h
        obtain rfl := Option.some.inj h
        refine ⟨⟨s, hs, hn⟩, fun k t hk ht => ?_⟩
        cases k with
        | zero => omega
        | succ k => exact hl k t (by omega) ht
      · rintro ⟨⟨s', hs', hn'⟩, hl'⟩
        cases j with
        | zero => exact absurd hn (hl' (i + 1) s (by omega) hs)
        | succ j =>
          have := ih.2 ⟨⟨s', hs', hn'⟩, fun k t hk ht => hl' (k + 1) t (by omega) ht⟩
          rw [hm] at this
          rw [Option.some.inj this]
    | none =>
      have hu := typesMap_none.1 hm
      have key0 : ∀ j, Resolves (e :: es) key j ↔ j = 0 ∧ ∃ s, e = .struct s ∧ s.name = key := by
        intro j
        constructor
        · rintro ⟨⟨s, hs, hn⟩, -⟩
          cases j with
          | zero => exact ⟨rfl, s, Option.some.inj hs, hn⟩
          | succ j => exact absurd hn (hu j s hs)
        · rintro ⟨rfl, s, rfl, hn⟩
          refine ⟨⟨s, rfl, hn⟩, fun k t hk ht => ?_⟩
          cases k with
          | zero => omega
          | succ k => exact hu k t ht
      rw [key0]
      cases e with
      | struct s =>
        dsimp only
        by_cases hn : s.name = key
        · rw [if_pos hn]
          exact ⟨fun h => ⟨(Option.some.inj h).symm, s, rfl, hn⟩, fun h => by rw [h.1]⟩
        · rw [if_neg hn]
          refine ⟨fun h => (nomatch h), ?_⟩
          rintro ⟨-, t, ht, h⟩
          obtain rfl := RsEntity.struct.inj ht
          exact absurd h hn
      | _ => exact ⟨fun h => (nomatch h), fun ⟨_, _, h, _⟩ => (nomatch h)⟩

/-! ## Merging -/

theorem mergeBase_eq (own inh : List StructField) : mergeBase own inh = inherit own inh := by
  unfold mergeBase inherit
  rw [List.filter_append, List.filter_filter]
  congr 1
  refine List.filter_congr fun f _ => ?_
  rw [Bool.eq_iff_iff, Bool.and_eq_true, decide_eq_true_iff, decide_eq_true_iff, Bool.not_eq_true', List.any_eq_false]
  exact and_congr Iff.rfl (forall_congr' fun g => imp_congr_right fun _ => not_congr decide_eq_true_iff)

/-- `look` as a relation. -/
def Rel (look : Str → Res (List StructField)) (key : Str) (l : List StructField) : Prop := look key = .ok l

theorem gathered_cons {look : Str → List StructField → Prop} {t : Str} {ts : List Str} {fs : List StructField} :
    Gathered look (t :: ts) fs ↔ ∃ key l r, AfterLastColon t key ∧ look key l ∧ Gathered look ts r ∧ fs = l ++ r := by
  constructor
  · rintro ⟨ls, h, rfl⟩
    cases h with
    | cons h1 h2 =>
      obtain ⟨key, hk, hl⟩ := h1
      exact ⟨key, _, _, hk, hl, ⟨_, h2, rfl⟩, rfl⟩
  · rintro ⟨key, l, r, hk, hl, ⟨ls, h, rfl⟩, rfl⟩
    exact ⟨l :: ls, .cons ⟨key, hk, hl⟩ h, rfl⟩

theorem gathered_nil {look : Str → List StructField → Prop} {fs : List StructField} :
    Gathered look [] fs ↔ fs = [] := by
  constructor
  · rintro ⟨ls, h, rfl⟩; cases h; rfl
  · rintro rfl; exact ⟨[], .nil, rfl⟩

theorem bases_cons (f : StructField) (fs : List StructField) :
    bases (f :: fs) = if f.name = baseTag then f.typeName :: bases fs else bases fs := by
  unfold bases
  by_cases h : f.name = baseTag
  · rw [if_pos h, List.filter_cons_of_pos (by exact decide_eq_true h)]; rfl
  · rw [if_neg h, List.filter_cons_of_neg (by rw [decide_eq_true_iff]; exact h)]

theorem gather_step {look : Str → Res (List StructField)} {t : Str} {ts : List Str} {fs : List StructField}
    {rest : Res (List StructField)} (ih : ∀ r, rest = .ok r ↔ Gathered (Rel look) ts r) :
    ((look (lastSegment t)).bind fun a => rest.bind fun b => .ok (a ++ b)) = .ok fs ↔ Gathered (Rel look) (t :: ts) fs := by
  rw [gathered_cons]
  constructor
  · intro h
    obtain ⟨a, ha, h⟩ := Res.bind_eq_ok.1 h
    obtain ⟨b, hb, h⟩ := Res.bind_eq_ok.1 h
    exact ⟨_, a, b, Gen.lastSegment_iff.1 rfl, ha, (ih b).1 hb, (Res.ok.inj h).symm⟩
  · rintro ⟨key, a, b, hk, ha, hb, rfl⟩
    rw [Gen.lastSegment_iff.2 hk, show look key = .ok a from ha, Res.ok_bind, (ih b).2 hb]
    rfl

theorem baseFields_iff {look : Str → Res (List StructField)} : ∀ {fs inh : List StructField},
    baseFields look fs = .ok inh ↔ Gathered (Rel look) (bases fs) inh
  | [], inh => by
    rw [baseFields, show bases [] = [] from rfl, gathered_nil]
    exact ⟨fun h => (Res.ok.inj h).symm, fun h => by rw [h]⟩
  | f :: fs, inh => by
    rw [baseFields, bases_cons]
    by_cases h : f.name = baseTag
    · rw [if_pos h, if_pos h]
      exact gather_step fun r => baseFields_iff
    · rw [if_neg h, if_neg h]
      exact baseFields_iff

theorem groupFields_iff {look : Str → Res (List StructField)} : ∀ {as : List RAlias} {gs : List StructField},
    groupFields look as = .ok gs ↔ Gathered (Rel look) (as.map RAlias.original) gs
  | [], gs => by
    rw [groupFields, List.map_nil, gathered_nil]
    exact ⟨fun h => (Res.ok.inj h).symm, fun h => by rw [h]⟩
  | a :: as, gs => by
    rw [groupFields, List.map_cons]
    exact gather_step fun r => groupFields_iff

mutual
theorem extendStruct_iff {look : Str → Res (List StructField)} : ∀ {s s' : RStruct},
    extendStruct look s = .ok s' ↔ FlatStruct (Rel look) s s'
  | .mk n c fs ag sub, s' => by
    rw [extendStruct]
    constructor
    · intro h
      obtain ⟨fs', h1, h⟩ := Res.bind_eq_ok.1 h
      obtain ⟨inh, h2, h⟩ := Res.bind_eq_ok.1 h
      obtain ⟨sub', h3, h⟩ := Res.bind_eq_ok.1 h
      obtain rfl := Res.ok.inj h
      rw [mergeBase_eq]
      exact .mk (extendFields_iff.1 h1) (baseFields_iff.1 h2) (extendSubtypes_iff.1 h3)
    · intro h
      cases h with
      | mk h1 h2 h3 =>
        rw [extendFields_iff.2 h1, Res.ok_bind, baseFields_iff.2 h2, Res.ok_bind, extendSubtypes_iff.2 h3, Res.ok_bind,
          mergeBase_eq]
theorem extendFields_iff {look : Str → Res (List StructField)} : ∀ {fs fs' : List StructField},
    extendFields look fs = .ok fs' ↔ FlatFields (Rel look) fs fs'
  | [], fs' => by
    rw [extendFields]
    constructor
    · intro h; obtain rfl := Res.ok.inj h; exact .nil
    · intro h; cases h; rfl
  | .mk n t c sub src ms :: fs, fs' => by
    rw [extendFields, extendField]
    constructor
    · intro h
      obtain ⟨f, h1, h⟩ := Res.bind_eq_ok.1 h
      obtain ⟨sub', h2, h1⟩ := Res.bind_eq_ok.1 h1
      obtain rfl := Res.ok.inj h1
      obtain ⟨fs'', h3, h⟩ := Res.bind_eq_ok.1 h
      obtain rfl := Res.ok.inj h
      exact .cons (extendSubtypes_iff.1 h2) (extendFields_iff.1 h3)
    · intro h
      cases h with
      | cons h1 h2 =>
        rw [extendSubtypes_iff.2 h1, Res.ok_bind, Res.ok_bind, extendFields_iff.2 h2]
        rfl
theorem extendSubtypes_iff {look : Str → Res (List StructField)} : ∀ {es es' : List RsEntity},
    extendSubtypes look es = .ok es' ↔ FlatEntities (Rel look) es es'
  | [], es' => by
    rw [extendSubtypes]
    constructor
    · intro h; obtain rfl := Res.ok.inj h; exact .nil
    · intro h; cases h; rfl
  | .struct s :: es, es' => by
    rw [extendSubtypes, extendEntity]
    constructor
    · intro h
      obtain ⟨e, h1, h⟩ := Res.bind_eq_ok.1 h
      obtain ⟨s', h2, h1⟩ := Res.bind_eq_ok.1 h1
      obtain rfl := Res.ok.inj h1
      obtain ⟨es'', h3, h⟩ := Res.bind_eq_ok.1 h
      obtain rfl := Res.ok.inj h
      exact .struct (extendStruct_iff.1 h2) (extendSubtypes_iff.1 h3)
    · intro h
      cases h with
      | struct h1 h2 =>
        rw [extendStruct_iff.2 h1, Res.ok_bind, Res.ok_bind, extendSubtypes_iff.2 h2]
        rfl
      | other h => exact absurd rfl (h s)
  | .structField f :: es, es' => extendOther_iff (fun _ h => nomatch h) rfl extendSubtypes_iff
  | .tupleStruct f :: es, es' => extendOther_iff (fun _ h => nomatch h) rfl extendSubtypes_iff
  | .enum f :: es, es' => extendOther_iff (fun _ h => nomatch h) rfl extendSubtypes_iff
  | .enumCase f :: es, es' => extendOther_iff (fun _ h => nomatch h) rfl extendSubtypes_iff
  | .alias f :: es, es' => extendOther_iff (fun _ h => nomatch h) rfl extendSubtypes_iff
  | .import f :: es, es' => extendOther_iff (fun _ h => nomatch h) rfl extendSubtypes_iff
theorem extendOther_iff {look : Str → Res (List StructField)} {e : RsEntity} {es es' : List RsEntity}
    (h : ∀ s, e ≠ .struct s) (he : extendEntity look e = .ok e)
    (ih : ∀ {es'}, extendSubtypes look es = .ok es' ↔ FlatEntities (Rel look) es es') :
    extendSubtypes look (e :: es) = .ok es' ↔ FlatEntities (Rel look) (e :: es) es' := by
  rw [extendSubtypes, he, Res.ok_bind]
  constructor
  · intro h'
    obtain ⟨r, h1, h2⟩ := Res.bind_eq_ok.1 h'
    obtain rfl := Res.ok.inj h2
    exact .other h (ih.1 h1)
  · intro h'
    cases h' with
    | struct => exact absurd rfl (h _)
    | other _ h1 => rw [ih.2 h1]; rfl
end

/-! ## The loop -/

/-- What a struct sees, with the current entities. -/
theorem lookAt_iff {all cur fin : List RsEntity} {i : Nat} {own : Res (List StructField)}
    {own' : Option (List StructField)} (ho : ∀ fs, own = .ok fs ↔ own' = some fs)
    (h1 : ∀ m, m < i → cur[m]? = fin[m]?) (h2 : ∀ m, i ≤ m → cur[m]? = all[m]?)
    (hs : ∀ m s, m < i → StructAt all m s → ∃ s', StructAt fin m s') {key : Str} {l : List StructField} :
    Rel (lookAt (typesMap all) cur i own) key l ↔ Seen all fin i own' key l := by
  unfold Rel lookAt
  constructor
  · intro h
    cases hm : typesMap all key with
    | none =>
      rw [hm] at h
      obtain rfl := Res.ok.inj h
      exact .unknown (typesMap_none.1 hm)
    | some j =>
      rw [hm] at h
      dsimp only at h
      have hr := typesMap_some.1 hm
      obtain ⟨s, hsj, -⟩ := id hr.1
      by_cases hj : j = i
      · rw [if_pos hj] at h
        subst hj
        exact .self hr ((ho l).1 h)
      · rw [if_neg hj] at h
        obtain rfl := Res.ok.inj h
        unfold fieldsAt
        rcases Nat.lt_or_gt_of_ne hj with hlt | hgt
        · obtain ⟨s', hs'⟩ := hs j s hlt hsj
          rw [h1 j hlt, show fin[j]? = some (.struct s') from hs']
          exact .earlier hr hlt hs'
        · rw [h2 j (Nat.le_of_lt hgt), show all[j]? = some (.struct s) from hsj]
          exact .later hr hgt hsj
  · intro h
    cases h with
    | unknown h => rw [typesMap_none.2 h]
    | self hr he => rw [typesMap_some.2 hr]; dsimp only; rw [if_pos rfl]; exact (ho l).2 he
    | @earlier j s hr hlt hs' =>
      rw [typesMap_some.2 hr]
      dsimp only
      rw [if_neg (Nat.ne_of_lt hlt)]
      unfold fieldsAt
      rw [h1 j hlt, show fin[j]? = some (.struct s) from hs']
    | @later j s hr hgt hs' =>
      rw [typesMap_some.2 hr]
      dsimp only
      rw [if_neg (Nat.ne_of_gt hgt)]
      unfold fieldsAt
      rw [h2 j (Nat.le_of_lt hgt), show all[j]? = some (.struct s) from hs']

mutual
theorem flatStruct_congr {R S : Str → List StructField → Prop} (h : ∀ k l, R k l ↔ S k l) : ∀ {s s' : RStruct},
    FlatStruct R s s' → FlatStruct S s s'
  | _, _, .mk h1 ⟨ls, h2, e⟩ h3 =>
    .mk (flatFields_congr h h1) ⟨ls, h2.imp fun _ _ ⟨k, hk, hl⟩ => ⟨k, hk, (h _ _).1 hl⟩, e⟩ (flatEntities_congr h h3)
theorem flatFields_congr {R S : Str → List StructField → Prop} (h : ∀ k l, R k l ↔ S k l) :
    ∀ {s s' : List StructField}, FlatFields R s s' → FlatFields S s s'
  | _, _, .nil => .nil
  | _, _, .cons h1 h2 => .cons (flatEntities_congr h h1) (flatFields_congr h h2)
theorem flatEntities_congr {R S : Str → List StructField → Prop} (h : ∀ k l, R k l ↔ S k l) :
    ∀ {s s' : List RsEntity}, FlatEntities R s s' → FlatEntities S s s'
  | _, _, .nil => .nil
  | _, _, .struct h1 h2 => .struct (flatStruct_congr h h1) (flatEntities_congr h h2)
  | _, _, .other h1 h2 => .other h1 (flatEntities_congr h h2)
end

theorem gathered_congr {R S : Str → List StructField → Prop} (h : ∀ k l, R k l ↔ S k l) {ts fs} :
    Gathered R ts fs → Gathered S ts fs :=
  fun ⟨ls, h2, e⟩ => ⟨ls, h2.imp fun _ _ ⟨k, hk, hl⟩ => ⟨k, hk, (h _ _).1 hl⟩, e⟩

theorem extendTop_iff {all cur fin : List RsEntity} {i : Nat} {s s' : RStruct}
    (h1 : ∀ m, m < i → cur[m]? = fin[m]?) (h2 : ∀ m, i ≤ m → cur[m]? = all[m]?)
    (hs : ∀ m s, m < i → StructAt all m s → ∃ s', StructAt fin m s') :
    extendTop (typesMap all) cur i s = .ok s' ↔ Extended all fin i s s' := by
  have hn : ∀ k l, Rel (lookAt (typesMap all) cur i .panic) k l ↔ Seen all fin i none k l := fun k l =>
    lookAt_iff (own := .panic) (own' := none)
      (fun fs => ⟨fun h => (by cases h), fun h => (by cases h)⟩) h1 h2 hs
  have ho : ∀ fs k l, Rel (lookAt (typesMap all) cur i (.ok fs)) k l ↔ Seen all fin i (some fs) k l := fun fs k l =>
    lookAt_iff (fun _ => ⟨fun h => congrArg some (Res.ok.inj h), fun h => congrArg Res.ok (Option.some.inj h)⟩) h1 h2 hs
  obtain ⟨n, c, fs, ag, sub⟩ := s
  rw [extendTop]
  constructor
  · intro h
    obtain ⟨own, ha, h⟩ := Res.bind_eq_ok.1 h
    obtain ⟨inh, hb, h⟩ := Res.bind_eq_ok.1 h
    dsimp only at h
    rw [mergeBase_eq] at h
    obtain ⟨sub', hc, h⟩ := Res.bind_eq_ok.1 h
    obtain ⟨gs, hd, h⟩ := Res.bind_eq_ok.1 h
    obtain rfl := Res.ok.inj h
    exact .mk (flatFields_congr hn (extendFields_iff.1 ha)) (gathered_congr (ho own) (baseFields_iff.1 hb))
      (flatEntities_congr (ho _) (extendSubtypes_iff.1 hc)) (gathered_congr (ho _) (groupFields_iff.1 hd))
  · intro h
    cases h with
    | mk ha hb hc hd =>
      have hn' := fun k l => (hn k l).symm
      have ho' := fun fs k l => (ho fs k l).symm
      rw [extendFields_iff.2 (flatFields_congr hn' ha), Res.ok_bind, baseFields_iff.2 (gathered_congr (ho' _) hb),
        Res.ok_bind]
      dsimp only
      rw [mergeBase_eq, extendSubtypes_iff.2 (flatEntities_congr (ho' _) hc), Res.ok_bind,
        groupFields_iff.2 (gathered_congr (ho' _) hd)]
      rfl

/-- The steps of the loop. -/
theorem extendAll_steps {map : Str → Option Nat} : ∀ {k : Nat} {es : List RsEntity} {i : Nat} {fin : List RsEntity},
    extendAll map es i k = .ok fin → i + k ≤ es.length →
    fin.length = es.length ∧ (∀ m, m < i ∨ i + k ≤ m → fin[m]? = es[m]?) ∧
    ∀ j e, i ≤ j → j < i + k → es[j]? = some e →
      (∀ s, e = .struct s → ∃ cur s', (∀ m, m < j → cur[m]? = fin[m]?) ∧ (∀ m, j ≤ m → cur[m]? = es[m]?) ∧
        extendTop map cur j s = .ok s' ∧ fin[j]? = some (.struct s')) ∧
      ((∀ s, e ≠ .struct s) → fin[j]? = some e)
  | 0, es, i, fin, h, hl => by
    rw [extendAll] at h
    obtain rfl := Res.ok.inj h
    exact ⟨rfl, fun _ _ => rfl, fun j e h1 h2 => by omega⟩
  | k + 1, es, i, fin, h, hl => by
    have hlt : i < es.length := by omega
    obtain ⟨e, he⟩ : ∃ e, es[i]? = some e := ⟨es[i], List.getElem?_eq_getElem hlt⟩
    by_cases hs : ∃ s, e = .struct s
    · obtain ⟨s, rfl⟩ := hs
      rw [extendAll, he] at h
      dsimp only at h
      obtain ⟨s', h1, h⟩ := Res.bind_eq_ok.1 h
      obtain ⟨a, b, c⟩ := extendAll_steps h (by rw [List.length_set]; omega)
      rw [List.length_set] at a
      have hset : ∀ m, m ≠ i → (es.set i (.struct s'))[m]? = es[m]? := fun m hm =>
        List.getElem?_set_ne (fun e => hm e.symm)
      have hi : fin[i]? = some (.struct s') := by
        rw [b i (.inl (by omega)), List.getElem?_set_self hlt]
      refine ⟨a, ?_, ?_⟩
      · intro m hm
        rw [b m (by omega), hset m (by omega)]
      · intro j e' h2 h3 h4
        by_cases hj : j = i
        · subst hj
          obtain rfl := Option.some.inj (he.symm.trans h4)
          refine ⟨?_, fun h => absurd rfl (h s)⟩
          intro s2 hs2
          obtain rfl := RsEntity.struct.inj hs2
          refine ⟨es, s', fun m hm => ?_, fun _ _ => rfl, h1, hi⟩
          rw [b m (.inl (by omega)), hset m (by omega)]
        · obtain ⟨c1, c2⟩ := c j e' (by omega) (by omega) (by rw [hset j hj]; exact h4)
          refine ⟨fun s2 hs2 => ?_, c2⟩
          obtain ⟨cur, s3, d1, d2, d3, d4⟩ := c1 s2 hs2
          exact ⟨cur, s3, d1, fun m hm => by rw [d2 m hm, hset m (by omega)], d3, d4⟩
    · have hs : ∀ s, e ≠ .struct s := fun s h => hs ⟨s, h⟩
      have h : extendAll map es (i + 1) k = .ok fin := by
        rw [extendAll, he] at h
        cases e with
        | struct s => exact absurd rfl (hs s)
        | _ => exact h
      obtain ⟨a, b, c⟩ := extendAll_steps h (by omega)
      refine ⟨a, fun m hm => b m (by omega), ?_⟩
      intro j e' h2 h3 h4
      by_cases hj : j = i
      · subst hj
        obtain rfl := Option.some.inj (he.symm.trans h4)
        exact ⟨fun s h => absurd h (hs s), fun _ => by rw [b j (.inl (by omega))]; exact he⟩
      · exact c j e' (by omega) (by omega) h4

/-- **What `parse` makes of the entities of a file.** -/
theorem extendFile_ok {f g : RsFile} (h : extendFile f = .ok g) :
    (g.name = f.name ∧ g.ns = f.ns ∧ g.targetNs = f.targetNs ∧ g.xsdNs = f.xsdNs) ∧
    g.types.length = f.types.length ∧ g.attributeGroups = f.attributeGroups ∧
    ∀ i e, f.types[i]? = some e →
      (∀ s, e = .struct s → ∃ s', g.types[i]? = some (.struct s') ∧
        Extended (f.types ++ f.attributeGroups) (g.types ++ g.attributeGroups) i s s') ∧
      ((∀ s, e ≠ .struct s) → g.types[i]? = some e) := by
  unfold extendFile at h
  dsimp only at h
  obtain ⟨fin, h1, h⟩ := Res.bind_eq_ok.1 h
  obtain rfl := Res.ok.inj h
  dsimp only
  obtain ⟨a, b, c⟩ := extendAll_steps h1 (by rw [List.length_append]; omega)
  rw [List.length_append] at a
  have hfin : fin.take f.types.length ++ fin.drop f.types.length = fin := List.take_append_drop _ _
  refine ⟨⟨rfl, rfl, rfl, rfl⟩, by rw [List.length_take]; omega, ?_, ?_⟩
  · apply List.ext_getElem?
    intro m
    rw [List.getElem?_drop, b (f.types.length + m) (.inr (by omega)), List.getElem?_append_right (by omega)]
    congr 1
    omega
  · intro i e he
    have hi : i < f.types.length := (List.getElem?_eq_some_iff.1 he).1
    have hall : (f.types ++ f.attributeGroups)[i]? = some e := by rw [List.getElem?_append_left hi]; exact he
    have htake : (fin.take f.types.length)[i]? = fin[i]? := by rw [List.getElem?_take, if_pos hi]
    obtain ⟨c1, c2⟩ := c i e (by omega) (by omega) hall
    rw [htake, hfin]
    refine ⟨fun s hs => ?_, c2⟩
    obtain ⟨cur, s', d1, d2, d3, d4⟩ := c1 s hs
    refine ⟨s', d4, (extendTop_iff d1 d2 ?_).1 d3⟩
    intro m t hm ht
    obtain ⟨c3, -⟩ := c m (.struct t) (by omega) (by omega) ht
    obtain ⟨-, t', -, -, -, e⟩ := c3 t rfl
    exact ⟨t', e⟩

/-! ## When it panics -/

theorem bases_flat {R : Str → List StructField → Prop} : ∀ {fs fs' : List StructField}, FlatFields R fs fs' →
    bases fs' = bases fs
  | _, _, .nil => rfl
  | _, _, .cons _ h2 => by
    rw [bases_cons, bases_cons, bases_flat h2]
    rfl

/-- `look` gives fields, or panics. -/
def Looks (look : Str → Res (List StructField)) : Prop := ∀ k, look k ≠ .err

theorem bind_panic {α β : Type} {x : Res α} {f : α → Res β} :
    x.bind f = .panic ↔ x = .panic ∨ ∃ a, x = .ok a ∧ f a = .panic := by
  cases x with
  | ok a => exact ⟨fun h => .inr ⟨a, rfl, h⟩, fun h => by
      rcases h with h | ⟨b, hb, h⟩
      · cases h
      · obtain rfl := Res.ok.inj hb; exact h⟩
  | err => exact ⟨fun h => (nomatch h), fun h => by
      rcases h with h | ⟨b, hb, h⟩
      · cases h
      · cases hb⟩
  | panic => exact ⟨fun _ => .inl rfl, fun _ => rfl⟩

theorem baseFields_total {look : Str → Res (List StructField)} (hl : Looks look) : ∀ (fs : List StructField),
    baseFields look fs ≠ .err ∧
    (baseFields look fs = .panic ↔ ∃ t ∈ bases fs, look (lastSegment t) = .panic)
  | [] => ⟨ok_ne_err, ⟨fun h => (nomatch h), fun ⟨_, h, _⟩ => (nomatch h)⟩⟩
  | f :: fs => by
    obtain ⟨ih1, ih2⟩ := baseFields_total hl fs
    rw [baseFields, bases_cons]
    by_cases h : f.name = baseTag
    · rw [if_pos h, if_pos h]
      refine ⟨bind_ne_err (hl _) fun _ _ => bind_ne_err ih1 fun _ _ => ok_ne_err, ?_⟩
      rw [bind_panic, List.exists_mem_cons_iff, ← ih2]
      constructor
      · rintro (h | ⟨a, -, h⟩)
        · exact .inl h
        · rcases bind_panic.1 h with h | ⟨b, -, h⟩
          · exact .inr h
          · cases h
      · rintro (h | h)
        · exact .inl h
        · cases hk : look (lastSegment f.typeName) with
          | ok a => exact .inr ⟨a, rfl, by rw [h]; rfl⟩
          | err => exact absurd hk (hl _)
          | panic => exact .inl rfl
    · rw [if_neg h, if_neg h]
      exact ⟨ih1, ih2⟩

theorem groupFields_total {look : Str → Res (List StructField)} (hl : ∀ k, ∃ l, look k = .ok l) : ∀ (as : List RAlias),
    ∃ gs, groupFields look as = .ok gs
  | [] => ⟨[], rfl⟩
  | a :: as => by
    obtain ⟨gs, ih⟩ := groupFields_total hl as
    obtain ⟨l, h⟩ := hl (lastSegment a.original)
    exact ⟨l ++ gs, by rw [groupFields, h, Res.ok_bind, ih]; rfl⟩

/-- Panics of two steps in a row. -/
theorem two_panic {α β γ : Type} {x : Res α} {y : Res β} {f : α → β → γ} (hx : x ≠ .err) :
    (x.bind fun a => y.bind fun b => .ok (f a b)) = .panic ↔ x = .panic ∨ y = .panic := by
  rw [bind_panic]
  constructor
  · rintro (h | ⟨a, -, h⟩)
    · exact .inl h
    · rcases bind_panic.1 h with h | ⟨b, -, h⟩
      · exact .inr h
      · cases h
  · rintro (h | h)
    · exact .inl h
    · cases x with
      | ok a => exact .inr ⟨a, rfl, by rw [h]; rfl⟩
      | err => exact absurd rfl hx
      | panic => exact .inl rfl

mutual
theorem extendStruct_total {look : Str → Res (List StructField)} (hl : Looks look) : ∀ (s : RStruct),
    extendStruct look s ≠ .err ∧ (extendStruct look s = .panic ↔ ∃ t ∈ structBases s, look (lastSegment t) = .panic)
  | .mk n c fs ag sub => by
    obtain ⟨a1, a2⟩ := extendFields_total hl fs
    obtain ⟨c1, c2⟩ := extendSubtypes_total hl sub
    obtain ⟨b1, b2⟩ := baseFields_total hl fs
    rw [extendStruct]
    refine ⟨bind_ne_err a1 fun fs' _ => bind_ne_err (baseFields_total hl fs').1 fun _ _ => bind_ne_err c1 fun _ _ => ok_ne_err, ?_⟩
    have hmem : (∃ t ∈ structBases (.mk n c fs ag sub), look (lastSegment t) = .panic) ↔
        (∃ t ∈ nestedBases fs, look (lastSegment t) = .panic) ∨ (∃ t ∈ bases fs, look (lastSegment t) = .panic) ∨
        ∃ t ∈ entityBases sub, look (lastSegment t) = .panic := by
      unfold structBases
      simp only [List.mem_append, or_and_right, exists_or]
    rw [hmem, ← a2, ← c2]
    cases hf : extendFields look fs with
    | panic => exact ⟨fun _ => .inl rfl, fun _ => rfl⟩
    | err => exact absurd hf a1
    | ok fs' =>
      have e := bases_flat (extendFields_iff.1 hf)
      rw [Res.ok_bind, two_panic (f := fun inh sub => RStruct.mk n c (mergeBase fs' inh) ag sub)
        (baseFields_total hl fs').1, (baseFields_total hl fs').2, e]
      exact ⟨.inr, fun h => h.resolve_left fun h => (nomatch h)⟩
theorem extendFields_total {look : Str → Res (List StructField)} (hl : Looks look) : ∀ (fs : List StructField),
    extendFields look fs ≠ .err ∧ (extendFields look fs = .panic ↔ ∃ t ∈ nestedBases fs, look (lastSegment t) = .panic)
  | [] => by
    rw [extendFields, nestedBases]
    exact ⟨ok_ne_err, ⟨fun h => (nomatch h), fun ⟨_, h, _⟩ => (nomatch h)⟩⟩
  | .mk n t c sub src ms :: fs => by
    obtain ⟨a1, a2⟩ := extendSubtypes_total hl sub
    obtain ⟨b1, b2⟩ := extendFields_total hl fs
    rw [extendFields, extendField, nestedBases]
    have h1 : ((extendSubtypes look sub).bind fun sub => .ok (StructField.mk n t c sub src ms)) ≠ .err :=
      bind_ne_err a1 fun _ _ => ok_ne_err
    refine ⟨bind_ne_err h1 fun _ _ => bind_ne_err b1 fun _ _ => ok_ne_err, ?_⟩
    rw [two_panic (f := fun f fs => f :: fs) h1, b2]
    simp only [List.mem_append, or_and_right, exists_or]
    rw [← a2]
    refine or_congr ?_ Iff.rfl
    rw [bind_panic]
    exact ⟨fun h => h.elim id fun ⟨_, _, h⟩ => (nomatch h), .inl⟩
theorem extendSubtypes_total {look : Str → Res (List StructField)} (hl : Looks look) : ∀ (es : List RsEntity),
    extendSubtypes look es ≠ .err ∧
    (extendSubtypes look es = .panic ↔ ∃ t ∈ entityBases es, look (lastSegment t) = .panic)
  | [] => by
    rw [extendSubtypes, entityBases]
    exact ⟨ok_ne_err, ⟨fun h => (nomatch h), fun ⟨_, h, _⟩ => (nomatch h)⟩⟩
  | .struct s :: es => by
    obtain ⟨a1, a2⟩ := extendStruct_total hl s
    obtain ⟨b1, b2⟩ := extendSubtypes_total hl es
    rw [extendSubtypes, extendEntity]
    have h1 : ((extendStruct look s).bind fun s => .ok (RsEntity.struct s)) ≠ .err :=
      bind_ne_err a1 fun _ _ => ok_ne_err
    refine ⟨bind_ne_err h1 fun _ _ => bind_ne_err b1 fun _ _ => ok_ne_err, ?_⟩
    rw [two_panic (f := fun f fs => f :: fs) h1, b2, show entityBases (.struct s :: es) = structBases s ++ entityBases es by
      obtain ⟨n, c, fs, ag, sub⟩ := s
      rw [entityBases]; rfl]
    simp only [List.mem_append, or_and_right, exists_or]
    rw [← a2]
    refine or_congr ?_ Iff.rfl
    rw [bind_panic]
    exact ⟨fun h => h.elim id fun ⟨_, _, h⟩ => (nomatch h), .inl⟩
  | .structField f :: es => other_total (extendSubtypes_total hl es) rfl (by rw [entityBases]; intros; contradiction)
  | .tupleStruct f :: es => other_total (extendSubtypes_total hl es) rfl (by rw [entityBases]; intros; contradiction)
  | .enum f :: es => other_total (extendSubtypes_total hl es) rfl (by rw [entityBases]; intros; contradiction)
  | .enumCase f :: es => other_total (extendSubtypes_total hl es) rfl (by rw [entityBases]; intros; contradiction)
  | .alias f :: es => other_total (extendSubtypes_total hl es) rfl (by rw [entityBases]; intros; contradiction)
  | .import f :: es => other_total (extendSubtypes_total hl es) rfl (by rw [entityBases]; intros; contradiction)
theorem other_total {look : Str → Res (List StructField)} {e : RsEntity} {es : List RsEntity}
    (ih : extendSubtypes look es ≠ .err ∧
      (extendSubtypes look es = .panic ↔ ∃ t ∈ entityBases es, look (lastSegment t) = .panic))
    (he : extendEntity look e = .ok e) (hb : entityBases (e :: es) = entityBases es) :
    extendSubtypes look (e :: es) ≠ .err ∧
      (extendSubtypes look (e :: es) = .panic ↔ ∃ t ∈ entityBases (e :: es), look (lastSegment t) = .panic) := by
  rw [extendSubtypes, he, Res.ok_bind, hb, ← ih.2]
  refine ⟨bind_ne_err ih.1 fun _ _ => ok_ne_err, ?_⟩
  rw [bind_panic]
  exact ⟨fun h => h.elim id fun ⟨_, _, h⟩ => (nomatch h), .inl⟩
end

theorem resolves_unique {es : List RsEntity} {key : Str} {i j : Nat} (h1 : Resolves es key i) (h2 : Resolves es key j) :
    i = j :=
  Option.some.inj ((typesMap_some.2 h1).symm.trans (typesMap_some.2 h2))

theorem lookAt_looks {map : Str → Option Nat} {es : List RsEntity} {i : Nat} {own : Res (List StructField)}
    (ho : own ≠ .err) : Looks (lookAt map es i own) := by
  intro k
  unfold lookAt
  cases map k with
  | none => exact ok_ne_err
  | some j =>
    dsimp only
    split
    · exact ho
    · exact ok_ne_err

theorem lookAt_total {map : Str → Option Nat} {es : List RsEntity} {i : Nat} {fs : List StructField} (k : Str) :
    ∃ l, lookAt map es i (.ok fs) k = .ok l := by
  unfold lookAt
  cases map k with
  | none => exact ⟨_, rfl⟩
  | some j =>
    dsimp only
    split
    · exact ⟨_, rfl⟩
    · exact ⟨_, rfl⟩

theorem lookAt_panic {map : Str → Option Nat} {es : List RsEntity} {i : Nat} {k : Str} :
    lookAt map es i .panic k = .panic ↔ map k = some i := by
  unfold lookAt
  cases map k with
  | none => exact ⟨fun h => (by cases h), fun h => (by cases h)⟩
  | some j =>
    dsimp only
    by_cases h : j = i
    · rw [if_pos h, h]
      exact ⟨fun _ => rfl, fun _ => rfl⟩
    · rw [if_neg h]
      exact ⟨fun h => (by cases h), fun e => absurd (Option.some.inj e) h⟩

theorem extendTop_total {map : Str → Option Nat} {es : List RsEntity} {i : Nat} {s : RStruct} :
    extendTop map es i s ≠ .err ∧
    (extendTop map es i s = .panic ↔ ∃ t ∈ nestedBases s.fields, map (lastSegment t) = some i) := by
  obtain ⟨n, c, fs, ag, sub⟩ := s
  obtain ⟨a1, a2⟩ := extendFields_total (lookAt_looks (map := map) (es := es) (i := i) (own := .panic)
    (fun h => (by cases h))) fs
  simp only [lookAt_panic] at a2
  show extendTop map es i (.mk n c fs ag sub) ≠ .err ∧
    (_ ↔ ∃ t ∈ nestedBases fs, map (lastSegment t) = some i)
  rw [extendTop, ← a2]
  cases hf : extendFields (lookAt map es i .panic) fs with
  | err => exact absurd hf a1
  | panic => exact ⟨fun h => (by cases h), fun _ => rfl, fun _ => rfl⟩
  | ok fs' =>
    have np : ∀ fs k, lookAt map es i (.ok fs) k ≠ .panic := fun fs k h => by
      obtain ⟨l, e⟩ := lookAt_total (map := map) (es := es) (i := i) (fs := fs) k
      rw [e] at h
      cases h
    have tot : ∀ {α : Type} {x : Res α}, x ≠ .err → x ≠ .panic → ∃ a, x = .ok a := fun {α x} h1 h2 => by
      cases x with
      | ok a => exact ⟨a, rfl⟩
      | err => exact absurd rfl h1
      | panic => exact absurd rfl h2
    obtain ⟨inh, hb⟩ := tot (baseFields_total (lookAt_looks (map := map) (es := es) (i := i) (own := .ok fs')
      ok_ne_err) fs').1 (fun h => by
        obtain ⟨t, -, h⟩ := (baseFields_total (lookAt_looks ok_ne_err) fs').2.1 h
        exact np _ _ h)
    obtain ⟨sub', hc⟩ := tot (extendSubtypes_total (lookAt_looks (map := map) (es := es) (i := i)
      (own := .ok (mergeBase fs' inh)) ok_ne_err) sub).1 (fun h => by
        obtain ⟨t, -, h⟩ := (extendSubtypes_total (lookAt_looks ok_ne_err) sub).2.1 h
        exact np _ _ h)
    obtain ⟨gs, hd⟩ := groupFields_total (lookAt_total (map := map) (es := es) (i := i) (fs := mergeBase fs' inh)) ag
    rw [Res.ok_bind, hb, Res.ok_bind]
    dsimp only
    rw [hc, Res.ok_bind, hd, Res.ok_bind]
    exact ⟨ok_ne_err, fun h => (by cases h), fun h => (by cases h)⟩

theorem extendAll_total {map : Str → Option Nat} : ∀ {k : Nat} {es : List RsEntity} {i : Nat},
    extendAll map es i k ≠ .err ∧
    (extendAll map es i k = .panic ↔ ∃ j s, i ≤ j ∧ j < i + k ∧ StructAt es j s ∧
      ∃ t ∈ nestedBases s.fields, map (lastSegment t) = some j)
  | 0, es, i => by
    rw [extendAll]
    exact ⟨ok_ne_err, fun h => (by cases h), fun ⟨j, s, h1, h2, _⟩ => by omega⟩
  | k + 1, es, i => by
    by_cases hs : ∃ s, StructAt es i s
    · obtain ⟨s, hs⟩ := hs
      obtain ⟨a1, a2⟩ := extendTop_total (map := map) (es := es) (i := i) (s := s)
      have hlt : i < es.length := (List.getElem?_eq_some_iff.1 hs).1
      rw [extendAll, show es[i]? = some (.struct s) from hs]
      dsimp only
      refine ⟨bind_ne_err a1 fun _ _ => extendAll_total.1, ?_⟩
      have hset : ∀ s' m, m ≠ i → (es.set i (.struct s'))[m]? = es[m]? := fun s' m hm =>
        List.getElem?_set_ne (fun e => hm e.symm)
      rw [bind_panic]
      constructor
      · rintro (h | ⟨s', -, h⟩)
        · exact ⟨i, s, by omega, by omega, hs, a2.1 h⟩
        · obtain ⟨j, t, h1, h2, h3, h4⟩ := extendAll_total.2.1 h
          refine ⟨j, t, by omega, by omega, ?_, h4⟩
          rw [StructAt, hset s' j (by omega)] at h3
          exact h3
      · rintro ⟨j, t, h1, h2, h3, h4⟩
        by_cases hj : j = i
        · subst hj
          obtain rfl := RsEntity.struct.inj (Option.some.inj (hs.symm.trans h3))
          exact .inl (a2.2 h4)
        · cases ht : extendTop map es i s with
          | err => exact absurd ht a1
          | panic => exact .inl rfl
          | ok s' =>
            refine .inr ⟨s', rfl, extendAll_total.2.2 ⟨j, t, by omega, by omega, ?_, h4⟩⟩
            rw [StructAt, hset s' j hj]
            exact h3
    · have h : extendAll map es i (k + 1) = extendAll map es (i + 1) k := by
        rw [extendAll]
        cases he : es[i]? with
        | none => rfl
        | some e =>
          cases e with
          | struct s => exact absurd ⟨s, he⟩ hs
          | _ => rfl
      rw [h]
      refine ⟨extendAll_total.1, extendAll_total.2.trans ?_⟩
      constructor
      · rintro ⟨j, t, h1, h2, h⟩
        exact ⟨j, t, by omega, by omega, h⟩
      · rintro ⟨j, t, h1, h2, h3, h4⟩
        have hj : j ≠ i := fun e => hs ⟨t, e ▸ h3⟩
        exact ⟨j, t, by omega, by omega, h3, h4⟩

/-- **`parse` panics on a schema it has read iff an inline type is derived from the type it is in.** -/
theorem extendFile_panic {f : RsFile} : extendFile f ≠ .err ∧ (extendFile f = .panic ↔
    ∃ i s t key, f.types[i]? = some (.struct s) ∧ t ∈ nestedBases s.fields ∧ AfterLastColon t key ∧
      Resolves (f.types ++ f.attributeGroups) key i) := by
  unfold extendFile
  dsimp only
  refine ⟨bind_ne_err extendAll_total.1 fun _ _ => ok_ne_err, ?_⟩
  rw [bind_panic]
  refine Iff.trans ⟨fun h => h.elim id fun ⟨_, _, h⟩ => (by cases h), .inl⟩ (extendAll_total.2.trans ?_)
  constructor
  · rintro ⟨j, s, -, h2, h3, t, h4, h5⟩
    refine ⟨j, s, t, lastSegment t, ?_, h4, Gen.lastSegment_iff.1 rfl, typesMap_some.1 h5⟩
    rw [StructAt, List.getElem?_append_left (by omega)] at h3
    exact h3
  · rintro ⟨j, s, t, key, h1, h2, h3, h4⟩
    have hj : j < f.types.length := (List.getElem?_eq_some_iff.1 h1).1
    refine ⟨j, s, by omega, by omega, ?_, t, h2, ?_⟩
    · rw [StructAt, List.getElem?_append_left hj]
      exact h1
    · rw [Gen.lastSegment_iff.2 h3]
      exact typesMap_some.2 h4

/-! ## The exact characterisation -/

theorem extendAll_of {all fin : List RsEntity} {len : Nat} (hl : fin.length = all.length) (hlen : len ≤ all.length)
    (hk : ∀ i e, i < len → all[i]? = some e →
      (∀ s, e = .struct s → ∃ s', fin[i]? = some (.struct s') ∧ Extended all fin i s s') ∧
      ((∀ s, e ≠ .struct s) → fin[i]? = some e)) : ∀ (k i : Nat), i + k = len →
    extendAll (typesMap all) (fin.take i ++ all.drop i) i k = .ok (fin.take len ++ all.drop len)
  | 0, i, h => by
    rw [extendAll, show i = len by omega]
  | k + 1, i, h => by
    have hi : i < all.length := by omega
    have htl : (fin.take i).length = i := by rw [List.length_take]; omega
    have hlow : ∀ m, m < i → (fin.take i ++ all.drop i)[m]? = fin[m]? := fun m hm => by
      rw [List.getElem?_append_left (by omega), List.getElem?_take, if_pos hm]
    have hhigh : ∀ m, i ≤ m → (fin.take i ++ all.drop i)[m]? = all[m]? := fun m hm => by
      rw [List.getElem?_append_right (by omega), htl, List.getElem?_drop]
      congr 1
      omega
    obtain ⟨e, he⟩ : ∃ e, all[i]? = some e := ⟨all[i], List.getElem?_eq_getElem hi⟩
    obtain ⟨h1, h2⟩ := hk i e (by omega) he
    have hnext : ∀ e', fin[i]? = some e' →
        (fin.take i ++ all.drop i).set i e' = fin.take (i + 1) ++ all.drop (i + 1) := by
      intro e' he'
      have hif : i < fin.length := by omega
      rw [List.set_append_right _ _ (by omega), htl, Nat.sub_self, List.drop_eq_getElem_cons hi, List.set_cons_zero,
        List.take_add_one, he']
      simp
    by_cases hs : ∃ s, e = .struct s
    · obtain ⟨s, rfl⟩ := hs
      obtain ⟨s', h3, h4⟩ := h1 s rfl
      have : extendTop (typesMap all) (fin.take i ++ all.drop i) i s = .ok s' := by
        refine (extendTop_iff hlow hhigh ?_).2 h4
        intro m t hm ht
        obtain ⟨t', e, -⟩ := (hk m _ (by omega) ht).1 t rfl
        exact ⟨t', e⟩
      rw [extendAll, hhigh i (Nat.le_refl i), he]
      dsimp only
      rw [this, Res.ok_bind, hnext _ h3]
      exact extendAll_of hl hlen hk k (i + 1) (by omega)
    · have h3 := h2 fun s e => hs ⟨s, e⟩
      have : extendAll (typesMap all) (fin.take i ++ all.drop i) i (k + 1) =
          extendAll (typesMap all) (fin.take i ++ all.drop i) (i + 1) k := by
        rw [extendAll, hhigh i (Nat.le_refl i), he]
        cases e with
        | struct s => exact absurd ⟨s, rfl⟩ hs
        | _ => rfl
      rw [this]
      have h4 : fin.take i ++ all.drop i = fin.take (i + 1) ++ all.drop (i + 1) := by
        rw [← hnext e h3]
        apply List.ext_getElem?
        intro m
        rw [List.getElem?_set]
        split
        · rename_i e
          subst e
          rw [if_pos (by rw [List.length_append, htl, List.length_drop]; omega), hhigh i (Nat.le_refl i), he]
        · rfl
      rw [h4]
      exact extendAll_of hl hlen hk k (i + 1) (by omega)

theorem extendFile_iff {f g : RsFile} : extendFile f = .ok g ↔ ExtendedFile f g := by
  refine ⟨extendFile_ok, ?_⟩
  rintro ⟨⟨h1, h2, h3, h4⟩, h5, h6, h7⟩
  unfold extendFile
  dsimp only
  have := extendAll_of (all := f.types ++ f.attributeGroups) (fin := g.types ++ g.attributeGroups)
    (len := f.types.length) (by rw [List.length_append, List.length_append, h5, h6])
    (by rw [List.length_append]; omega) (fun i e hi he => by
      rw [List.getElem?_append_left hi] at he
      rw [List.getElem?_append_left (by omega : i < g.types.length)]
      exact h7 i e he) f.types.length 0 (by omega)
  rw [List.take_zero, List.drop_zero, List.nil_append, List.drop_left, ← h5, List.take_left] at this
  rw [← h5, this, Res.ok_bind, List.take_left, List.drop_left]
  obtain ⟨gn, gns, gt, gg, gtn, gx⟩ := g
  dsimp only at h1 h2 h3 h4 h5 h6
  rw [h1, h2, h3, h4, h6]

/-! ## The names of the fields in the end -/

theorem flat_names {R : Str → List StructField → Prop} : ∀ {fs fs' : List StructField}, FlatFields R fs fs' →
    fs'.map StructField.name = fs.map StructField.name
  | _, _, .nil => rfl
  | _, _, .cons _ h2 => by
    rw [List.map_cons, List.map_cons, flat_names h2]
    rfl

theorem mem_names {fs : List StructField} {nm : Str} :
    nm ∈ fs.map StructField.name ↔ ∃ f ∈ fs, f.name = nm := by
  rw [List.mem_map]

theorem inherit_names {own inh : List StructField} {nm : Str} :
    nm ∈ (inherit own inh).map StructField.name ↔
    nm ≠ "__base__".toList ∧ (nm ∈ own.map StructField.name ∨ nm ∈ inh.map StructField.name) := by
  simp only [mem_names]
  unfold inherit
  constructor
  · rintro ⟨f, hf, rfl⟩
    rcases List.mem_append.1 hf with h | h
    · obtain ⟨h1, h2⟩ := List.mem_filter.1 h
      exact ⟨of_decide_eq_true h2, .inl ⟨f, h1, rfl⟩⟩
    · obtain ⟨h1, h2⟩ := List.mem_filter.1 h
      exact ⟨(of_decide_eq_true h2).1, .inr ⟨f, h1, rfl⟩⟩
  · rintro ⟨hn, h⟩
    by_cases ho : ∃ f ∈ own, f.name = nm
    · obtain ⟨f, hf, rfl⟩ := ho
      exact ⟨f, List.mem_append.2 (.inl (List.mem_filter.2 ⟨hf, decide_eq_true hn⟩)), rfl⟩
    · obtain ⟨f, hf, rfl⟩ := h.resolve_left ho
      exact ⟨f, List.mem_append.2 (.inr (List.mem_filter.2 ⟨hf, decide_eq_true ⟨hn, fun g hg e => ho ⟨g, hg, e⟩⟩⟩)), rfl⟩

theorem seen_unique {before after : List RsEntity} {i : Nat} {own : Option (List StructField)} {key : Str}
    {l l' : List StructField} (h : Seen before after i own key l) (h' : Seen before after i own key l') : l = l' := by
  have no : ∀ j, Unknown before key → Resolves before key j → False := fun j h1 h2 => by
    obtain ⟨s, hs, e⟩ := h2.1
    exact h1 j s hs e
  cases h with
  | unknown h =>
    cases h' with
    | unknown => rfl
    | self h2 => exact (no _ h h2).elim
    | earlier h2 => exact (no _ h h2).elim
    | later h2 => exact (no _ h h2).elim
  | self h e =>
    cases h' with
    | unknown h2 => exact (no _ h2 h).elim
    | self h2 e2 => exact Option.some.inj (e.symm.trans e2)
    | earlier h2 hlt => have := resolves_unique h h2; omega
    | later h2 hlt => have := resolves_unique h h2; omega
  | earlier h hlt hs =>
    cases h' with
    | unknown h2 => exact (no _ h2 h).elim
    | self h2 => have := resolves_unique h h2; omega
    | earlier h2 hlt2 hs2 =>
      obtain rfl := resolves_unique h h2
      rw [RsEntity.struct.inj (Option.some.inj (hs.symm.trans hs2))]
    | later h2 hlt2 => have := resolves_unique h h2; omega
  | later h hlt hs =>
    cases h' with
    | unknown h2 => exact (no _ h2 h).elim
    | self h2 => have := resolves_unique h h2; omega
    | earlier h2 hlt2 => have := resolves_unique h h2; omega
    | later h2 hlt2 hs2 =>
      obtain rfl := resolves_unique h h2
      rw [RsEntity.struct.inj (Option.some.inj (hs.symm.trans hs2))]

theorem gathered_names {look : Str → List StructField → Prop} (hf : ∀ key l l', look key l → look key l' → l = l')
    {ts : List Str} {fs : List StructField} {nm : Str} (h : Gathered look ts fs) : nm ∈ fs.map StructField.name ↔
      ∃ t ∈ ts, ∃ key l, AfterLastColon t key ∧ look key l ∧ nm ∈ l.map StructField.name := by
  obtain ⟨ls, h, rfl⟩ := h
  induction h with
  | nil => exact ⟨fun h => (nomatch h), fun ⟨_, h, _⟩ => (nomatch h)⟩
  | @cons t l ts ls h1 h2 ih =>
    rw [List.flatten_cons, List.map_append, List.mem_append, ih, List.exists_mem_cons_iff]
    refine or_congr ?_ Iff.rfl
    obtain ⟨key, hk, hl⟩ := h1
    constructor
    · intro h
      exact ⟨key, l, hk, hl, h⟩
    · rintro ⟨key', l', hk', hl', h⟩
      obtain rfl : key = key' := (Gen.lastSegment_iff.2 hk).symm.trans (Gen.lastSegment_iff.2 hk')
      rw [hf _ _ _ hl hl']
      exact h

/-- Behind the types, there are only own fields. -/
theorem hasField_group {es : List RsEntity} {k i : Nat} {nm : Str} (hk : k ≤ i) {s : RStruct} (hs : StructAt es i s) :
    HasField es k i nm ↔ nm ∈ s.fields.map StructField.name := by
  rw [mem_names]
  constructor
  · intro h
    cases h with
    | own hs' hf =>
      obtain rfl := RsEntity.struct.inj (Option.some.inj (hs.symm.trans hs'))
      exact ⟨_, hf, rfl⟩
    | base h => omega
    | group h => omega
  · rintro ⟨f, hf, rfl⟩
    exact .own hs hf

/-- **The names of the fields of a type are those it has of its own, by derivation or by attribute groups.** -/
theorem hasField_iff {f g : RsFile} (h : ExtendedFile f g)
    (ho : Ordered (f.types ++ f.attributeGroups) f.types.length) {nm : Str} (hn : nm ≠ "__base__".toList) : ∀ (i : Nat)
    {s : RStruct}, StructAt (g.types ++ g.attributeGroups) i s →
    (nm ∈ s.fields.map StructField.name ↔ HasField (f.types ++ f.attributeGroups) f.types.length i nm) := by
  obtain ⟨-, hl, hg, ht⟩ := h
  have hgroup : ∀ j s, f.types.length ≤ j →
      (StructAt (g.types ++ g.attributeGroups) j s ↔ StructAt (f.types ++ f.attributeGroups) j s) := by
    intro j s hj
    unfold StructAt
    rw [List.getElem?_append_right (by omega), List.getElem?_append_right (by omega), hl, hg]
  intro i
  induction i using Nat.strongRecOn with
  | ind i ih =>
    intro s hs
    by_cases hi : f.types.length ≤ i
    · exact (hasField_group hi ((hgroup i s hi).1 hs)).symm
    · replace hi : i < f.types.length := by omega
      obtain ⟨e, he⟩ : ∃ e, f.types[i]? = some e := ⟨f.types[i], List.getElem?_eq_getElem hi⟩
      have hs2 : g.types[i]? = some (.struct s) := by
        rw [StructAt, List.getElem?_append_left (by omega)] at hs
        exact hs
      obtain ⟨t1, t2⟩ := ht i e he
      by_cases hes : ∃ s0, e = .struct s0
      · obtain ⟨s0, rfl⟩ := hes
        obtain ⟨s', h1, h2⟩ := t1 s0 rfl
        obtain rfl := RsEntity.struct.inj (Option.some.inj (hs2.symm.trans h1))
        have hs0 : StructAt (f.types ++ f.attributeGroups) i s0 := by
          rw [StructAt, List.getElem?_append_left hi]
          exact he
        -- what is seen of a type
        have seen : ∀ own t key l, (t ∈ bases s0.fields ∨ ∃ a ∈ s0.attributeGroups, t = a.original) →
            AfterLastColon t key → Seen (f.types ++ f.attributeGroups) (g.types ++ g.attributeGroups) i own key l →
            nm ∈ l.map StructField.name → ∃ j, Resolves (f.types ++ f.attributeGroups) key j ∧
              HasField (f.types ++ f.attributeGroups) f.types.length j nm := by
          intro own t key l hm hk hsn hin
          cases hsn with
          | unknown => cases hin
          | self hr => have := ho i s0 t key i hi hs0 hm hk hr; omega
          | earlier hr hlt hsj => exact ⟨_, hr, (ih _ hlt hsj).1 hin⟩
          | @later j sj hr hlt hsj =>
            have := ho i s0 t key j hi hs0 hm hk hr
            exact ⟨_, hr, (hasField_group (by omega) hsj).2 hin⟩
        have sees : ∀ own t key j, (t ∈ bases s0.fields ∨ ∃ a ∈ s0.attributeGroups, t = a.original) →
            AfterLastColon t key → Resolves (f.types ++ f.attributeGroups) key j →
            HasField (f.types ++ f.attributeGroups) f.types.length j nm →
            ∃ l, Seen (f.types ++ f.attributeGroups) (g.types ++ g.attributeGroups) i own key l ∧
              nm ∈ l.map StructField.name := by
          intro own t key j hm hk hr hh
          obtain ⟨sj, hsj, -⟩ := id hr.1
          rcases ho i s0 t key j hi hs0 hm hk hr with hlt | hge
          · obtain ⟨s', h1, -⟩ := (ht j (.struct sj) (by
              rw [StructAt, List.getElem?_append_left (by omega)] at hsj
              exact hsj)).1 sj rfl
            have hs' : StructAt (g.types ++ g.attributeGroups) j s' := by
              rw [StructAt, List.getElem?_append_left (by omega)]
              exact h1
            exact ⟨_, .earlier hr hlt hs', (ih j hlt hs').2 hh⟩
          · exact ⟨_, .later hr (by omega) hsj, (hasField_group hge hsj).1 hh⟩
        cases h2 with
        | @mk n c fs ag sub own inh gs sub' ha hb hc hd =>
          show nm ∈ (inherit own inh ++ gs).map StructField.name ↔ _
          rw [List.map_append, List.mem_append, inherit_names, flat_names ha,
            gathered_names (look := Seen _ _ _ _) (fun _ _ _ => seen_unique) hb, bases_flat ha, gathered_names (look := Seen _ _ _ _) (fun _ _ _ => seen_unique) hd]
          constructor
          · rintro (⟨-, h | ⟨t, hm, key, l, hk, h, hin⟩⟩ | ⟨t, hm, key, l, hk, h, hin⟩)
            · obtain ⟨fl, hf, rfl⟩ := mem_names.1 h
              exact .own hs0 hf
            · obtain ⟨j, hr, hh⟩ := seen _ t key l (.inl hm) hk h hin
              exact .base hi hs0 hm hk hr hh
            · obtain ⟨a, ham, rfl⟩ := List.mem_map.1 hm
              obtain ⟨j, hr, hh⟩ := seen _ a.original key l (.inr ⟨a, ham, rfl⟩) hk h hin
              exact .group hi hs0 ham hk hr hh
          · intro h
            cases h with
            | own hs' hf =>
              obtain rfl := RsEntity.struct.inj (Option.some.inj (hs0.symm.trans hs'))
              exact .inl ⟨hn, .inl (mem_names.2 ⟨_, hf, rfl⟩)⟩
            | @base _ _ t key j _ _ hs' hm hk hr hh =>
              obtain rfl := RsEntity.struct.inj (Option.some.inj (hs0.symm.trans hs'))
              obtain ⟨l, h1, h2⟩ := sees (some own) t key j (.inl hm) hk hr hh
              exact .inl ⟨hn, .inr ⟨t, hm, key, l, hk, h1, h2⟩⟩
            | @group _ _ a key j _ _ hs' hm hk hr hh =>
              obtain rfl := RsEntity.struct.inj (Option.some.inj (hs0.symm.trans hs'))
              obtain ⟨l, h1, h2⟩ := sees (some (inherit own inh)) a.original key j (.inr ⟨a, hm, rfl⟩) hk hr hh
              exact .inr ⟨_, List.mem_map_of_mem hm, key, l, hk, h1, h2⟩
      · have := t2 fun s0 e => hes ⟨s0, e⟩
        rw [hs2] at this
        exact absurd ⟨s, (Option.some.inj this).symm⟩ hes

end Verif.Lemmas.Ext
