import Verif.Lemmas.DocFields

/-! # The fields are determined by the schema -/

namespace Verif.Lemmas.Parse

open Verif Verif.Model Verif.RoXml Verif.Spec

theorem same_refl (f : StructField) : SameField f f := ⟨rfl, rfl, rfl, rfl, rfl, rfl⟩

theorem sames_refl (fs : List StructField) : List.Forall₂ SameField fs fs := by
  induction fs with
  | nil => exact .nil
  | cons f fs ih => exact .cons (same_refl f) ih

theorem useOf_unique {n : Node} {m m' : TypeModifier} (h : UseOf n m) (h' : UseOf n m') : m = m' := by
  obtain ⟨u, h1, rfl⟩ := attrUse_of h
  obtain ⟨u', h2, rfl⟩ := attrUse_of h'
  rw [Res.ok.inj (h1.symm.trans h2)]

theorem wrapperOf_unique {n : Node} {m m' : TypeModifier} (h : WrapperOf n m) (h' : WrapperOf n m') : m = m' :=
  (elementModifier_iff.2 h).symm.trans (elementModifier_iff.2 h')

theorem boxed_unique {o t : Str} {a b b' : List TypeModifier} (h : Boxed o t a b) (h' : Boxed o t a b') : b = b' := by
  cases h with
  | yes h =>
    cases h' with
    | yes => rfl
    | no h' => exact absurd h (h' _)
  | no h =>
    cases h' with
    | yes h' => exact absurd h' (h _)
    | no => rfl

theorem attrField_unique {c : Node} {f f' : StructField} (h : AttrField c f) (h' : AttrField c f') : f = f' := by
  cases h with
  | «attribute» t h =>
    cases h' with
    | «attribute» _ h' =>
      cases h with
      | named h1 h2 =>
        cases h' with
        | named h3 h4 => rw [Option.some.inj (h1.symm.trans h3), useOf_unique h2 h4]
        | ref h3 => rw [h1] at h3; cases h3
      | ref h1 h2 h3 =>
        cases h' with
        | named h4 => rw [h1] at h4; cases h4
        | ref _ h5 h6 => rw [Option.some.inj (h2.symm.trans h5), useOf_unique h3 h6]
    | any t' => rw [t] at t'; exact absurd t' (by decide)
  | any t =>
    cases h' with
    | «attribute» t' => rw [t] at t'; exact absurd t' (by decide)
    | any => rfl

theorem forall₂_unique {α β : Type _} {R : α → β → Prop} (hr : ∀ a b b', R a b → R a b' → b = b') {as : List α}
    {bs bs' : List β} (h : List.Forall₂ R as bs) (h' : List.Forall₂ R as bs') : bs = bs' := by
  induction h generalizing bs' with
  | nil => cases h'; rfl
  | cons h1 _ ih =>
    cases h' with
    | cons h2 h3 => rw [hr _ _ _ h1 h2, ih h3]

theorem forall₂_same {α : Type _} {R : α → StructField → Prop} (hr : ∀ a b b', R a b → R a b' → SameField b b')
    {as : List α} {bs bs' : List StructField} (h : List.Forall₂ R as bs) (h' : List.Forall₂ R as bs') :
    List.Forall₂ SameField bs bs' := by
  induction h generalizing bs' with
  | nil => cases h'; exact .nil
  | cons h1 _ ih =>
    cases h' with
    | cons h2 h3 => exact .cons (hr _ _ _ h1 h2) (ih h3)

theorem attrFields_unique {n : Node} {a b : List StructField} (h : AttrFields n a) (h' : AttrFields n b) : a = b :=
  forall₂_unique (R := AttrField) (fun _ _ _ => attrField_unique) h h'

theorem groupNames_unique {n : Node} {a b : List Str} (h : GroupNames n a) (h' : GroupNames n b) : a = b :=
  forall₂_unique (fun _ _ _ h h' => Option.some.inj (h.symm.trans h')) h h'

theorem memberField_same {I I' : Node → RsEntity → Prop} {o : Str} {c : Node} {f f' : StructField}
    (h : MemberField I o c f) (h' : MemberField I' o c f') : SameField f f' := by
  cases h with
  | typed t1 h1 h2 h3 h4 =>
    cases h' with
    | typed _ k1 k2 k3 k4 =>
      obtain rfl := Option.some.inj (h1.symm.trans k1)
      obtain rfl := Option.some.inj (h2.symm.trans k2)
      obtain rfl := wrapperOf_unique h3 k3
      obtain rfl := boxed_unique h4 k4
      exact same_refl _
    | ref _ k1 => rw [h1] at k1; cases k1
    | inline _ _ _ k => rw [h2] at k; cases k
    | any t => rw [t1] at t; exact absurd t (by decide)
    | choice t => rw [t1] at t; exact absurd t (by decide)
  | ref t1 h1 h2 h3 h4 =>
    cases h' with
    | typed _ k1 => rw [h1] at k1; cases k1
    | ref _ _ k2 k3 k4 =>
      obtain rfl := Option.some.inj (h2.symm.trans k2)
      obtain rfl := wrapperOf_unique h3 k3
      obtain rfl := boxed_unique h4 k4
      exact same_refl _
    | inline _ _ k => rw [h1] at k; cases k
    | any t => rw [t1] at t; exact absurd t (by decide)
    | choice t => rw [t1] at t; exact absurd t (by decide)
  | inline t1 _ h1 h2 _ _ _ h3 h4 =>
    cases h' with
    | typed _ _ k => rw [h2] at k; cases k
    | ref _ k => rw [h1] at k; cases k
    | inline _ _ k1 k2 _ _ _ k3 k4 =>
      obtain rfl := Option.some.inj (h1.symm.trans k1)
      obtain rfl := wrapperOf_unique h3 k3
      obtain rfl := boxed_unique h4 k4
      exact ⟨rfl, rfl, rfl, rfl, rfl, rfl⟩
    | any t => rw [t1] at t; exact absurd t (by decide)
    | choice t => rw [t1] at t; exact absurd t (by decide)
  | any t1 h1 =>
    cases h' with
    | typed t => rw [t1] at t; exact absurd t (by decide)
    | ref t => rw [t1] at t; exact absurd t (by decide)
    | inline t => rw [t1] at t; exact absurd t (by decide)
    | any _ k1 =>
      obtain rfl := boxed_unique h1 k1
      exact same_refl _
    | choice t => rw [t1] at t; exact absurd t (by decide)
  | choice t1 =>
    cases h' with
    | typed t => rw [t1] at t; exact absurd t (by decide)
    | ref t => rw [t1] at t; exact absurd t (by decide)
    | inline t => rw [t1] at t; exact absurd t (by decide)
    | any t => rw [t1] at t; exact absurd t (by decide)
    | choice => exact ⟨rfl, rfl, rfl, rfl, rfl, rfl⟩

theorem sequenceFields_same {o : Str} {s : Node} {a b : List StructField} (h : SequenceFields o s a)
    (h' : SequenceFields o s b) : List.Forall₂ SameField a b := 
  forall₂_same (R := MemberField anyType o) (fun _ _ _ => memberField_same) h h'

theorem sames_append {a b c d : List StructField} (h : List.Forall₂ SameField a b) (h' : List.Forall₂ SameField c d) :
    List.Forall₂ SameField (a ++ c) (b ++ d) := List.rel_append h h'

private theorem tags_ne {s : Node} {l l' : List String} (h : Is s l) (h' : Is s l')
    (hd : ∀ x ∈ l.map String.toList, x ∉ l'.map String.toList) : False := hd _ h h'

theorem ownFields_unique {o : Str} {n : Node} {a b : List StructField} {gs gs' : List Str} (h : OwnFields o n a gs)
    (h' : OwnFields o n b gs') : List.Forall₂ SameField a b ∧ gs = gs' := by
  cases h with
  | plain h1 h2 h3 =>
    cases h' with
    | plain _ k2 k3 => rw [attrFields_unique h2 k2, groupNames_unique h3 k3]; exact ⟨sames_refl _, rfl⟩
    | sequence k1 _ k3 => exact absurd (h1 _ k1) k3
    | simple k1 _ k3 => exact absurd (h1 _ k1) k3
    | derived k1 _ k3 => exact absurd (h1 _ k1) k3
    | derivedSequence k1 _ k3 => exact absurd (h1 _ k1) k3
  | sequence h1 t h3 h4 h5 =>
    cases h' with
    | plain k1 => exact absurd (k1 _ h1) h3
    | sequence k1 _ _ k4 k5 =>
      obtain rfl := Option.some.inj (h1.symm.trans k1)
      rw [attrFields_unique h5 k5]
      exact ⟨sames_append (sequenceFields_same h4 k4) (sames_refl _), rfl⟩
    | simple k1 t' =>
      obtain rfl := Option.some.inj (h1.symm.trans k1)
      exact (tags_ne t t' (by decide)).elim
    | derived k1 t' =>
      obtain rfl := Option.some.inj (h1.symm.trans k1)
      exact (tags_ne t t' (by decide)).elim
    | derivedSequence k1 t' =>
      obtain rfl := Option.some.inj (h1.symm.trans k1)
      exact (tags_ne t t' (by decide)).elim
  | simple h1 t h3 h4 _ h6 h7 h8 h9 =>
    cases h' with
    | plain k1 => exact absurd (k1 _ h1) h3
    | sequence k1 t' =>
      obtain rfl := Option.some.inj (h1.symm.trans k1)
      exact (tags_ne t t' (by decide)).elim
    | simple k1 _ _ k4 _ k6 k7 k8 k9 =>
      obtain rfl := Option.some.inj (h1.symm.trans k1)
      obtain rfl := Option.some.inj (h4.symm.trans k4)
      obtain rfl := Option.some.inj (h6.symm.trans k6)
      rw [attrFields_unique h7 k7, groupNames_unique h8 k8, attrFields_unique h9 k9]
      exact ⟨sames_refl _, rfl⟩
    | derived k1 t' =>
      obtain rfl := Option.some.inj (h1.symm.trans k1)
      exact (tags_ne t t' (by decide)).elim
    | derivedSequence k1 t' =>
      obtain rfl := Option.some.inj (h1.symm.trans k1)
      exact (tags_ne t t' (by decide)).elim
  | derived h1 t h3 h4 _ h6 h7 h8 h9 h10 =>
    cases h' with
    | plain k1 => exact absurd (k1 _ h1) h3
    | sequence k1 t' =>
      obtain rfl := Option.some.inj (h1.symm.trans k1)
      exact (tags_ne t t' (by decide)).elim
    | simple k1 t' =>
      obtain rfl := Option.some.inj (h1.symm.trans k1)
      exact (tags_ne t t' (by decide)).elim
    | derived k1 _ _ k4 _ k6 k7 k8 k9 k10 =>
      obtain rfl := Option.some.inj (h1.symm.trans k1)
      obtain rfl := Option.some.inj (h4.symm.trans k4)
      obtain rfl := Option.some.inj (h6.symm.trans k6)
      rw [attrFields_unique h7 k7, groupNames_unique h8 k8, attrFields_unique h10 k10]
      exact ⟨sames_refl _, rfl⟩
    | derivedSequence k1 _ _ k4 _ _ _ k8 k9 =>
      obtain rfl := Option.some.inj (h1.symm.trans k1)
      obtain rfl := Option.some.inj (h4.symm.trans k4)
      exact absurd k9 (h9 _ k8)
  | derivedSequence h1 t h3 h4 _ h6 h7 h8 h9 h10 h11 =>
    cases h' with
    | plain k1 => exact absurd (k1 _ h1) h3
    | sequence k1 t' =>
      obtain rfl := Option.some.inj (h1.symm.trans k1)
      exact (tags_ne t t' (by decide)).elim
    | simple k1 t' =>
      obtain rfl := Option.some.inj (h1.symm.trans k1)
      exact (tags_ne t t' (by decide)).elim
    | derived k1 _ _ k4 _ _ _ _ k9 =>
      obtain rfl := Option.some.inj (h1.symm.trans k1)
      obtain rfl := Option.some.inj (h4.symm.trans k4)
      exact absurd h9 (k9 _ h8)
    | derivedSequence k1 _ _ k4 _ k6 k7 k8 _ k10 k11 =>
      obtain rfl := Option.some.inj (h1.symm.trans k1)
      obtain rfl := Option.some.inj (h4.symm.trans k4)
      obtain rfl := Option.some.inj (h6.symm.trans k6)
      obtain rfl := Option.some.inj (h8.symm.trans k8)
      rw [attrFields_unique h7 k7, attrFields_unique h11 k11]
      exact ⟨sames_append (sames_append (sequenceFields_same h10 k10) (sames_refl _)) (sames_refl _), rfl⟩

/-! ## Inherited fields -/

theorem sames_bases {a b : List StructField} (h : List.Forall₂ SameField a b) : bases a = bases b := by
  induction h with
  | nil => rfl
  | @cons f f' a b h1 _ ih =>
    have hm : Marker f ↔ Marker f' := by unfold Marker; rw [h1.1]
    unfold bases at ih ⊢
    by_cases hk : Marker f
    · rw [List.filter_cons_of_pos (by simpa using hk), List.filter_cons_of_pos (by simpa using hm.1 hk), List.map_cons,
        List.map_cons, ih, h1.2.1]
    · rw [List.filter_cons_of_neg (by simpa using hk), List.filter_cons_of_neg (by simpa using fun h => hk (hm.2 h)), ih]

theorem sames_filter {p q : StructField → Bool} (hpq : ∀ f f', SameField f f' → p f = q f') {a b : List StructField}
    (h : List.Forall₂ SameField a b) : List.Forall₂ SameField (a.filter p) (b.filter q) := by
  induction h with
  | nil => exact .nil
  | @cons f f' a b h1 _ ih =>
    have := hpq f f' h1
    by_cases hp : p f = true
    · rw [List.filter_cons_of_pos hp, List.filter_cons_of_pos (this ▸ hp)]; exact .cons h1 ih
    · rw [List.filter_cons_of_neg hp, List.filter_cons_of_neg (this ▸ hp)]; exact ih

theorem sames_names {a b : List StructField} (h : List.Forall₂ SameField a b) : a.map StructField.name = b.map StructField.name := by
  induction h with
  | nil => rfl
  | cons h1 _ ih => rw [List.map_cons, List.map_cons, ih, h1.1]

theorem sames_inherit {a b c d : List StructField} (h : List.Forall₂ SameField a b) (h' : List.Forall₂ SameField c d) :
    List.Forall₂ SameField (inherit a c) (inherit b d) := by
  have hm : ∀ {f f'}, SameField f f' → (Marker f ↔ Marker f') := fun h => by unfold Marker; rw [h.1]
  have hn : ∀ nm, (∀ g ∈ a, g.name ≠ nm) ↔ ∀ g ∈ b, g.name ≠ nm := by
    intro nm
    have e : ∀ l : List StructField, (∀ g ∈ l, g.name ≠ nm) ↔ nm ∉ l.map StructField.name := by
      intro l; simp
    rw [e, e, sames_names h]
  refine sames_append (sames_filter (fun f f' h => ?_) h) (sames_filter (fun f f' h => ?_) h')
  · rw [decide_eq_decide, hm h]
  · rw [decide_eq_decide, hm h, hn, h.1]

theorem gathered_same {P Q : Str → List StructField → Prop} {ns : List Str} {a b : List StructField}
    (hpq : ∀ k l l', P k l → Q k l' → List.Forall₂ SameField l l') (h : Gathered P ns a) (h' : Gathered Q ns b) :
    List.Forall₂ SameField a b := by
  obtain ⟨ls, h, rfl⟩ := h
  obtain ⟨ls', h', rfl⟩ := h'
  induction h generalizing ls' with
  | nil => cases h'; exact .nil
  | cons h1 _ ih =>
    cases h' with
    | cons h2 h3 =>
      obtain ⟨k, hk, h1⟩ := h1
      obtain ⟨k', hk', h2⟩ := h2
      obtain rfl := Gen.afterLastColon_unique hk hk'
      exact sames_append (hpq _ _ _ h1 h2) (ih _ h3)

/-! ## All fields -/

theorem typeBody_unique {c n n' : Node} (b1 : TypeBody c n) (b2 : TypeBody c n') : n = n' := by
  cases b1 with
  | type t1 =>
    cases b2 with
    | type => rfl
    | element t2 => rw [t1] at t2; exact absurd t2 (by decide)
  | element t1 _ u1 _ =>
    cases b2 with
    | type t2 => rw [t1] at t2; exact absurd t2 (by decide)
    | element _ _ u2 _ => exact Option.some.inj (u1.symm.trans u2)

theorem decl_at {root c : Node} {i : Nat} (h : (globals root)[i]? = some c) : (declarations root)[i]? = some c := by
  unfold declarations
  rw [List.getElem?_append_left]
  · exact h
  · exact (List.getElem?_eq_some_iff.1 h).1

theorem group_at {root c : Node} (h : c ∈ withTags root ["attributeGroup"]) :
    ∃ i : Nat, (globals root).length ≤ i ∧ (declarations root)[i]? = some c := by
  obtain ⟨j, hj⟩ := List.getElem?_of_mem h
  refine ⟨(globals root).length + j, by omega, ?_⟩
  unfold declarations
  rw [List.getElem?_append_right (by omega)]
  simpa using hj

theorem declares_index {root c d n m : Node} {nm : Str} {i j : Nat} (hr : RegularSchema root)
    (hc : (globals root)[i]? = some c) (hd : (globals root)[j]? = some d) (h1 : Declares root c nm n)
    (h2 : Declares root d nm m) : i = j :=
  hr.distinct i j c d nm (decl_at hc) (decl_at hd) (declares_like h1) (declares_like h2) h1.2.1 h2.2.1

theorem declares_group {root c d n : Node} {nm : Str} (hr : RegularSchema root) (h1 : Declares root c nm n)
    (h2 : d ∈ withTags root ["attributeGroup"]) (h3 : d.attr "name".toList = some nm) : False := by
  obtain ⟨i, hi⟩ := List.getElem?_of_mem h1.1
  obtain ⟨j, hj, hj'⟩ := group_at h2
  have := hr.distinct i j c d nm (decl_at hi) hj' (declares_like h1) (group_like h2) h1.2.1 h3
  have := (List.getElem?_eq_some_iff.1 hi).1
  omega

theorem declares_unique {root c d n m : Node} {nm : Str} (hr : RegularSchema root) (h1 : Declares root c nm n)
    (h2 : Declares root d nm m) : c = d ∧ n = m := by
  obtain ⟨i, hi⟩ := List.getElem?_of_mem h1.1
  obtain ⟨j, hj⟩ := List.getElem?_of_mem h2.1
  obtain rfl := declares_index hr hi hj h1 h2
  obtain rfl := Option.some.inj (hi.symm.trans hj)
  exact ⟨rfl, typeBody_unique h1.2.2.1 h2.2.2.1⟩

theorem declares_not_before {root c n : Node} {nm : Str} (hr : RegularSchema root) (h : Declares root c nm n) :
    ¬ Before root c c := by
  rintro ⟨i, j, hij, hi, hj⟩
  have := declares_index hr hi hj h h
  omega

theorem visible_same {root c n : Node} {nm : Str} {F F' : Node → List StructField} {own own' : List StructField} {key : Str}
    {l l' : List StructField} (hr : RegularSchema root) (hc : Declares root c nm n)
    (hF : ∀ d nm n, Declares root d nm n → Before root d c → List.Forall₂ SameField (F d) (F' d))
    (ho : List.Forall₂ SameField own own') (h : Visible root F c own key l) (h' : Visible root F' c own' key l') :
    List.Forall₂ SameField l l' := by
  have hba : ∀ {d nm' m}, Declares root d nm' m → Before root d c → Before root c d → False := by
    rintro d nm' m hd ⟨i, j, h1, h2, h3⟩ ⟨i', j', k1, k2, k3⟩
    have e1 := declares_index hr h3 k2 hc hc
    have e2 := declares_index hr h2 k3 hd hd
    omega
  cases h with
  | unknown h1 h2 =>
    cases h' with
    | unknown => exact .nil
    | self k => exact absurd rfl (h1 _ _ _ k)
    | earlier k => exact absurd rfl (h1 _ _ _ k)
    | later k => exact absurd rfl (h1 _ _ _ k)
    | group k1 k2 => exact absurd k2 (h2 _ k1)
  | self h1 =>
    cases h' with
    | unknown k => exact absurd rfl (k _ _ _ h1)
    | self => exact ho
    | earlier k1 k2 => obtain ⟨rfl, -⟩ := declares_unique hr h1 k1; exact absurd k2 (declares_not_before hr h1)
    | later k1 k2 => obtain ⟨rfl, -⟩ := declares_unique hr h1 k1; exact absurd k2 (declares_not_before hr h1)
    | group k1 k2 => exact (declares_group hr h1 k1 k2).elim
  | earlier h1 h2 =>
    cases h' with
    | unknown k => exact absurd rfl (k _ _ _ h1)
    | self k => obtain ⟨rfl, -⟩ := declares_unique hr h1 k; exact absurd h2 (declares_not_before hr h1)
    | earlier k1 k2 => obtain ⟨rfl, -⟩ := declares_unique hr h1 k1; exact hF _ _ _ h1 h2
    | later k1 k2 => obtain ⟨rfl, -⟩ := declares_unique hr h1 k1; exact (hba h1 h2 k2).elim
    | group k1 k2 => exact (declares_group hr h1 k1 k2).elim
  | later h1 h2 h3 =>
    cases h' with
    | unknown k => exact absurd rfl (k _ _ _ h1)
    | self k => obtain ⟨rfl, -⟩ := declares_unique hr h1 k; exact absurd h2 (declares_not_before hr h1)
    | earlier k1 k2 => obtain ⟨rfl, -⟩ := declares_unique hr h1 k1; exact (hba h1 k2 h2).elim
    | later k1 k2 k3 => obtain ⟨rfl, rfl⟩ := declares_unique hr h1 k1; exact (ownFields_unique h3 k3).1
    | group k1 k2 => exact (declares_group hr h1 k1 k2).elim
  | group h1 h2 h3 =>
    cases h' with
    | unknown _ k => exact absurd h2 (k _ h1)
    | self k => exact (declares_group hr k h1 h2).elim
    | earlier k => exact (declares_group hr k h1 h2).elim
    | later k => exact (declares_group hr k h1 h2).elim
    | group k1 k2 k3 =>
      obtain ⟨i, -, hi⟩ := group_at h1
      obtain ⟨j, -, hj⟩ := group_at k1
      obtain rfl := hr.distinct i j _ _ key hi hj (group_like h1) (group_like k1) h2 k2
      obtain rfl := Option.some.inj (hi.symm.trans hj)
      rw [attrFields_unique h3 k3]
      exact sames_refl _

/-- The fields are the same, whatever the inline types are. -/
theorem typeFields_same {root : Node} {F F' : Node → List StructField} (hr : RegularSchema root)
    (h : ∀ c nm n, Declares root c nm n → TypeFields root F c nm n (F c))
    (h' : ∀ c nm n, Declares root c nm n → TypeFields root F' c nm n (F' c)) {c n : Node} {nm : Str}
    (hc : Declares root c nm n) : List.Forall₂ SameField (F c) (F' c) := by
  obtain ⟨i, hi⟩ := List.getElem?_of_mem hc.1
  induction i using Nat.strong_induction_on generalizing c nm n with
  | _ i ih =>
    obtain ⟨own, gs, inh, grp, h1, h2, h3, h4⟩ := h c nm n hc
    obtain ⟨own', gs', inh', grp', k1, k2, k3, k4⟩ := h' c nm n hc
    obtain ⟨ho, rfl⟩ := ownFields_unique h1 k1
    have hF : ∀ d nm n, Declares root d nm n → Before root d c → List.Forall₂ SameField (F d) (F' d) := by
      rintro d nm' m hd ⟨j, i', hj, hd', hi'⟩
      have := declares_index hr hi hi' hc hc
      exact ih j (by omega) hd hd'
    have hinh : List.Forall₂ SameField inh inh' :=
      gathered_same (P := Visible root F c own) (Q := Visible root F' c own')
        (fun k l l' => visible_same hr hc hF ho) h2 (sames_bases ho ▸ k2)
    have hin := sames_inherit ho hinh
    have hgrp : List.Forall₂ SameField grp grp' := 
      gathered_same (P := Visible root F c (inherit own inh)) (Q := Visible root F' c (inherit own' inh'))
        (fun k l l' => visible_same hr hc hF hin) h3 k3
    rw [h4, k4]
    exact sames_append hin hgrp

theorem fieldMember_same {N : Naming} {pfx : Option Str} {md : Str} {f f' : StructField} {m : Spec.Member}
    (h : SameField f f') (hm : FieldMember N pfx md f m) : FieldMember N pfx md f' m := by
  obtain ⟨h1, h2, h3, h4, h5, h6⟩ := h
  unfold FieldMember at hm ⊢
  rw [← h1, ← h2, ← h4, ← h5, ← h6]
  exact hm

end Verif.Lemmas.Parse
