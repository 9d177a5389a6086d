import Verif.Lemmas.ParseInv
import Verif.Model.Extend

/-! # Invariants of the derivation step -/

namespace Verif.Lemmas.Parse

open Verif Verif.Model Verif.RoXml Verif.Spec

/-- A property of structs which is one of their fields; inline structs may be exchanged. -/
structure Fieldwise (P : RsEntity → Prop) : Prop where
  noSub : ∀ {s}, P (.struct s) → s.subtypes = []
  field : ∀ {s}, P (.struct s) → ∀ f ∈ s.fields, P (.structField f)
  struct : ∀ {n c fs fs' ag}, P (.struct (.mk n c fs ag [])) → (∀ f ∈ fs', P (.structField f)) →
    P (.struct (.mk n c fs' ag []))
  retype : ∀ {n t c sub sub' src ms}, P (.structField (.mk n t c sub src ms)) → List.Forall₂ SameHead sub sub' →
    P (.structField (.mk n t c sub' src ms))

theorem fieldwise_texts (Q : Preds) (hR : ∀ {n t ss ss'}, Q.R n t ss → List.Forall₂ SameHead ss ss' → Q.R n t ss') :
    Fieldwise Q.entity where
  noSub h := h.2.1
  field h f hf := h.2.2.1 f hf
  struct h hf := ⟨h.1, rfl, hf, h.2.2.2⟩
  retype h hs := hR h hs

/-- The fields which are looked up. -/
def LookOk (P : RsEntity → Prop) (look : Str → Res (List StructField)) : Prop :=
  ∀ key fs, look key = .ok fs → ∀ f ∈ fs, Deep P (.structField f)

variable {P : RsEntity → Prop}

theorem deep_fields (F : Fieldwise P) {s : RStruct} (h : Deep P (.struct s)) :
    ∀ f ∈ s.fields, Deep P (.structField f) := by
  intro f hf
  refine .mk (F.field h.here f hf) fun x hx => ?_
  exact h.inside x (List.mem_append.2 (.inr (List.mem_flatMap.2 ⟨f, hf, hx⟩)))

theorem deep_with (F : Fieldwise P) {n : Str} {c : Option Str} {fs fs' : List StructField} {ag : List RAlias}
    (h : Deep P (.struct (.mk n c fs ag []))) (hf : ∀ f ∈ fs', Deep P (.structField f)) :
    Deep P (.struct (.mk n c fs' ag [])) := by
  refine .mk (F.struct h.here fun f h => (hf f h).here) ?_
  intro x hx
  rw [inner] at hx
  rcases List.mem_append.1 hx with hx | hx
  · cases hx
  · obtain ⟨f, h1, h2⟩ := List.mem_flatMap.1 hx
    exact (hf f h1).inside x h2

theorem baseFields_deep {look} (hl : LookOk P look) : ∀ {fs r : List StructField}, baseFields look fs = .ok r →
    ∀ f ∈ r, Deep P (.structField f)
  | [], r, h => by rw [baseFields] at h; obtain rfl := Res.ok.inj h; exact no_kids
  | g :: fs, r, h => by
    rw [baseFields] at h
    split at h
    · obtain ⟨a, ha, h⟩ := Res.bind_eq_ok.1 h
      obtain ⟨b, hb, h⟩ := Res.bind_eq_ok.1 h
      obtain rfl := Res.ok.inj h
      intro f hf
      rcases List.mem_append.1 hf with hf | hf
      · exact hl _ _ ha f hf
      · exact baseFields_deep hl hb f hf
    · exact baseFields_deep hl h

theorem groupFields_deep {look} (hl : LookOk P look) : ∀ {as : List RAlias} {r : List StructField},
    groupFields look as = .ok r → ∀ f ∈ r, Deep P (.structField f)
  | [], r, h => by rw [groupFields] at h; obtain rfl := Res.ok.inj h; exact no_kids
  | g :: fs, r, h => by
    rw [groupFields] at h
    obtain ⟨a, ha, h⟩ := Res.bind_eq_ok.1 h
    obtain ⟨b, hb, h⟩ := Res.bind_eq_ok.1 h
    obtain rfl := Res.ok.inj h
    intro f hf
    rcases List.mem_append.1 hf with hf | hf
    · exact hl _ _ ha f hf
    · exact groupFields_deep hl hb f hf

theorem mergeBase_deep {own inh : List StructField} (h1 : ∀ f ∈ own, Deep P (.structField f))
    (h2 : ∀ f ∈ inh, Deep P (.structField f)) : ∀ f ∈ mergeBase own inh, Deep P (.structField f) := by
  intro f hf
  rcases List.mem_append.1 (List.mem_filter.1 hf).1 with hf | hf
  · exact h1 f hf
  · exact h2 f (List.mem_filter.1 hf).1

theorem extendEntity_head {look} {e e' : RsEntity} (h : extendEntity look e = .ok e') : SameHead e e' := by
  cases e with
  | struct s =>
    rw [extendEntity] at h
    obtain ⟨g, hg, h⟩ := Res.bind_eq_ok.1 h
    obtain rfl := Res.ok.inj h
    refine .struct ?_
    cases s
    rw [extendStruct] at hg
    obtain ⟨_, -, hg⟩ := Res.bind_eq_ok.1 hg
    obtain ⟨_, -, hg⟩ := Res.bind_eq_ok.1 hg
    obtain ⟨_, -, hg⟩ := Res.bind_eq_ok.1 hg
    obtain rfl := Res.ok.inj hg
    rfl
  | _ =>
    rw [extendEntity] at h
    · obtain rfl := Res.ok.inj h; exact .refl
    · exact fun _ => (by simp)

theorem extendSubtypes_heads {look} : ∀ {es es' : List RsEntity}, extendSubtypes look es = .ok es' →
    List.Forall₂ SameHead es es'
  | [], es', h => by rw [extendSubtypes] at h; obtain rfl := Res.ok.inj h; exact .nil
  | e :: es, es', h => by
    rw [extendSubtypes] at h
    obtain ⟨g, hg, h⟩ := Res.bind_eq_ok.1 h
    obtain ⟨gs, hgs, h⟩ := Res.bind_eq_ok.1 h
    obtain rfl := Res.ok.inj h
    exact .cons (extendEntity_head hg) (extendSubtypes_heads hgs)

mutual
theorem extendStruct_deep {look} (F : Fieldwise P) (hl : LookOk P look) : ∀ {s s' : RStruct}, Deep P (.struct s) →
    extendStruct look s = .ok s' → Deep P (.struct s')
  | .mk n c fs ag sub, s', hd, h => by
    rw [extendStruct] at h
    obtain ⟨fs', hfs, h⟩ := Res.bind_eq_ok.1 h
    obtain ⟨inh, hinh, h⟩ := Res.bind_eq_ok.1 h
    obtain ⟨sub', hsub, h⟩ := Res.bind_eq_ok.1 h
    obtain rfl := Res.ok.inj h
    have he : sub = [] := F.noSub hd.here
    subst he
    rw [extendSubtypes] at hsub
    obtain rfl := Res.ok.inj hsub
    exact deep_with F hd (mergeBase_deep (extendFields_deep F hl (deep_fields F hd) hfs) (baseFields_deep hl hinh))
termination_by structural x => x
theorem extendFields_deep {look} (F : Fieldwise P) (hl : LookOk P look) : ∀ {fs fs' : List StructField},
    (∀ f ∈ fs, Deep P (.structField f)) → extendFields look fs = .ok fs' →
    ∀ f ∈ fs', Deep P (.structField f)
  | [], fs', _, h => by rw [extendFields] at h; obtain rfl := Res.ok.inj h; exact no_kids
  | f :: fs, fs', hd, h => by
    rw [extendFields] at h
    obtain ⟨g, hg, h⟩ := Res.bind_eq_ok.1 h
    obtain ⟨gs, hgs, h⟩ := Res.bind_eq_ok.1 h
    obtain rfl := Res.ok.inj h
    intro x hx
    rcases List.mem_cons.1 hx with rfl | hx
    · exact extendField_deep F hl (hd _ List.mem_cons_self) hg
    · exact extendFields_deep F hl (fun f hf => hd f (List.mem_cons_of_mem _ hf)) hgs x hx
termination_by structural x => x
theorem extendField_deep {look} (F : Fieldwise P) (hl : LookOk P look) : ∀ {f f' : StructField}, Deep P (.structField f) →
    extendField look f = .ok f' → Deep P (.structField f')
  | .mk n t c sub src ms, f', hd, h => by
    rw [extendField] at h
    obtain ⟨sub', hsub, h⟩ := Res.bind_eq_ok.1 h
    obtain rfl := Res.ok.inj h
    exact .mk (F.retype hd.here (extendSubtypes_heads hsub)) (extendSubtypes_deep F hl hd.inside hsub)
termination_by structural x => x
theorem extendSubtypes_deep {look} (F : Fieldwise P) (hl : LookOk P look) : ∀ {es es' : List RsEntity},
    (∀ e ∈ es, Deep P e) → extendSubtypes look es = .ok es' → ∀ e ∈ es', Deep P e
  | [], es', _, h => by rw [extendSubtypes] at h; obtain rfl := Res.ok.inj h; exact no_kids
  | e :: es, es', hd, h => by
    rw [extendSubtypes] at h
    obtain ⟨g, hg, h⟩ := Res.bind_eq_ok.1 h
    obtain ⟨gs, hgs, h⟩ := Res.bind_eq_ok.1 h
    obtain rfl := Res.ok.inj h
    intro f hf
    rcases List.mem_cons.1 hf with rfl | hf
    · exact extendEntity_deep F hl (hd _ List.mem_cons_self) hg
    · exact extendSubtypes_deep F hl (fun f hf => hd f (List.mem_cons_of_mem _ hf)) hgs f hf
termination_by structural x => x
theorem extendEntity_deep {look} (F : Fieldwise P) (hl : LookOk P look) : ∀ {e e' : RsEntity}, Deep P e →
    extendEntity look e = .ok e' → Deep P e'
  | .struct s, e', hd, h => by
    rw [extendEntity] at h
    obtain ⟨g, hg, h⟩ := Res.bind_eq_ok.1 h
    obtain rfl := Res.ok.inj h
    exact extendStruct_deep F hl hd hg
  | .structField _, e', hd, h => by
    rw [extendEntity] at h
    · obtain rfl := Res.ok.inj h; exact hd
    · exact fun _ => (by simp)
  | .tupleStruct _, e', hd, h => by
    rw [extendEntity] at h
    · obtain rfl := Res.ok.inj h; exact hd
    · exact fun _ => (by simp)
  | .enum _, e', hd, h => by
    rw [extendEntity] at h
    · obtain rfl := Res.ok.inj h; exact hd
    · exact fun _ => (by simp)
  | .enumCase _, e', hd, h => by
    rw [extendEntity] at h
    · obtain rfl := Res.ok.inj h; exact hd
    · exact fun _ => (by simp)
  | .alias _, e', hd, h => by
    rw [extendEntity] at h
    · obtain rfl := Res.ok.inj h; exact hd
    · exact fun _ => (by simp)
  | .import _, e', hd, h => by
    rw [extendEntity] at h
    · obtain rfl := Res.ok.inj h; exact hd
    · exact fun _ => (by simp)
termination_by structural x => x
end

theorem lookAt_deep {map : Str → Option Nat} {es : List RsEntity} {i : Nat} {own : Res (List StructField)} (F : Fieldwise P)
    (he : ∀ e ∈ es, Deep P e) (ho : ∀ fs, own = .ok fs → ∀ f ∈ fs, Deep P (.structField f)) :
    LookOk P (lookAt map es i own) := by
  intro key fs h
  unfold lookAt at h
  cases hm : map key with
  | none => rw [hm] at h; obtain rfl := Res.ok.inj h; exact no_kids
  | some j =>
    rw [hm] at h
    dsimp only at h
    split at h
    · exact ho fs h
    · obtain rfl := Res.ok.inj h
      unfold fieldsAt
      cases hj : es[j]? with
      | none => exact no_kids
      | some e =>
        cases e with
        | struct s => exact deep_fields F (he _ (List.mem_of_getElem? hj))
        | _ => exact no_kids

theorem extendTop_deep {map : Str → Option Nat} {es : List RsEntity} {i : Nat} {s s' : RStruct} (F : Fieldwise P)
    (he : ∀ e ∈ es, Deep P e) (hs : Deep P (.struct s)) (h : extendTop map es i s = .ok s') :
    Deep P (.struct s') := by
  obtain ⟨n, c, fs, ag, sub⟩ := s
  unfold extendTop at h
  obtain ⟨fs', hfs, h⟩ := Res.bind_eq_ok.1 h
  obtain ⟨inh, hinh, h⟩ := Res.bind_eq_ok.1 h
  dsimp only at h
  obtain ⟨sub', hsub, h⟩ := Res.bind_eq_ok.1 h
  obtain ⟨gs, hgs, h⟩ := Res.bind_eq_ok.1 h
  obtain rfl := Res.ok.inj h
  have hb : sub = [] := F.noSub hs.here
  subst hb
  rw [extendSubtypes] at hsub
  obtain rfl := Res.ok.inj hsub
  have hfs := extendFields_deep F (lookAt_deep F he (fun _ h => (by cases h))) (deep_fields F hs) hfs
  have hinh := baseFields_deep (lookAt_deep F he (fun _ h => by obtain rfl := Res.ok.inj h; exact hfs)) hinh
  have hm := mergeBase_deep hfs hinh
  have hgs := groupFields_deep (lookAt_deep F he (fun _ h => by obtain rfl := Res.ok.inj h; exact hm)) hgs
  refine deep_with F hs ?_
  intro f hf
  rcases List.mem_append.1 hf with hf | hf
  · exact hm f hf
  · exact hgs f hf

theorem extendAll_deep {map : Str → Option Nat} (F : Fieldwise P) : ∀ {k i : Nat} {es es' : List RsEntity},
    (∀ e ∈ es, Deep P e) → extendAll map es i k = .ok es' → ∀ e ∈ es', Deep P e
  | 0, i, es, es', he, h => by rw [extendAll] at h; obtain rfl := Res.ok.inj h; exact he
  | k + 1, i, es, es', he, h => by
    unfold extendAll at h
    split at h
    · rename_i s hs
      obtain ⟨s', hs', h⟩ := Res.bind_eq_ok.1 h
      refine extendAll_deep F ?_ h
      intro e hmem
      rcases List.mem_or_eq_of_mem_set hmem with hmem | rfl
      · exact he e hmem
      · exact extendTop_deep F he (he _ (List.mem_of_getElem? hs)) hs'
    · exact extendAll_deep F he h

/-- The strings in a file after the derivation step. -/
theorem extendFile_deep {f g : RsFile} (F : Fieldwise P) (ht : ∀ e ∈ f.types, Deep P e)
    (ha : ∀ e ∈ f.attributeGroups, Deep P e) (h : extendFile f = .ok g) :
    (∀ e ∈ g.types, Deep P e) ∧ ∀ e ∈ g.attributeGroups, Deep P e := by
  obtain ⟨es, hes, h⟩ := Res.bind_eq_ok.1 h
  obtain rfl := Res.ok.inj h
  have := extendAll_deep F (fun e he => (List.mem_append.1 he).elim (ht e) (ha e)) hes
  exact ⟨fun e he => this e (List.mem_of_mem_take he), fun e he => this e (List.mem_of_mem_drop he)⟩

/-- What holds of the entities for the children of the schema holds of a parsed file. -/
theorem parseFile_deep (F : Fieldwise P) {U : UnicodeTable} {root : Node} {g : RsFile}
    (hc : ∀ c ∈ members root, ∀ e, parseNode U c root [] = .ok e → Deep P e)
    (h : parseFile U root = .ok g) : (∀ e ∈ g.types, Deep P e) ∧ ∀ e ∈ g.attributeGroups, Deep P e := by
  obtain ⟨f, hf, h⟩ := Res.bind_eq_ok.1 h
  obtain ⟨ks, hks, hf⟩ := Res.bind_eq_ok.1 hf
  obtain ⟨types, h1, hf⟩ := Res.bind_eq_ok.1 hf
  obtain ⟨groups, h2, hf⟩ := Res.bind_eq_ok.1 hf
  obtain rfl := Res.ok.inj hf
  have hmem : ∀ k ∈ ks, k.2 ∈ root.children ∧ xsdType (some root.tag) k.2 = .ok k.1 := by
    refine mapM'_forall hks ?_
    intro a ha b hb
    obtain ⟨t, ht, hb⟩ := Res.bind_eq_ok.1 hb
    obtain rfl := Res.ok.inj hb
    exact ⟨ha, ht⟩
  refine extendFile_deep F ?_ ?_ h
  · refine mapM'_forall h1 fun k hk e he => ?_
    obtain ⟨hk, hp⟩ := List.mem_filter.1 hk
    obtain ⟨hk, ht⟩ := hmem k hk
    obtain ⟨hp1, hp2, -⟩ := of_decide_eq_true hp
    have hm : Member k.2 := member_of_isMember ht (decide_eq_true ⟨hp1, hp2⟩)
    exact hc _ (mem_members.2 ⟨hk, hm⟩) e he
  · refine mapM'_forall h2 fun k hk e he => ?_
    obtain ⟨hk, hp⟩ := List.mem_filter.1 hk
    obtain ⟨hk, ht⟩ := hmem k hk
    obtain ⟨hp1, hp2⟩ := of_decide_eq_true hp
    have hm : Member k.2 := member_of_type ht (by rw [hp2]; trivial)
    exact hc _ (mem_members.2 ⟨hk, hm⟩) e he

/-- The strings in a parsed file. -/
theorem parseFile_texts {Q : Preds} {G H : Node → Prop} {U : UnicodeTable} (S : Sources G H Q) {root : Node} {g : RsFile}
    (hr : G root)
    (h : parseFile U root = .ok g) : (∀ e ∈ g.types, Deep Q.entity e) ∧ ∀ e ∈ g.attributeGroups, Deep Q.entity e :=
  parseFile_deep (fieldwise_texts Q S.texts.retype)
    (fun c hc _ he => parseNode_texts S (S.hered _ hr c hc) (S.mono root hr) no_kids he) h

end Verif.Lemmas.Parse
