import Verif.Lemmas.Total
import Verif.Props.Extend
import Verif.Props.Generator
import Verif.Model.Pipeline

/-! # Supported schemas are converted -/

namespace Verif.Lemmas.Parse

open Verif Verif.Model Verif.RoXml Verif.Spec

/-! ## The schema element -/

theorem schema_exists {root : Node} {U : UnicodeTable} (S : Supported root) : ∃ f, parseSchema U root [] = .ok f := by
  unfold parseSchema
  have hks : ∃ ks, Res.mapM' (fun n => (xsdType (some root.tag) n).bind fun t => .ok (t, n)) root.children = .ok ks := by
    refine mapM'_exists fun a ha => ?_
    obtain ⟨t, ht⟩ := readable S .root a ha
    exact ⟨_, by rw [kind_xsdType ht]; rfl⟩
  obtain ⟨ks, hks⟩ := hks
  have hall : ∀ k ∈ ks, k.2 ∈ root.children ∧ xsdType (some root.tag) k.2 = .ok k.1 := by
    refine mapM'_forall hks fun a ha b hb => ?_
    obtain ⟨t, ht, hb⟩ := Res.bind_eq_ok.1 hb
    obtain rfl := Res.ok.inj hb
    exact ⟨ha, ht⟩
  have hparse : ∀ k ∈ ks, k.2.isElement = true → k.1 ≠ .annotation → ∃ e, parseNode U k.2 root [] = .ok e := by
    intro k hk he hna
    obtain ⟨h1, h2⟩ := hall k hk
    have hm : k.2 ∈ members root := mem_members.2 ⟨h1, he, fun e => hna (Res.ok.inj (h2.symm.trans
      ((type_iff (s := "annotation") (t := .annotation) (by decide)).2 e)))⟩
    have hr : Is k.2 ["include", "import", "simpleType", "complexType", "attributeGroup", "element", "attribute"] :=
      row S (s := "schema") (by decide) .root (is_one.1 S.schema) hm
    obtain ⟨e, he, -⟩ := parse_exists (U := U) S k.2 root [] .root hm no_kids (.inl (is_mono hr (by decide)))
    exact ⟨e, he⟩
  rw [bind_ok hks]
  have h1 : ∃ r, Res.mapM' (fun k : ElementType × Node => parseNode U k.2 root [])
      (ks.filter fun k => k.2.isElement ∧ k.1 ≠ .annotation ∧ k.1 ≠ .attributeGroup) = .ok r := by
    refine mapM'_exists fun k hk => ?_
    obtain ⟨hk, hq⟩ := List.mem_filter.1 hk
    obtain ⟨h1, h2, -⟩ := of_decide_eq_true hq
    exact hparse k hk h1 h2
  have h2 : ∃ r, Res.mapM' (fun k : ElementType × Node => parseNode U k.2 root [])
      (ks.filter fun k => k.2.isElement ∧ k.1 = .attributeGroup) = .ok r := by
    refine mapM'_exists fun k hk => ?_
    obtain ⟨hk, hq⟩ := List.mem_filter.1 hk
    obtain ⟨h1, h2⟩ := of_decide_eq_true hq
    exact hparse k hk h1 (by rw [h2]; exact fun h => nomatch h)
  obtain ⟨r1, h1⟩ := h1
  obtain ⟨r2, h2⟩ := h2
  rw [bind_ok h1, bind_ok h2]
  exact ⟨_, rfl⟩

/-- The types of a schema come from its members. -/
theorem schema_types {root : Node} {U : UnicodeTable} {f : RsFile} (h : parseSchema U root [] = .ok f) :
    ∀ e ∈ f.types, ∃ c ∈ members root, parseNode U c root [] = .ok e := by
  obtain ⟨ks, hks, h⟩ := Res.bind_eq_ok.1 h
  obtain ⟨types, hty, h⟩ := Res.bind_eq_ok.1 h
  obtain ⟨groups, -, h⟩ := Res.bind_eq_ok.1 h
  obtain rfl := Res.ok.inj h
  have hall : ∀ k ∈ ks, k.2 ∈ root.children ∧ xsdType (some root.tag) k.2 = .ok k.1 := by
    refine mapM'_forall hks fun a ha b hb => ?_
    obtain ⟨t, ht, hb⟩ := Res.bind_eq_ok.1 hb
    obtain rfl := Res.ok.inj hb
    exact ⟨ha, ht⟩
  refine mapM'_forall hty fun k hk e he => ?_
  obtain ⟨hk, hq⟩ := List.mem_filter.1 hk
  obtain ⟨h1, h2, -⟩ := of_decide_eq_true hq
  obtain ⟨h3, h4⟩ := hall k hk
  exact ⟨k.2, mem_members.2 ⟨h3, h1, fun e => h2 (Res.ok.inj (h4.symm.trans
      ((type_iff (s := "annotation") (t := .annotation) (by decide)).2 e)))⟩, he⟩

/-! ## The markers of inline types -/

/-- The fields of an entity. -/
def fieldsIn : RsEntity → List StructField
  | .struct s => s.fields
  | .structField f => [f]
  | _ => []

theorem nestedBases_append : ∀ a b : List StructField, nestedBases (a ++ b) = nestedBases a ++ nestedBases b
  | [], b => by rw [nestedBases]; rfl
  | .mk _ _ _ _ _ _ :: a, b => by rw [List.cons_append, nestedBases, nestedBases, nestedBases_append a b, List.append_assoc]

theorem nestedBases_mem {t : Str} : ∀ {fs : List StructField}, t ∈ nestedBases fs ↔ ∃ f ∈ fs, t ∈ nestedBases [f]
  | [] => by rw [nestedBases]; exact ⟨fun h => (nomatch h), fun ⟨_, h, _⟩ => (nomatch h)⟩
  | f :: fs => by
    rw [show f :: fs = [f] ++ fs from rfl, nestedBases_append, List.mem_append, nestedBases_mem (fs := fs)]
    constructor
    · rintro (h | ⟨g, hg, h⟩)
      · exact ⟨f, List.mem_cons_self, h⟩
      · exact ⟨g, List.mem_cons_of_mem _ hg, h⟩
    · rintro ⟨g, hg, h⟩
      rcases List.mem_cons.1 hg with rfl | hg
      · exact .inl h
      · exact .inr ⟨g, hg, h⟩

theorem entityBases_setName (nm : Str) (e : RsEntity) (es : List RsEntity) :
    entityBases (e.setName nm :: es) = entityBases (e :: es) := by
  cases e with
  | struct s => cases s; rw [RsEntity.setName, entityBases, entityBases]
  | structField s => cases s; rw [RsEntity.setName]; simp [entityBases]
  | tupleStruct s => cases s; rw [RsEntity.setName]; simp [entityBases]
  | «enum» s => cases s; rw [RsEntity.setName]; simp [entityBases]
  | «alias» s => cases s; rw [RsEntity.setName]; simp [entityBases]
  | enumCase s => rw [RsEntity.setName]; simp [entityBases]
  | «import» s => rw [RsEntity.setName]; simp [entityBases]

/-- Properties of markers. -/
def markerPreds (B : Str → Prop) : Preds where
  R n t _ := n = "__base__".toList → B t
  N n := n ≠ "__base__".toList
  T _ := True
  C _ := True
  F _ := True
  J _ := True
  L _ := True

section
variable {B : Str → Prop}

mutual
theorem deep_nestedBases : ∀ {fs : List StructField}, (∀ f ∈ fs, Deep (markerPreds B).entity (.structField f)) →
    ∀ t ∈ nestedBases fs, B t
  | [], _, t, h => by rw [nestedBases] at h; cases h
  | .mk n ty c sub src ms :: fs, hd, t, h => by
    rw [nestedBases] at h
    rcases List.mem_append.1 h with h | h
    · exact deep_entityBases (es := sub) (fun e he => (hd _ List.mem_cons_self).inside e he) t h
    · exact deep_nestedBases (fun f hf => hd f (List.mem_cons_of_mem _ hf)) t h
termination_by x => sizeOf x
decreasing_by all_goals (simp only [List.cons.sizeOf_spec, StructField.mk.sizeOf_spec, RsEntity.struct.sizeOf_spec, RStruct.mk.sizeOf_spec]; omega)
theorem deep_entityBases : ∀ {es : List RsEntity}, (∀ e ∈ es, Deep (markerPreds B).entity e) → ∀ t ∈ entityBases es, B t
  | [], _, t, h => by rw [entityBases] at h; cases h
  | .struct (.mk n c fs ag sub) :: es, hd, t, h => by
    rw [entityBases] at h
    have hs := hd _ List.mem_cons_self
    rcases List.mem_append.1 h with h | h
    · rcases List.mem_append.1 h with h | h
      · exact deep_nestedBases (fs := fs) (deep_struct_fields hs) t h
      · rcases List.mem_append.1 h with h | h
        · obtain ⟨f, hf, rfl⟩ := List.mem_map.1 h
          obtain ⟨hf, hm⟩ := List.mem_filter.1 hf
          exact hs.here.2.2.1 f hf (of_decide_eq_true hm)
        · exact deep_entityBases (es := sub) (fun e he => hs.inside e (List.mem_append.2 (.inl he))) t h
    · exact deep_entityBases (fun e he => hd e (List.mem_cons_of_mem _ he)) t h
  | .structField _ :: es, hd, t, h => by
    rw [entityBases] at h
    · exact deep_entityBases (fun e he => hd e (List.mem_cons_of_mem _ he)) t h
    · exact fun _ _ _ _ _ => (by simp)
  | .tupleStruct _ :: es, hd, t, h => by
    rw [entityBases] at h
    · exact deep_entityBases (fun e he => hd e (List.mem_cons_of_mem _ he)) t h
    · exact fun _ _ _ _ _ => (by simp)
  | .enum _ :: es, hd, t, h => by
    rw [entityBases] at h
    · exact deep_entityBases (fun e he => hd e (List.mem_cons_of_mem _ he)) t h
    · exact fun _ _ _ _ _ => (by simp)
  | .enumCase _ :: es, hd, t, h => by
    rw [entityBases] at h
    · exact deep_entityBases (fun e he => hd e (List.mem_cons_of_mem _ he)) t h
    · exact fun _ _ _ _ _ => (by simp)
  | .alias _ :: es, hd, t, h => by
    rw [entityBases] at h
    · exact deep_entityBases (fun e he => hd e (List.mem_cons_of_mem _ he)) t h
    · exact fun _ _ _ _ _ => (by simp)
  | .import _ :: es, hd, t, h => by
    rw [entityBases] at h
    · exact deep_entityBases (fun e he => hd e (List.mem_cons_of_mem _ he)) t h
    · exact fun _ _ _ _ _ => (by simp)
termination_by x => sizeOf x
decreasing_by all_goals (simp only [List.cons.sizeOf_spec, StructField.mk.sizeOf_spec, RsEntity.struct.sizeOf_spec, RStruct.mk.sizeOf_spec]; omega)
end

/-- The markers of what is inside the fields of an entity. -/
def NestedOk (B : Str → Prop) (e : RsEntity) : Prop := ∀ t ∈ nestedBases (fieldsIn e), B t

theorem nestedOk_of {e : RsEntity} (h : fieldsIn e = []) : NestedOk B e := by
  intro t ht
  rw [h, nestedBases] at ht
  cases ht

theorem nestedOk_field {n ty : Str} {c : Option Str} {src ms} : NestedOk B (.structField (.mk n ty c [] src ms)) := by
  intro t ht
  rw [fieldsIn, nestedBases, entityBases, nestedBases] at ht
  cases ht

theorem nestedOk_struct {n : Str} {c : Option Str} {fs : List StructField} {ag sub} (h : ∀ f ∈ fs, NestedOk B (.structField f)) :
    NestedOk B (.struct (.mk n c fs ag sub)) := by
  intro t ht
  obtain ⟨f, hf, ht⟩ := nestedBases_mem.1 ht
  exact h f hf t ht

theorem nestedOk_fields {s : RStruct} (h : NestedOk B (.struct s)) : ∀ f ∈ s.fields, NestedOk B (.structField f) :=
  fun f hf t ht => h t (nestedBases_mem.2 ⟨f, hf, ht⟩)

theorem nestedOk_setName {nm : Str} {e : RsEntity} (h : NestedOk B e) : NestedOk B (e.setName nm) := by
  cases e with
  | struct s => cases s; exact h
  | structField s =>
    cases s
    intro t ht
    refine h t ?_
    rw [RsEntity.setName, fieldsIn, nestedBases] at ht
    rw [fieldsIn, nestedBases]
    exact ht
  | tupleStruct s => cases s; exact nestedOk_of rfl
  | «enum» s => cases s; exact nestedOk_of rfl
  | «alias» s => cases s; exact nestedOk_of rfl
  | _ => exact nestedOk_of rfl

theorem nestedOk_setComment {c : Option Str} {e : RsEntity} (h : NestedOk B e) : NestedOk B (e.setComment c) := by
  cases e with
  | struct s => cases s; exact h
  | structField s =>
    cases s
    intro t ht
    refine h t ?_
    rw [RsEntity.setComment, fieldsIn, nestedBases] at ht
    rw [fieldsIn, nestedBases]
    exact ht
  | tupleStruct s => cases s; exact nestedOk_of rfl
  | «enum» s => cases s; exact nestedOk_of rfl
  | «alias» s => cases s; exact nestedOk_of rfl
  | _ => exact nestedOk_of rfl

theorem nestedOk_enumToField (e : REnum) : NestedOk B (.structField (enumToField e)) := by
  cases e
  intro t ht
  rw [enumToField, fieldsIn, nestedBases, entityBases, entityBases, nestedBases] at ht
  · cases ht
  · exact fun _ _ _ _ _ => (by simp)

variable {c : Place}

/-- What is known of the children. -/
abbrev KidsNested (B : Str → Prop) (c : Place) : Prop := ∀ k ∈ c.kids, Member k.1 → ∀ e, k.2 = .ok e → NestedOk B e

theorem attributesToFields_nested (hk : KidsNested B c) {fs} (h : attributesToFields c = .ok fs) :
    ∀ f ∈ fs, NestedOk B (.structField f) := by
  obtain ⟨ks, hks, h⟩ := Res.bind_eq_ok.1 h
  refine mapM'_forall h ?_
  intro k hk' f hf
  obtain ⟨e, he, hf⟩ := Res.bind_eq_ok.1 hf
  have := hk _ (filter_member hks membersOnly_attribute hk').1 (filter_member hks membersOnly_attribute hk').2 e he
  cases e with
  | structField g => obtain rfl := Res.ok.inj hf; exact this
  | _ => cases hf

theorem withBase_nested (hk : KidsNested B c) {base fs} (hfs : attributesToFields c = .ok fs) :
    ∀ f ∈ fs ++ [baseField c.node base], NestedOk B (.structField f) := by
  intro f hf
  rcases List.mem_append.1 hf with hf | hf
  · exact attributesToFields_nested hk hfs f hf
  · obtain rfl := List.mem_singleton.1 hf
    exact nestedOk_field

theorem derivedWithoutContent_nested {fs e} (hfs : ∀ f ∈ fs, NestedOk B (.structField f))
    (h : derivedWithoutContent c fs = .ok e) : NestedOk B e := by
  obtain ⟨ag, -, h⟩ := Res.bind_eq_ok.1 h
  obtain rfl := Res.ok.inj h
  exact nestedOk_struct hfs

theorem derivedWithContent_nested {fs x e} (hfs : ∀ f ∈ fs, NestedOk B (.structField f)) (hx : NestedOk B x)
    (h : derivedWithContent c fs x = .ok e) : NestedOk B e := by
  cases x with
  | struct s =>
    obtain ⟨n', cm, fs', ag, sub⟩ := s
    obtain rfl := Res.ok.inj h
    refine nestedOk_struct fun f hf => ?_
    rcases List.mem_append.1 hf with hf | hf
    · exact nestedOk_fields hx f hf
    · exact hfs f hf
  | _ => exact derivedWithoutContent_nested hfs h

/-- The markers inside fields come from elements in sequences. -/
theorem parsePlace_nested {U : UnicodeTable} (hk : KidsNested B c)
    (hd : c.type = .ok .element → c.parentType ≠ .ok .schema → ∀ k ∈ c.kids, Member k.1 → ∀ e, k.2 = .ok e →
      ∀ t ∈ entityBases [e], B t) {e} (h : parsePlace U c = .ok e) : NestedOk B e := by
  rw [parsePlace_branch] at h
  obtain ⟨t, hct, h⟩ := Res.bind_eq_ok.1 h
  have hseq : parseSequence c = .ok e → NestedOk B e := by
    intro h
    obtain ⟨nm, hnm, h⟩ := Res.bind_eq_ok.1 h
    obtain ⟨fs, hfs, h⟩ := Res.bind_eq_ok.1 h
    obtain rfl := Res.ok.inj h
    refine nestedOk_struct ?_
    obtain ⟨ks, hks, h⟩ := Res.bind_eq_ok.1 hfs
    refine mapM'_forall h ?_
    intro k hk' f hf
    obtain ⟨x, hx, hf⟩ := Res.bind_eq_ok.1 hf
    have := hk _ (filter_member hks membersOnly_isMember hk').1 (filter_member hks membersOnly_isMember hk').2 x hx
    cases x with
    | structField g =>
      cases g
      obtain rfl := Res.ok.inj hf
      intro t ht
      refine this t ?_
      rw [fieldsIn, nestedBases] at ht ⊢
      exact ht
    | «enum» g =>
      cases g
      obtain rfl := Res.ok.inj hf
      exact nestedOk_enumToField _
    | _ => cases hf
  have hcontent : parseContent c = .ok e → NestedOk B e := by
    intro h
    obtain ⟨o, ho, h⟩ := Res.bind_eq_ok.1 h
    obtain ⟨k, hk', h⟩ := Res.bind_eq_ok.1 h
    rw [unwrap_ok.1 hk'] at ho
    exact hk k (lastKid_member membersOnly_isMember ho).1 (lastKid_member membersOnly_isMember ho).2 e h
  cases t with
  | all => exact hseq h
  | sequence => exact hseq h
  | any => obtain rfl := Res.ok.inj h; exact nestedOk_field
  | anyAttribute => obtain rfl := Res.ok.inj h; exact nestedOk_field
  | «import» => obtain rfl := Res.ok.inj h; exact nestedOk_of rfl
  | «include» => obtain rfl := Res.ok.inj h; exact nestedOk_of rfl
  | complexContent => exact hcontent h
  | simpleContent => exact hcontent h
  | choice =>
    obtain ⟨ks, -, h⟩ := Res.bind_eq_ok.1 h
    obtain ⟨cs, -, h⟩ := Res.bind_eq_ok.1 h
    obtain rfl := Res.ok.inj h
    exact nestedOk_of rfl
  | «attribute» =>
    obtain ⟨pt, -, h⟩ := Res.bind_eq_ok.1 h
    by_cases hs : pt = .schema
    · rw [if_pos hs] at h
      unfold parseGlobalAttribute at h
      cases hr : attrRef c.node with
      | some r => rw [hr] at h; obtain rfl := Res.ok.inj h; exact nestedOk_of rfl
      | none =>
        rw [hr] at h
        obtain ⟨nm, -, h⟩ := Res.bind_eq_ok.1 h
        cases ht : attrType c.node with
        | some t => rw [ht] at h; obtain rfl := Res.ok.inj h; exact nestedOk_of rfl
        | none =>
          rw [ht] at h
          obtain ⟨o, ho, h⟩ := Res.bind_eq_ok.1 h
          cases o with
          | none => obtain rfl := Res.ok.inj h; exact nestedOk_of rfl
          | some k =>
            obtain ⟨x, hx, h⟩ := Res.bind_eq_ok.1 h
            obtain rfl := Res.ok.inj h
            exact nestedOk_setName (hk k (lastKid_member membersOnly_simple ho).1 (lastKid_member membersOnly_simple ho).2 x hx)
    · rw [if_neg hs] at h
      obtain ⟨nm, -, h⟩ := Res.bind_eq_ok.1 h
      obtain ⟨u, -, h⟩ := Res.bind_eq_ok.1 h
      obtain rfl := Res.ok.inj h
      exact nestedOk_field
  | attributeGroup =>
    obtain ⟨pt, -, h⟩ := Res.bind_eq_ok.1 h
    by_cases hs : pt = .schema
    · rw [if_pos hs] at h
      obtain ⟨nm, hnm, h⟩ := Res.bind_eq_ok.1 h
      obtain ⟨fs, hfs, h⟩ := Res.bind_eq_ok.1 h
      obtain rfl := Res.ok.inj h
      exact nestedOk_struct (attributesToFields_nested hk hfs)
    · rw [if_neg hs] at h
      obtain ⟨r, hr, h⟩ := Res.bind_eq_ok.1 h
      obtain rfl := Res.ok.inj h
      exact nestedOk_of rfl
  | complexType =>
    obtain ⟨nm, -, h⟩ := Res.bind_eq_ok.1 h
    obtain ⟨fs, hfs, h⟩ := Res.bind_eq_ok.1 h
    obtain ⟨o, ho, h⟩ := Res.bind_eq_ok.1 h
    have hfs := attributesToFields_nested hk hfs
    cases o with
    | none =>
      obtain ⟨ag, hag, h⟩ := Res.bind_eq_ok.1 h
      obtain rfl := Res.ok.inj h
      exact nestedOk_struct hfs
    | some k =>
      dsimp only at h
      split at h
      · obtain ⟨ag, hag, h⟩ := Res.bind_eq_ok.1 h
        obtain rfl := Res.ok.inj h
        exact nestedOk_struct hfs
      · obtain ⟨x, hx, h⟩ := Res.bind_eq_ok.1 h
        have := hk k (lastKid_member membersOnly_complex ho).1 (lastKid_member membersOnly_complex ho).2 x hx
        cases x with
        | struct s =>
          obtain ⟨n', cm, fs', ag, sub⟩ := s
          obtain rfl := Res.ok.inj h
          refine nestedOk_struct fun f hf => ?_
          rcases List.mem_append.1 hf with hf | hf
          · exact nestedOk_fields this f hf
          · exact hfs f hf
        | «enum» s =>
          obtain ⟨n', cs, cm, t, sub, src⟩ := s
          obtain ⟨ag, hag, h⟩ := Res.bind_eq_ok.1 h
          obtain rfl := Res.ok.inj h
          exact nestedOk_of rfl
        | _ => obtain rfl := Res.ok.inj h; exact this
  | element =>
    obtain ⟨pt, hpt, h⟩ := Res.bind_eq_ok.1 h
    have hfield : pt ≠ .schema → parseFieldOfSequence c = .ok e → NestedOk B e := by
      intro hpt' h
      unfold parseFieldOfSequence at h
      dsimp only at h
      split at h
      · obtain rfl := Res.ok.inj h
        exact nestedOk_field
      · obtain ⟨o, ho, h⟩ := Res.bind_eq_ok.1 h
        obtain ⟨k, hk', h⟩ := Res.bind_eq_ok.1 h
        rw [unwrap_ok.1 hk'] at ho
        obtain ⟨x, hx, h⟩ := Res.bind_eq_ok.1 h
        obtain rfl := Res.ok.inj h
        intro t ht
        rw [fieldsIn, nestedBases, nestedBases, List.append_nil, entityBases_setName] at ht
        exact hd hct (fun h => hpt' (Res.ok.inj (hpt.symm.trans h))) k (lastKid_member membersOnly_content ho).1
          (lastKid_member membersOnly_content ho).2 x hx t ht
    have hdef : Res.ok (elementDefault c.node) = .ok e → NestedOk B e := fun h => by
      obtain rfl := Res.ok.inj h; exact nestedOk_of rfl
    cases pt with
    | all => exact hfield (fun h => nomatch h) h
    | sequence => exact hfield (fun h => nomatch h) h
    | choice =>
      obtain rfl := Res.ok.inj h
      unfold parseCaseOfChoice
      split <;> exact nestedOk_of rfl
    | schema =>
      obtain ⟨nm, hnm, h⟩ := Res.bind_eq_ok.1 h
      cases ht : attrType c.node with
      | some t => rw [ht] at h; obtain rfl := Res.ok.inj h; exact nestedOk_of rfl
      | none =>
        rw [ht] at h
        obtain ⟨o, ho, h⟩ := Res.bind_eq_ok.1 h
        cases o with
        | none => obtain rfl := Res.ok.inj h; exact nestedOk_of rfl
        | some k =>
          obtain ⟨x, hx, h⟩ := Res.bind_eq_ok.1 h
          obtain rfl := Res.ok.inj h
          exact nestedOk_setName (hk k (lastKid_member membersOnly_content ho).1 (lastKid_member membersOnly_content ho).2 x hx)
    | _ => exact hdef h
  | «extension» x =>
    obtain ⟨t, -, h⟩ := Res.bind_eq_ok.1 h
    split at h
    · obtain ⟨base, hb, h⟩ := Res.bind_eq_ok.1 h
      obtain ⟨fs, hfs, h⟩ := Res.bind_eq_ok.1 h
      exact derivedWithoutContent_nested (withBase_nested hk hfs) h
    · obtain ⟨base, hb, h⟩ := Res.bind_eq_ok.1 h
      obtain ⟨fs, hfs, h⟩ := Res.bind_eq_ok.1 h
      obtain ⟨o, ho, h⟩ := Res.bind_eq_ok.1 h
      have hfs := withBase_nested (base := base) hk hfs
      cases o with
      | none => exact derivedWithoutContent_nested hfs h
      | some k =>
        obtain ⟨x, hx, h⟩ := Res.bind_eq_ok.1 h
        exact derivedWithContent_nested hfs (hk k (lastKid_member membersOnly_extension ho).1
          (lastKid_member membersOnly_extension ho).2 x hx) h
    · cases h
  | restriction x =>
    obtain ⟨t, -, h⟩ := Res.bind_eq_ok.1 h
    split at h
    · obtain ⟨base, hb, h⟩ := Res.bind_eq_ok.1 h
      obtain ⟨fs, hfs, h⟩ := Res.bind_eq_ok.1 h
      obtain ⟨sm, hsm, h⟩ := Res.bind_eq_ok.1 h
      split at h
      · obtain ⟨nm, hnm, h⟩ := Res.bind_eq_ok.1 h
        obtain rfl := Res.ok.inj h
        exact nestedOk_of rfl
      · obtain rfl := Res.ok.inj h
        exact nestedOk_of rfl
    · cases h
    · obtain ⟨base, hb, h⟩ := Res.bind_eq_ok.1 h
      obtain ⟨fs, hfs, h⟩ := Res.bind_eq_ok.1 h
      obtain ⟨o, ho, h⟩ := Res.bind_eq_ok.1 h
      have hfs := withBase_nested (base := base) hk hfs
      cases o with
      | none => exact derivedWithoutContent_nested hfs h
      | some k =>
        obtain ⟨x, hx, h⟩ := Res.bind_eq_ok.1 h
        exact derivedWithContent_nested hfs (hk k (lastKid_member membersOnly_restriction ho).1
          (lastKid_member membersOnly_restriction ho).2 x hx) h
    · cases h
  | list =>
    have hpush : ∀ t : TupleStruct, fieldsIn (pushArray t) = [] := fun t => by cases t; rfl
    have h : parseList c = .ok e := h
    unfold parseList at h
    cases ht : c.node.attr "itemType".toList with
    | some t => rw [ht] at h; obtain rfl := Res.ok.inj h; exact nestedOk_of (hpush _)
    | none =>
      rw [ht] at h
      obtain ⟨k, hk', h⟩ := Res.bind_eq_ok.1 h
      obtain ⟨x, hx, h⟩ := Res.bind_eq_ok.1 h
      obtain ⟨t, ht, h⟩ := Res.bind_eq_ok.1 h
      obtain rfl := Res.ok.inj h
      exact nestedOk_of (hpush _)
  | union =>
    obtain ⟨ks, hks, h⟩ := Res.bind_eq_ok.1 h
    obtain ⟨subs, hsubs, h⟩ := Res.bind_eq_ok.1 h
    obtain ⟨fs, hfs, h⟩ := Res.bind_eq_ok.1 h
    dsimp only at h
    split at h
    · obtain rfl := Res.ok.inj h
      exact nestedOk_of rfl
    · obtain ⟨nm, hnm, h⟩ := Res.bind_eq_ok.1 h
      obtain rfl := Res.ok.inj h
      refine nestedOk_struct fun f hf => ?_
      rcases List.mem_append.1 hf with hf | hf
      · exact attributesToFields_nested hk hfs f hf
      · obtain rfl := List.mem_singleton.1 hf
        exact nestedOk_enumToField _
  | simpleType =>
    obtain ⟨pt, -, h⟩ := Res.bind_eq_ok.1 h
    split at h
    · cases h
    · obtain ⟨o, ho, h⟩ := Res.bind_eq_ok.1 h
      obtain ⟨k, hk', h⟩ := Res.bind_eq_ok.1 h
      rw [unwrap_ok.1 hk'] at ho
      obtain ⟨x, hx, h⟩ := Res.bind_eq_ok.1 h
      obtain rfl := Res.ok.inj h
      refine nestedOk_setComment ?_
      have := hk k (lastKid_member membersOnly_isMember ho).1 (lastKid_member membersOnly_isMember ho).2 x hx
      cases hn : attrName c.node with
      | none => exact this
      | some nm => exact nestedOk_setName this
  | _ => cases h

end

/-! ## No struct is extended while it is borrowed -/

theorem PartOf.trans {a b c : Node} (h : PartOf a b) (h' : PartOf b c) : PartOf a c := by
  induction h' with
  | root => exact h
  | child _ hc ih => exact .child ih hc

/-- Inside a local element of `c`. -/
def Nested (c n : Node) : Prop := ∃ e, LocalElement c e ∧ PartOf e n

theorem nested_part {root c n : Node} (hc : PartOf root c) (h : Nested c n) : PartOf root n := by
  obtain ⟨e, ⟨-, p, hp, he⟩, hn⟩ := h
  exact PartOf.trans (.child (PartOf.trans hc hp) he) hn

theorem ne_base_suffix {v s : Str} {a : Char} (ha : s.getLast? = some a) (hne : a ≠ '_') : v ++ s ≠ "__base__".toList := by
  intro h
  have h1 := congrArg List.getLast? h
  rw [List.getLast?_append, ha] at h1
  exact hne (Option.some.inj h1)

theorem sources_markers {root c : Node} (S : Supported root) (hc : PartOf root c) :
    Sources (Nested c) (PartOf root) (markerPreds fun t => ∃ x, Nested c x ∧ x.attr "base".toList = some t) where
  hered n hn k hk := by
    obtain ⟨e, he, hp⟩ := hn
    exact ⟨e, he, .child hp hk⟩
  mono n hn := nested_part hc hn
  owner hn hv e := by subst e; exact S.reserved _ "name" hn (by decide) hv
  name hn hv e := by subst e; exact S.reserved _ "name" (nested_part hc hn) (by decide) hv
  ref hn hv e := by subst e; exact S.reserved _ "ref" (nested_part hc hn) (by decide) hv
  type _ _ := trivial
  base _ _ := trivial
  itemType _ _ := trivial
  memberTypes _ _ _ _ := ⟨trivial, trivial⟩
  facet _ _ := trivial
  enumeration _ _ := trivial
  namespace' _ := trivial
  location _ := trivial
  name_type _ := trivial
  name_case _ := trivial
  name_import _ := trivial
  suffix _ := ⟨ne_base_suffix (a := 'e') rfl (by decide), ne_base_suffix (a := 'm') rfl (by decide),
    ne_base_suffix (a := 'e') rfl (by decide)⟩
  constants := by
    intro v hv
    have : ∀ v ∈ ["", "UnsupportedName", "SchemaElement", "UNSUPPORTED_ELEMENT_NAME", "UNSUPPORTED", "any",
      "any_attribute", "String"].map String.toList, v ≠ "__base__".toList := by decide
    exact this v hv
  field hn _ e := absurd e hn
  marker hn hv _ := ⟨_, hn, hv⟩
  rename hn _ e := absurd e hn
  numbered i := ⟨fun h => absurd (congrArg List.head? h) (by
    show some 'E' ≠ _
    decide), trivial⟩

theorem parse_nested {root c : Node} {U : UnicodeTable} (S : Supported root) (hc : c ∈ members root) {e : RsEntity}
    (h : parseNode U c root [] = .ok e) : NestedOk (fun t => ∃ x, Nested c x ∧ x.attr "base".toList = some t) e := by
  have hcr : PartOf root c := .child .root hc
  have src := sources_markers S hcr
  -- what is inside
  have hin : ∀ (n p : Node) (above : List Node) (e : RsEntity), n ∈ members p → PartOf c p → (∀ a ∈ above, PartOf root a) →
      parseNode U n p above = .ok e → NestedOk (fun t => ∃ x, Nested c x ∧ x.attr "base".toList = some t) e := by
    intro n
    induction hs : sizeOf n using Nat.strong_induction_on generalizing n with
    | _ k ih =>
      intro p above e hn hp ha h
      rw [parseNode_eq] at h
      have hab : ∀ a ∈ p :: above, PartOf root a := by
        intro a ha'
        rcases List.mem_cons.1 ha' with rfl | ha'
        · exact PartOf.trans hcr hp
        · exact ha a ha'
      refine parsePlace_nested ?_ ?_ h
      · intro k hk hm x hx
        obtain ⟨y, hy, rfl⟩ := List.mem_map.1 hk
        exact ih (sizeOf y) (hs ▸ child_size hy) y rfl n (p :: above) x (mem_members.2 ⟨hy, hm⟩) (.child hp hn) hab hx
      · intro hel _ k hk hm x hx t ht
        obtain ⟨y, hy, rfl⟩ := List.mem_map.1 hk
        have hl : LocalElement c n := ⟨is_one.2 ((type_iff (s := "element") (by decide)).1 hel), p, hp, hn⟩
        have hny : Nested c n := ⟨n, hl, .root⟩
        have hd := parseNode_texts src (n := y) (p := n) (above := p :: above) ⟨n, hl, .child .root (mem_members.2 ⟨hy, hm⟩)⟩
          (nested_part hcr hny) hab hx
        refine deep_entityBases (B := fun t => ∃ x, Nested c x ∧ x.attr "base".toList = some t) (fun z hz => ?_) t ht
        obtain rfl := List.mem_singleton.1 hz
        exact hd
  rw [parseNode_eq] at h
  refine parsePlace_nested ?_ ?_ h
  · intro k hk hm x hx
    obtain ⟨y, hy, rfl⟩ := List.mem_map.1 hk
    refine hin y c [root] x (mem_members.2 ⟨hy, hm⟩) .root ?_ hx
    intro a ha
    obtain rfl := List.mem_singleton.1 ha
    exact .root
  · intro _ hno
    exact absurd ((type_iff (s := "schema") (by decide)).2 (is_one.1 S.schema)) hno

/-- The structs of a schema have the names of the declarations. -/
theorem struct_name {root c : Node} {U : UnicodeTable} (S : Supported root) (hc : c ∈ members root) {s : RStruct}
    (h : parseNode U c root [] = .ok (.struct s)) : c.attr "name".toList = some s.name := by
  have hr : Is c ["include", "import", "simpleType", "complexType", "attributeGroup", "element", "attribute"] :=
    row S (s := "schema") (by decide) .root (is_one.1 S.schema) hc
  have hpt : (placeOf U c root []).parentType = .ok .schema :=
    (type_iff (s := "schema") (by decide)).2 (is_one.1 S.schema)
  obtain ⟨x, hx, hfit⟩ := parse_exists (U := U) S c root [] .root hc no_kids (.inl (is_mono hr (by decide)))
  obtain rfl := Res.ok.inj (h.symm.trans hx)
  have hname : ∀ {e : RsEntity} {nm : Str}, e.setName nm = .struct s → s.name = nm := fun {e nm} h =>
    deep_name (.struct s) h
  rw [parseNode_eq, parsePlace_branch] at h
  obtain ⟨t, ht, h⟩ := Res.bind_eq_ok.1 h
  have ht : xsdType (some root.tag) c = .ok t := ht
  simp only [Is, List.map_cons, List.map_nil, List.mem_cons, List.not_mem_nil, or_false] at hr
  rcases hr with hr | hr | hr | hr | hr | hr | hr
  · obtain rfl := Res.ok.inj (ht.symm.trans ((type_iff (s := "include") (t := .include) (by decide)).2 hr))
    cases h
  · obtain rfl := Res.ok.inj (ht.symm.trans ((type_iff (s := "import") (t := .import) (by decide)).2 hr))
    cases h
  · rcases hfit.simple (is_of hr (by decide)) with ⟨y, h⟩ | ⟨y, h⟩ <;> cases h
  · obtain rfl := Res.ok.inj (ht.symm.trans ((type_iff (s := "complexType") (t := .complexType) (by decide)).2 hr))
    obtain ⟨nm, hnm, h⟩ := Res.bind_eq_ok.1 h
    obtain ⟨fs, hfs, h⟩ := Res.bind_eq_ok.1 h
    obtain ⟨o, ho, h⟩ := Res.bind_eq_ok.1 h
    unfold complexTypeName at hnm
    rw [bind_ok hpt, if_pos rfl] at hnm
    rw [show c.attr "name".toList = some nm from unwrap_ok.1 hnm]
    congr 1
    cases o with
    | none =>
      obtain ⟨ag, hag, h⟩ := Res.bind_eq_ok.1 h
      cases h; rfl
    | some k =>
      dsimp only at h
      split at h
      · obtain ⟨ag, hag, h⟩ := Res.bind_eq_ok.1 h
        cases h; rfl
      · obtain ⟨x, hx, h⟩ := Res.bind_eq_ok.1 h
        cases x with
        | struct y => obtain ⟨n', cm, fs', ag, sub⟩ := y; cases h; rfl
        | «enum» y =>
          obtain ⟨n', cs, cm, t, sub, src⟩ := y
          obtain ⟨ag, hag, h⟩ := Res.bind_eq_ok.1 h
          cases h
        | _ => cases h
  · obtain rfl := Res.ok.inj (ht.symm.trans ((type_iff (s := "attributeGroup") (t := .attributeGroup) (by decide)).2 hr))
    obtain ⟨pt, hpt', h⟩ := Res.bind_eq_ok.1 h
    obtain rfl := Res.ok.inj (hpt'.symm.trans hpt)
    rw [if_pos rfl] at h
    obtain ⟨nm, hnm, h⟩ := Res.bind_eq_ok.1 h
    obtain ⟨fs, hfs, h⟩ := Res.bind_eq_ok.1 h
    cases h
    exact unwrap_ok.1 hnm
  · obtain rfl := Res.ok.inj (ht.symm.trans ((type_iff (s := "element") (t := .element) (by decide)).2 hr))
    obtain ⟨pt, hpt', h⟩ := Res.bind_eq_ok.1 h
    obtain rfl := Res.ok.inj (hpt'.symm.trans hpt)
    obtain ⟨nm, hnm, h⟩ := Res.bind_eq_ok.1 h
    rw [show c.attr "name".toList = some nm from unwrap_ok.1 hnm]
    congr 1
    cases ht : attrType (placeOf U c root []).node with
    | some t => rw [ht] at h; cases h
    | none =>
      rw [ht] at h
      obtain ⟨o, ho, h⟩ := Res.bind_eq_ok.1 h
      cases o with
      | none => cases h; rfl
      | some k =>
        obtain ⟨x, hx, h⟩ := Res.bind_eq_ok.1 h
        exact (hname (Res.ok.inj h)).symm
  · obtain rfl := Res.ok.inj (ht.symm.trans ((type_iff (s := "attribute") (t := .attribute) (by decide)).2 hr))
    obtain ⟨pt, hpt', h⟩ := Res.bind_eq_ok.1 h
    obtain rfl := Res.ok.inj (hpt'.symm.trans hpt)
    rw [if_pos rfl] at h
    unfold parseGlobalAttribute at h
    cases hrf : attrRef (placeOf U c root []).node with
    | some r => rw [hrf] at h; cases h
    | none =>
      rw [hrf] at h
      obtain ⟨nm, hnm, h⟩ := Res.bind_eq_ok.1 h
      rw [show c.attr "name".toList = some nm from unwrap_ok.1 hnm]
      congr 1
      cases ht : attrType (placeOf U c root []).node with
      | some t => rw [ht] at h; cases h
      | none =>
        rw [ht] at h
        obtain ⟨o, ho, h⟩ := Res.bind_eq_ok.1 h
        cases o with
        | none => cases h; rfl
        | some k =>
          obtain ⟨x, hx, h⟩ := Res.bind_eq_ok.1 h
          exact (hname (Res.ok.inj h)).symm

/-- **Supported schemas are parsed.** -/
theorem parseFile_exists {root : Node} {U : UnicodeTable} (S : Supported root) : ∃ f, parseFile U root = .ok f := by
  obtain ⟨f, hf⟩ := schema_exists (U := U) S
  unfold parseFile
  rw [bind_ok hf]
  obtain ⟨hne, hp⟩ := Props.C44_panic f
  cases hx : extendFile f with
  | ok g => exact ⟨g, rfl⟩
  | err => exact absurd hx hne
  | panic =>
    obtain ⟨i, s, t, key, h1, h2, h3, ⟨s', h4, h5⟩, -⟩ := hp.1 hx
    have hlt : i < f.types.length := by
      by_contra hge
      rw [List.getElem?_eq_none (Nat.le_of_not_lt hge)] at h1
      cases h1
    have h4 : (f.types ++ f.attributeGroups)[i]? = some (.struct s') := h4
    rw [List.getElem?_append_left hlt, h1] at h4
    obtain rfl := RsEntity.struct.inj (Option.some.inj h4)
    obtain ⟨c, hc, hpc⟩ := schema_types hf _ (List.mem_of_getElem? h1)
    obtain ⟨x, ⟨e, he, hx⟩, hb⟩ := parse_nested S hc hpc t h2
    have hnm := struct_name S hc hpc
    exact absurd h3 (S.acyclic c key e x t hc (h5 ▸ hnm) he hx hb)

/-! ## Generation -/

/-- Properties of the lengths. -/
def lengthPreds : Preds where
  R _ _ _ := True
  N _ := True
  T _ := True
  C _ := True
  F f := ∀ v, (f = .length v ∨ f = .maxLength v ∨ f = .minLength v) → ∃ k, U32Text v k
  J _ := True
  L _ := True

theorem length_value {n : Node} {p : Option Str} {f : FacetType} {v : Str} (h : xsdType p n = .ok (.facet f))
    (hv : f = .length v ∨ f = .maxLength v ∨ f = .minLength v) :
    Is n ["length", "minLength", "maxLength"] ∧ n.attr "value".toList = some v := by
  have hk := xsdType_kind h
  generalize ht : ElementType.facet f = t at hk
  cases hk with
  | plain hp _ => have := plain_isPlain _ hp; rw [← ht] at this; cases this
  | @facet s g w hf hs ha =>
    obtain rfl := ElementType.facet.inj ht
    rw [ha]
    have hall : ∀ r ∈ facetTags, ∀ w v, (r.2 w = .length v ∨ r.2 w = .maxLength v ∨ r.2 w = .minLength v) →
        r.1.toList ∈ ["length", "minLength", "maxLength"].map String.toList ∧ w = v := by
      intro r hr w v hv
      simp only [facetTags, List.mem_cons, List.not_mem_nil, or_false] at hr
      rcases hr with rfl | rfl | rfl | rfl | rfl | rfl | rfl | rfl | rfl | rfl | rfl <;>
        rcases hv with hv | hv | hv <;> cases hv <;> exact ⟨by decide, rfl⟩
    obtain ⟨h1, rfl⟩ := hall _ hf w v hv
    exact ⟨is_of hs h1, rfl⟩
  | whiteSpace _ _ _ =>
    obtain rfl := ElementType.facet.inj ht
    rcases hv with hv | hv | hv <;> cases hv
  | «extension» => cases ht
  | restriction => cases ht
  | misplacedExtension => cases ht
  | misplacedRestriction => cases ht
  | unknown => cases ht

theorem sources_lengths {root : Node} (S : Supported root) : Sources (PartOf root) (PartOf root) lengthPreds where
  hered _ hn _ hc := .child hn hc
  mono _ h := h
  owner _ _ := trivial
  name _ _ := trivial
  ref _ _ := trivial
  type _ _ := trivial
  base _ _ := trivial
  itemType _ _ := trivial
  memberTypes _ _ _ _ := ⟨trivial, trivial⟩
  facet hn hf v hv := S.lengths _ v hn (length_value hf hv).1 (length_value hf hv).2
  enumeration _ _ := trivial
  namespace' _ := trivial
  location _ := trivial
  name_type _ := trivial
  name_case _ := trivial
  name_import _ := trivial
  suffix _ := ⟨trivial, trivial, trivial⟩
  constants _ _ := trivial
  field _ _ := trivial
  marker _ _ := trivial
  rename _ _ := trivial
  numbered _ := ⟨trivial, trivial⟩

/-- **Supported schemas are converted.** -/
theorem convert_exists {root : Node} {U : UnicodeTable} (S : Supported root) : ∃ t, convertXsd U root = .ok t := by
  obtain ⟨f, hf⟩ := parseFile_exists (U := U) S
  unfold convertXsd
  rw [bind_ok hf]
  rcases Props.C55_total U f with h | h
  · obtain ⟨t, ht, fc, hfc, v, hv, hno⟩ := (Props.C55_panic_iff U f).1 h
    have := Deep.generatedList (parseFile_texts (sources_lengths S) .root hf).1 _ ht
    exact absurd (this.2.2.1 fc hfc v hv) hno
  · exact h

end Verif.Lemmas.Parse
