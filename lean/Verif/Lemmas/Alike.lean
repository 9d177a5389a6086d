import Verif.Spec.Alike
import Verif.Lemmas.Parse
import Verif.Lemmas.Pipeline

/-! # Elements which say the same are parsed to the same -/

namespace Verif.Lemmas.Alike

open Verif Verif.Model Verif.Spec Verif.RoXml Verif.Lemmas Verif.Lemmas.Parse

/-! ## Single elements -/

theorem alike_element {n n' : Node} (h : Alike n n') : n.isElement = true ∧ n'.isElement = true := by
  cases h <;> exact ⟨rfl, rfl⟩

theorem alike_tag {n n' : Node} (h : Alike n n') : n.tag = n'.tag := by
  cases h <;> rfl

mutual
theorem alike_refl : ∀ {n : Node}, n.isElement = true → Alike n n
  | .element u t as ns cs, _ => .element (fun _ _ => rfl) rfl (alikeKids_refl cs)
  | .text _, h => by cases h
  | .other, h => by cases h
theorem alikeKids_refl : ∀ cs : List Node, AlikeKids cs cs
  | [] => .nil
  | .element _ _ _ _ _ :: ds => .both (alike_refl rfl) (alikeKids_refl ds)
  | .text _ :: ds => .left rfl (.right rfl (alikeKids_refl ds))
  | .other :: ds => .left rfl (.right rfl (alikeKids_refl ds))
end

theorem forall₂_join {α β : Type} {R : α → β → Prop} {l1 l2 : List α} {m1 m2 : List β} (h1 : List.Forall₂ R l1 m1)
    (h2 : List.Forall₂ R l2 m2) : List.Forall₂ R (l1 ++ l2) (m1 ++ m2) := by
  induction h1 with
  | nil => exact h2
  | cons h _ ih => exact .cons h ih

/-- Nothing is asked of annotations. -/
structure Agree (n n' : Node) : Prop where
  tag : n.tag = n'.tag
  attr : ∀ a ∈ meaningfulAttrs, n.attr a.toList = n'.attr a.toList
  doc : docOf n = docOf n'

theorem alike_agree {n n' : Node} (h : Alike n n') (ht : n.tag ≠ "annotation".toList) : Agree n n' := by
  cases h with
  | annotation => exact absurd rfl ht
  | element h1 h2 _ => exact ⟨rfl, h1, h2⟩

theorem xsdType_congr {n n' : Node} (h : Alike n n') (p : Option Str) : xsdType p n = xsdType p n' := by
  by_cases ht : n.tag = "annotation".toList
  · have ht' : n'.tag = "annotation".toList := (alike_tag h).symm.trans ht
    unfold xsdType
    simp [ht, ht']
  · have ha := alike_agree h ht
    have hv : attrValue n = attrValue n' := ha.attr "value" (by decide)
    have e1 : ∀ f, valueFacet n f = valueFacet n' f := fun f => by unfold valueFacet; rw [hv]
    have e2 : whiteSpaceFacet n = whiteSpaceFacet n' := by unfold whiteSpaceFacet; rw [hv]
    unfold xsdType
    dsimp only
    rw [← ha.tag, e2]
    simp only [e1]

theorem xsdType_other {n : Node} (h : n.isElement = false) (p : Option Str) : xsdType p n = .ok (.unknownElement []) := by
  have ht : n.tag = [] := by
    cases n with
    | element => cases h
    | _ => rfl
  unfold xsdType
  rw [ht]
  rfl

theorem Agree.documentation {n n' : Node} (h : Agree n n') : getDocumentation n = getDocumentation n' := by
  rw [documentation_eq, documentation_eq, h.doc]

theorem alike_doc {n n' : Node} (h : Alike n n') (ht : n.tag ≠ "annotation".toList) :
    getDocumentation n = getDocumentation n' := (alike_agree h ht).documentation

theorem Agree.name {n n' : Node} (h : Agree n n') : attrName n = attrName n' := h.attr "name" (by decide)
theorem Agree.type {n n' : Node} (h : Agree n n') : attrType n = attrType n' := h.attr "type" (by decide)
theorem Agree.ref {n n' : Node} (h : Agree n n') : attrRef n = attrRef n' := h.attr "ref" (by decide)
theorem Agree.value {n n' : Node} (h : Agree n n') : attrValue n = attrValue n' := h.attr "value" (by decide)
theorem Agree.base {n n' : Node} (h : Agree n n') : attrBase n = attrBase n' := h.attr "base" (by decide)

theorem Agree.xsdType {n n' : Node} (ha : Agree n n') (p : Option Str) : Model.xsdType p n = Model.xsdType p n' := by
  have e1 : ∀ f, valueFacet n f = valueFacet n' f := fun f => by unfold valueFacet; rw [ha.value]
  have e2 : whiteSpaceFacet n = whiteSpaceFacet n' := by unfold whiteSpaceFacet; rw [ha.value]
  unfold Model.xsdType
  dsimp only
  rw [← ha.tag, e2]
  simp only [e1]

theorem Agree.modifier {n n' : Node} (h : Agree n n') : elementModifier n = elementModifier n' := by
  have e1 : minOccurs n = minOccurs n' := by unfold minOccurs; rw [h.attr "minOccurs" (by decide)]
  have e2 : maxOccurs n = maxOccurs n' := by unfold maxOccurs; rw [h.attr "maxOccurs" (by decide)]
  unfold elementModifier
  rw [e1, e2]

/-- An element and what it is in, up to the schema element. -/
inductive SameLine : List Node → List Node → Prop where
  | nil : SameLine [] []
  | cons {p p' ps ps'} : Agree p p' → SameLine ps ps' → SameLine (p :: ps) (p' :: ps')
  | schema {p p' ps ps'} : Agree p p' → p.tag = "schema".toList → SameLine (p :: ps) (p' :: ps')

theorem head_tag {above above' : List Node} (h : SameLine above above') :
    above.head?.map Node.tag = above'.head?.map Node.tag := by
  cases h with
  | nil => rfl
  | cons h _ => exact congrArg some h.tag
  | schema h _ => exact congrArg some h.tag

theorem schema_type {p : Node} (h : p.tag = "schema".toList) (t : Option Str) : xsdType t p = .ok .schema := by
  unfold xsdType
  simp [h]

theorem line_type {p p' : Node} {above above' : List Node} (h : SameLine (p :: above) (p' :: above')) :
    xsdType (above.head?.map Node.tag) p = xsdType (above'.head?.map Node.tag) p' := by
  cases h with
  | cons h1 h2 => rw [head_tag h2, h1.xsdType]
  | schema h1 h2 => rw [schema_type h2, schema_type (h1.tag.symm.trans h2)]

theorem getParentName_congr {ps ps' : List Node} (h : SameLine ps ps') : getParentName ps = getParentName ps' := by
  induction h with
  | nil => rfl
  | @cons p p' above above' h1 h2 ih =>
    unfold getParentName
    rw [head_tag h2, h1.xsdType, h1.name, ih]
  | @schema p p' above above' h1 h2 =>
    unfold getParentName
    rw [schema_type h2, schema_type (h1.tag.symm.trans h2)]
    rfl

/-! ## Places -/

/-- Children with the same results. -/
inductive SameKids : List (Node × Res RsEntity) → List (Node × Res RsEntity) → Prop where
  | nil : SameKids [] []
  | left {k ks ks'} : k.1.isElement = false → SameKids ks ks' → SameKids (k :: ks) ks'
  | right {k ks ks'} : k.1.isElement = false → SameKids ks ks' → SameKids ks (k :: ks')
  | both {n n' r ks ks'} : Alike n n' → SameKids ks ks' → SameKids ((n, r) :: ks) ((n', r) :: ks')

abbrev Typed := ElementType × Node × Res RsEntity

inductive SameTyped : List Typed → List Typed → Prop where
  | nil : SameTyped [] []
  | left {n r ks ks'} : n.isElement = false → SameTyped ks ks' → SameTyped ((.unknownElement [], n, r) :: ks) ks'
  | right {n r ks ks'} : n.isElement = false → SameTyped ks ks' → SameTyped ks ((.unknownElement [], n, r) :: ks')
  | both {t n n' r ks ks'} : Alike n n' → (n.tag = "annotation".toList → t = .annotation) → SameTyped ks ks' →
      SameTyped ((t, n, r) :: ks) ((t, n', r) :: ks')

structure SamePlace (c c' : Place) : Prop where
  node : Agree c.node c'.node
  kids : SameKids c.kids c'.kids
  parent : Agree c.parent c'.parent
  line : SameLine (c.parent :: c.above) (c'.parent :: c'.above)

/-- Results of the same kind. -/
def SameRes {α β : Type} (R : α → β → Prop) : Res α → Res β → Prop
  | .ok a, .ok b => R a b
  | .err, .err => True
  | .panic, .panic => True
  | _, _ => False

theorem SameRes.bind {α β γ : Type} {R : α → β → Prop} {x : Res α} {y : Res β} {f : α → Res γ} {g : β → Res γ}
    (h : SameRes R x y) (hf : ∀ a b, R a b → f a = g b) : x.bind f = y.bind g := by
  cases x <;> cases y <;> first | exact hf _ _ h | rfl | exact absurd h id

theorem annotation_type {n : Node} (h : n.tag = "annotation".toList) (p : Option Str) : xsdType p n = .ok .annotation := by
  unfold xsdType
  rw [h]
  rfl

theorem sameTyped {p : Option Str} {ks ks' : List (Node × Res RsEntity)} (h : SameKids ks ks') :
    SameRes SameTyped (Res.mapM' (fun k => (xsdType p k.1).bind fun t => .ok (t, k)) ks)
      (Res.mapM' (fun k => (xsdType p k.1).bind fun t => .ok (t, k)) ks') := by
  induction h with
  | nil => exact .nil
  | @left k ks ks' h1 _ ih =>
    rw [Res.mapM', xsdType_other h1]
    simp only [Res.ok_bind]
    generalize hx : Res.mapM' _ ks = x at ih ⊢
    generalize hy : Res.mapM' _ ks' = y at ih ⊢
    cases x <;> cases y <;> first | exact .left h1 ih | trivial
  | @right k ks ks' h1 _ ih =>
    show SameRes _ _ (((xsdType p k.1).bind _).bind _)
    rw [xsdType_other h1]
    simp only [Res.ok_bind]
    generalize hx : Res.mapM' _ ks = x at ih ⊢
    generalize hy : Res.mapM' _ ks' = y at ih ⊢
    cases x <;> cases y <;> first | exact .right h1 ih | trivial
  | @both n n' r ks ks' h1 _ ih =>
    rw [Res.mapM', Res.mapM', xsdType_congr h1]
    have ha : n.tag = "annotation".toList → xsdType p n' = .ok .annotation :=
      fun h => annotation_type ((alike_tag h1).symm.trans h) p
    generalize xsdType p n' = z at ha
    cases z with
    | err => trivial
    | panic => trivial
    | ok t =>
      simp only [Res.ok_bind]
      generalize hx : Res.mapM' _ ks = x at ih ⊢
      generalize hy : Res.mapM' _ ks' = y at ih ⊢
      cases x <;> cases y <;>
        first | exact .both h1 (fun h => Res.ok.inj (ha h)) ih | trivial

theorem SamePlace.typedKids {c c' : Place} (h : SamePlace c c') : SameRes SameTyped c.typedKids c'.typedKids := by
  unfold Place.typedKids
  rw [h.node.tag]
  exact sameTyped h.kids

/-- The filters do not let other nodes pass and do not tell alike ones apart. -/
structure Fair (q : ElementType → Node → Bool) : Prop where
  other : ∀ n, n.isElement = false → q (.unknownElement []) n = false
  same : ∀ t n n', n.isElement = true → n'.isElement = true → q t n = q t n'
  annotation : ∀ n, q .annotation n = false

def SameKid (k k' : Typed) : Prop :=
  k.1 = k'.1 ∧ Alike k.2.1 k'.2.1 ∧ k.2.2 = k'.2.2 ∧ (k.2.1.tag = "annotation".toList → k.1 = .annotation)

theorem SameTyped.filter {ks ks' : List Typed} (h : SameTyped ks ks') {q : ElementType → Node → Bool} (hq : Fair q) :
    List.Forall₂ SameKid (ks.filter fun k => q k.1 k.2.1) (ks'.filter fun k => q k.1 k.2.1) := by
  induction h with
  | nil => exact .nil
  | left h1 _ ih => rw [List.filter_cons_of_neg (by simpa using hq.other _ h1)]; exact ih
  | right h1 _ ih => rw [List.filter_cons_of_neg (a := _) (by simpa using hq.other _ h1)]; exact ih
  | @both t n n' r ks ks' h1 h2 _ ih =>
    have e := hq.same t n n' (alike_element h1).1 (alike_element h1).2
    by_cases hp : q t n = true
    · rw [List.filter_cons_of_pos (a := (t, n, r)) hp, List.filter_cons_of_pos (a := (t, n', r)) (by rw [← e]; exact hp)]
      exact .cons ⟨rfl, h1, rfl, h2⟩ ih
    · rw [List.filter_cons_of_neg (a := (t, n, r)) hp, List.filter_cons_of_neg (a := (t, n', r)) (by rw [← e]; exact hp)]
      exact ih

theorem mapM'_congr {α β γ : Type} {R : α → β → Prop} {f : α → Res γ} {g : β → Res γ} {l : List α} {l' : List β}
    (h : List.Forall₂ R l l') (hf : ∀ a b, R a b → f a = g b) : Res.mapM' f l = Res.mapM' g l' := by
  induction h with
  | nil => rfl
  | cons h1 _ ih => rw [Res.mapM', Res.mapM', hf _ _ h1, ih]

theorem kids_congr {γ : Type} {c c' : Place} (h : SamePlace c c') {q : ElementType → Node → Bool} (hq : Fair q)
    (f : RsEntity → Res γ) :
    (c.typedKids.bind fun ks => Res.mapM' (fun k => k.2.2.bind f) (ks.filter fun k => q k.1 k.2.1)) =
      c'.typedKids.bind fun ks => Res.mapM' (fun k => k.2.2.bind f) (ks.filter fun k => q k.1 k.2.1) :=
  h.typedKids.bind fun ks ks' hk => mapM'_congr (hk.filter hq) fun k k' hs => by rw [hs.2.2.1]

theorem getLast_congr {α β : Type} {R : α → β → Prop} {l : List α} {l' : List β} (h : List.Forall₂ R l l') :
    (l.getLast? = none ∧ l'.getLast? = none) ∨ ∃ a b, l.getLast? = some a ∧ l'.getLast? = some b ∧ R a b := by
  induction h with
  | nil => exact .inl ⟨rfl, rfl⟩
  | @cons a b l l' h1 h2 ih =>
    cases h2 with
    | nil => exact .inr ⟨a, b, rfl, rfl, h1⟩
    | cons h3 h4 =>
      right
      rcases ih with ⟨h, _⟩ | ⟨x, y, hx, hy, hr⟩
      · simp at h
      · exact ⟨x, y, by rw [List.getLast?_cons_cons]; exact hx, by rw [List.getLast?_cons_cons]; exact hy, hr⟩

theorem bind_assoc {α β γ : Type} (x : Res α) (f : α → Res β) (g : β → Res γ) :
    (x.bind f).bind g = x.bind fun a => (f a).bind g := by
  cases x <;> rfl

theorem lastKid_congr {γ : Type} {c c' : Place} (h : SamePlace c c') {q : ElementType → Node → Bool} (hq : Fair q)
    {f g : Option (Node × Res RsEntity) → Res γ} (h0 : f none = g none)
    (h1 : ∀ n n' r, Alike n n' → n.tag ≠ "annotation".toList → f (some (n, r)) = g (some (n', r))) :
    (c.lastKid q).bind f = (c'.lastKid q).bind g := by
  unfold Place.lastKid
  rw [bind_assoc, bind_assoc]
  refine h.typedKids.bind fun ks ks' hk => ?_
  rw [Res.ok_bind, Res.ok_bind]
  rcases getLast_congr (hk.filter hq) with ⟨e1, e2⟩ | ⟨⟨t, n, r⟩, ⟨t', n', r'⟩, e1, e2, -, ha, hr, ht⟩
  · rw [e1, e2]; exact h0
  · rw [e1, e2]
    obtain rfl : r = r' := hr
    refine h1 n n' r ha fun hn => ?_
    have hm := (List.mem_filter.1 (List.mem_of_getLast? e1)).2
    rw [show t = .annotation from ht hn] at hm
    rw [show ((ElementType.annotation, n, r) : Typed).1 = .annotation from rfl, hq.annotation] at hm
    cases hm

/-! ## The parsers of the single elements -/

theorem fair_of {q : ElementType → Node → Bool} {f : ElementType → Bool} (hq : ∀ t n, q t n = (n.isElement && f t))
    (ha : f .annotation = false) : Fair q where
  other n h := by rw [hq, h]; rfl
  same t n n' h h' := by rw [hq, hq, h, h']
  annotation n := by rw [hq, ha, Bool.and_false]

theorem fair_type {f : ElementType → Bool} (hu : f (.unknownElement []) = false)
    (ha : f .annotation = false) : Fair fun t _ => f t where
  other _ _ := hu
  same _ _ _ _ _ := rfl
  annotation _ := ha

theorem fair_member : Fair isMember :=
  fair_of (f := fun t => decide (t ≠ .annotation)) (fun t n => by unfold isMember; simp) (by decide)
theorem fair_contentType : Fair isContentType := fair_type (by decide) (by decide)
theorem fair_complex : Fair isComplexContent :=
  fair_of (f := fun t => decide (t = .all ∨ t = .choice ∨ t = .complexContent ∨ t = .group ∨ t = .sequence ∨ t = .simpleContent))
    (fun t n => by unfold isComplexContent; simp) (by decide)
theorem fair_extension : Fair isExtensionContent :=
  fair_of (f := fun t => decide (t ≠ .attribute ∧
      (t = .all ∨ t = .attribute ∨ t = .attributeGroup ∨ t = .choice ∨ t = .group ∨ t = .sequence)))
    (fun t n => by unfold isExtensionContent; simp) (by decide)
theorem fair_restriction : Fair isRestrictionContent :=
  fair_of (f := fun t => decide (t ≠ .attribute ∧
      (t = .all ∨ t = .anyAttribute ∨ t = .attribute ∨ t = .attributeGroup ∨ t = .choice ∨ t = .group ∨ t = .sequence)))
    (fun t n => by unfold isRestrictionContent; simp) (by decide)
theorem fair_kind (k : ElementType) (h : k ≠ .annotation) : Fair fun t n => decide (n.isElement ∧ t = k) :=
  fair_of (f := fun t => decide (t = k)) (fun t n => by simp) (by simpa using h.symm)

section
variable {c c' : Place}

theorem SamePlace.type (h : SamePlace c c') : c.type = c'.type := by
  unfold Place.type
  rw [h.node.xsdType, h.parent.tag]

theorem SamePlace.parentType (h : SamePlace c c') : c.parentType = c'.parentType := by
  unfold Place.parentType
  exact line_type h.line

theorem SamePlace.parentName (h : SamePlace c c') : c.parentName = c'.parentName :=
  getParentName_congr h.line

theorem SamePlace.fields (h : SamePlace c c') : attributesToFields c = attributesToFields c' :=
  kids_congr h (fair_type (f := fun t => decide (t = .attribute ∨ t = .anyAttribute)) (by decide) (by decide)) asField

theorem SamePlace.groups (h : SamePlace c c') : attributeGroupsToAliases c = attributeGroupsToAliases c' :=
  kids_congr h (fair_type (f := fun t => decide (t = .attributeGroup)) (by decide) (by decide)) asAlias

theorem SamePlace.elements (h : SamePlace c c') (s : Str) : elementsToFields c s = elementsToFields c' s :=
  kids_congr h fair_member (memberField s)

theorem any_congr {n n' : Node} (h : Agree n n') : parseAny n = parseAny n' := by
  unfold parseAny; rw [h.documentation]

theorem anyAttribute_congr {n n' : Node} (h : Agree n n') : parseAnyAttribute n = parseAnyAttribute n' := by
  unfold parseAnyAttribute; rw [h.documentation]

theorem import_congr {n n' : Node} (h : Agree n n') : parseImport n = parseImport n' := by
  unfold parseImport; rw [h.attr "namespace" (by decide), h.attr "schemaLocation" (by decide)]

theorem elementDefault_congr {n n' : Node} (h : Agree n n') : elementDefault n = elementDefault n' := by
  unfold elementDefault; rw [h.type, h.documentation]

theorem case_congr {n n' : Node} (h : Agree n n') : parseCaseOfChoice n = parseCaseOfChoice n' := by
  unfold parseCaseOfChoice; rw [h.ref, h.type, h.name, h.documentation, h.modifier]

theorem field_congr (h : SamePlace c c') : parseFieldOfSequence c = parseFieldOfSequence c' := by
  unfold parseFieldOfSequence Node.hasAttribute
  dsimp only
  rw [h.node.attr "type" (by decide), h.node.attr "ref" (by decide), h.node.name, h.node.type, h.node.ref,
    h.node.documentation, h.node.modifier]
  split
  · rfl
  · exact lastKid_congr h fair_contentType rfl fun n n' r _ _ => rfl

theorem globalElement_congr (h : SamePlace c c') : parseGlobalElement c = parseGlobalElement c' := by
  unfold parseGlobalElement
  rw [h.node.name, h.node.type, h.node.documentation]
  congr 1
  funext name
  cases attrType c'.node with
  | some t => rfl
  | none => exact lastKid_congr h fair_contentType rfl fun n n' r _ _ => rfl

theorem element_congr (h : SamePlace c c') : parseElement c = parseElement c' := by
  unfold parseElement
  rw [h.parentType, globalElement_congr h, field_congr h, case_congr h.node, elementDefault_congr h.node]

theorem globalAttribute_congr (h : SamePlace c c') : parseGlobalAttribute c = parseGlobalAttribute c' := by
  unfold parseGlobalAttribute
  rw [h.node.ref, h.node.name, h.node.type, h.node.documentation]
  cases attrRef c'.node with
  | some r => rfl
  | none =>
    show (Res.unwrap _).bind _ = (Res.unwrap _).bind _
    congr 1
    funext name
    cases attrType c'.node with
    | some t => rfl
    | none => exact lastKid_congr h (fair_kind .simpleType (by decide)) rfl fun n n' r _ _ => rfl

theorem use_congr {n n' : Node} (h : Agree n n') : attrUse n = attrUse n' := by
  unfold attrUse; rw [h.attr "use" (by decide)]

theorem attribute_congr (h : SamePlace c c') : parseAttribute c = parseAttribute c' := by
  unfold parseAttribute
  rw [h.parentType, globalAttribute_congr h, h.node.name, h.node.ref, h.node.type, h.node.documentation, use_congr h.node]

theorem attributeGroup_congr (h : SamePlace c c') : parseAttributeGroup c = parseAttributeGroup c' := by
  unfold parseAttributeGroup
  rw [h.parentType, h.node.name, h.node.ref, h.node.documentation, h.fields]

theorem sequence_congr (h : SamePlace c c') : parseSequence c = parseSequence c' := by
  unfold parseSequence
  rw [h.parentName, h.parent.documentation]
  congr 1
  funext name
  rw [h.elements]

theorem choice_congr (h : SamePlace c c') : parseChoice c = parseChoice c' := by
  unfold parseChoice
  refine h.typedKids.bind fun ks ks' hk => ?_
  rw [mapM'_congr (hk.filter (fair_kind .element (by decide))) fun k k' hs => by rw [hs.2.2.1]]

theorem finish_congr (h : SamePlace c c') (name : Str) (fields : List StructField) :
    finishComplexType c name fields = finishComplexType c' name fields := by
  funext e
  unfold finishComplexType
  rw [h.groups, h.node.documentation]

theorem elements_length {cs cs' : List Node} (h : AlikeKids cs cs') :
    (cs.filter Node.isElement).length = (cs'.filter Node.isElement).length := by
  induction cs generalizing cs' with
  | nil =>
    generalize hx : ([] : List Node) = xs at h
    induction cs' with
    | nil => rw [← hx]
    | cons c' cs' ih =>
      subst hx
      cases h with
      | right h1 h2 => rw [List.filter_cons_of_neg (by simp [h1])]; exact ih h2
  | cons c cs ih =>
    generalize hx : c :: cs = xs at h
    induction cs' with
    | nil =>
      cases h with
      | nil => cases hx
      | left h1 h2 =>
        obtain ⟨rfl, rfl⟩ := List.cons.inj hx
        rw [List.filter_cons_of_neg (by simp [h1])]; exact ih h2
    | cons c' cs' ih' =>
      cases h with
      | left h1 h2 =>
        obtain ⟨rfl, rfl⟩ := List.cons.inj hx
        rw [List.filter_cons_of_neg (a := c) (by simp [h1])]; exact ih h2
      | right h1 h2 => rw [List.filter_cons_of_neg (a := c') (by simp [h1])]; exact ih' h2
      | both h1 h2 =>
        obtain ⟨rfl, rfl⟩ := List.cons.inj hx
        rw [List.filter_cons_of_pos (alike_element h1).1, List.filter_cons_of_pos (alike_element h1).2]
        exact congrArg (· + 1) (ih h2)

theorem complexType_congr (h : SamePlace c c') : parseComplexType c = parseComplexType c' := by
  unfold parseComplexType complexTypeName
  rw [h.parentType, h.parentName, h.node.name, h.fields, h.groups, h.node.documentation]
  congr 1
  funext name
  congr 1
  funext fields
  refine lastKid_congr h fair_complex rfl fun n n' r ha ht => ?_
  have e : (n.children.filter Node.isElement).length = (n'.children.filter Node.isElement).length := by
    cases ha with
    | annotation => exact absurd rfl ht
    | element _ _ hk => exact elements_length hk
  dsimp only
  rw [e, finish_congr h]

theorem content_congr (h : SamePlace c c') : parseContent c = parseContent c' :=
  lastKid_congr h fair_member rfl fun _ _ _ _ _ => rfl

theorem base_congr {n n' : Node} (h : Agree n n') (b : Str) : baseField n b = baseField n' b := by
  unfold baseField; rw [h.documentation]

theorem without_congr (h : SamePlace c c') (fs : List StructField) :
    derivedWithoutContent c fs = derivedWithoutContent c' fs := by
  unfold derivedWithoutContent; rw [h.groups, h.node.documentation]

theorem with_congr (h : SamePlace c c') (fs : List StructField) :
    derivedWithContent c fs = derivedWithContent c' fs := by
  funext e
  unfold derivedWithContent
  rw [without_congr h, h.node.documentation]

theorem extension_congr (h : SamePlace c c') : parseExtension c = parseExtension c' := by
  have e1 : simpleContentExtension c = simpleContentExtension c' := by
    unfold simpleContentExtension
    rw [h.node.base, h.fields, h.groups, h.node.documentation]
    simp only [base_congr h.node]
  have e2 : complexContentExtension c = complexContentExtension c' := by
    unfold complexContentExtension
    rw [h.node.base, h.fields]
    congr 1
    funext base
    congr 1
    funext fields
    refine lastKid_congr h fair_extension ?_ fun n n' r _ _ => ?_
    · dsimp only; rw [without_congr h, base_congr h.node]
    · dsimp only; rw [with_congr h, base_congr h.node]
  unfold parseExtension
  rw [h.type, e1, e2]

theorem xsdType_facet {p : Option Str} {n : Node} {f : FacetType} (h : n.tag = "annotation".toList) :
    xsdType p n ≠ .ok (.facet f) := by
  rw [annotation_type h]; intro h; cases h

theorem SamePlace.facets (h : SamePlace c c') : Model.facets c = Model.facets c' := by
  unfold Model.facets
  refine h.typedKids.bind fun ks ks' hk => ?_
  congr 1
  induction hk with
  | nil => rfl
  | left _ _ ih => rw [List.filterMap_cons]; exact ih
  | right _ _ ih => rw [List.filterMap_cons]; exact ih
  | @both t n n' r ks ks' h1 h2 _ ih =>
    rw [List.filterMap_cons, List.filterMap_cons, ih]
    cases t with
    | facet f =>
      have hd := alike_doc h1 fun hn => by cases h2 hn
      dsimp only
      rw [hd]
    | _ => rfl

theorem SamePlace.enumerations (h : SamePlace c c') (U : UnicodeTable) :
    isSimpleEnumerations U c = isSimpleEnumerations U c' := by
  unfold isSimpleEnumerations
  refine h.typedKids.bind fun ks ks' hk => ?_
  congr 1
  induction hk with
  | nil => rfl
  | left _ _ ih => rw [List.all_cons]; exact ih
  | right _ _ ih => rw [List.all_cons]; exact ih
  | both _ _ _ ih => rw [List.all_cons, List.all_cons, ih]

theorem restriction_congr (h : SamePlace c c') (U : UnicodeTable) : parseRestriction U c = parseRestriction U c' := by
  have e1 : simpleTypeRestriction U c = simpleTypeRestriction U c' := by
    unfold simpleTypeRestriction
    rw [h.node.base, h.facets, h.enumerations, h.parentName]
  have e2 : complexContentRestriction c = complexContentRestriction c' := by
    unfold complexContentRestriction
    rw [h.node.base, h.fields]
    congr 1
    funext base
    congr 1
    funext fields
    refine lastKid_congr h fair_restriction ?_ fun n n' r _ _ => ?_
    · dsimp only; rw [without_congr h, base_congr h.node]
    · dsimp only; rw [with_congr h, base_congr h.node]
  unfold parseRestriction
  rw [h.type, e1, e2]

theorem find_congr {ks ks' : List (Node × Res RsEntity)} (h : SameKids ks ks') (t : Str) :
    (ks.find? fun k => k.1.isElement && k.1.tag = t).map (·.2) = (ks'.find? fun k => k.1.isElement && k.1.tag = t).map (·.2) := by
  induction h with
  | nil => rfl
  | left h1 _ ih => rw [List.find?_cons_of_neg (by simp [h1])]; exact ih
  | right h1 _ ih => rw [List.find?_cons_of_neg (by simp [h1])]; exact ih
  | @both n n' r ks ks' h1 _ ih =>
    by_cases ht : n.tag = t
    · rw [List.find?_cons_of_pos (by simp [(alike_element h1).1, ht]),
        List.find?_cons_of_pos (by simp [(alike_element h1).2, ← alike_tag h1, ht])]
      rfl
    · rw [List.find?_cons_of_neg (by simp [ht]), List.find?_cons_of_neg (by simp [← alike_tag h1, ht])]
      exact ih

theorem list_congr (h : SamePlace c c') : parseList c = parseList c' := by
  unfold parseList
  rw [h.node.attr "itemType" (by decide)]
  cases c'.node.attr "itemType".toList with
  | some t => rfl
  | none =>
    have e := find_congr h.kids "simpleType".toList
    dsimp only
    generalize c.kids.find? _ = x at e ⊢
    generalize c'.kids.find? _ = y at e ⊢
    cases x <;> cases y
    · rfl
    · cases e
    · cases e
    · simp only [Option.map_some, Option.some.injEq] at e
      simp only [Res.unwrap, Res.ok_bind, e]

theorem union_congr (h : SamePlace c c') : parseUnion c = parseUnion c' := by
  unfold parseUnion
  refine h.typedKids.bind fun ks ks' hk => ?_
  have e : ∀ {l l' : List Typed}, List.Forall₂ SameKid l l' → l.map (·.2.2) = l'.map (·.2.2) := by
    intro l l' hl
    induction hl with
    | nil => rfl
    | cons h1 _ ih => rw [List.map_cons, List.map_cons, h1.2.2.1, ih]
  rw [e (hk.filter (fair_kind .simpleType (by decide))), h.fields, h.node.attr "memberTypes" (by decide), h.node.documentation,
    h.parentName]

theorem simpleType_congr (h : SamePlace c c') : parseSimpleType c = parseSimpleType c' := by
  unfold parseSimpleType
  rw [h.parentType, h.node.name, h.node.documentation]
  congr 1
  funext pt
  split
  · rfl
  · exact lastKid_congr h fair_member rfl fun n n' r _ _ => rfl

theorem place_congr (h : SamePlace c c') (U : UnicodeTable) : parsePlace U c = parsePlace U c' := by
  unfold parsePlace
  rw [h.type, sequence_congr h, any_congr h.node, anyAttribute_congr h.node, attribute_congr h, attributeGroup_congr h,
    choice_congr h, content_congr h, complexType_congr h, element_congr h, extension_congr h, import_congr h.node,
    list_congr h, restriction_congr h, simpleType_congr h, union_congr h]

end

/-! ## The whole document -/

/-- The elements of two alike ones have the same results. -/
def SameResult (U : UnicodeTable) (n n' : Node) : Prop :=
  ∀ (p p' : Node) (above above' : List Node), Agree p p' → SameLine (p :: above) (p' :: above') →
    parseNode U n p above = parseNode U n' p' above'

def SameResults (U : UnicodeTable) (cs cs' : List Node) : Prop :=
  ∀ (p p' : Node) (above above' : List Node), Agree p p' → SameLine (p :: above) (p' :: above') →
    SameKids (parseKids U cs p above) (parseKids U cs' p' above')

theorem annotation_panics {U : UnicodeTable} {n : Node} (h : n.tag = "annotation".toList) (p : Node) (above : List Node) :
    parseNode U n p above = .panic := by
  rw [parseNode_eq]
  unfold parsePlace Place.type
  rw [show (placeOf U n p above).node = n from rfl, annotation_type h]
  rfl

theorem node_congr (U : UnicodeTable) {n n' : Node} (h : Alike n n') : SameResult U n n' := by
  refine Alike.rec (motive_1 := fun n n' _ => SameResult U n n') (motive_2 := fun cs cs' _ => SameResults U cs cs')
    ?_ ?_ ?_ ?_ ?_ ?_ h
  · intro u u' as as' ns ns' cs cs' p p' above above' _ _
    rw [annotation_panics rfl, annotation_panics rfl]
  · intro u u' t as as' ns ns' cs cs' h1 h2 _ ih p p' above above' hp ha
    have hn : Agree (.element u t as ns cs) (.element u' t as' ns' cs') := ⟨rfl, h1, h2⟩
    unfold parseNode
    exact place_congr ⟨hn, ih _ _ _ _ hn (.cons hn ha), hp, ha⟩ U
  · intro p p' above above' _ _
    exact .nil
  · intro c cs cs' h1 _ ih p p' above above' hp ha
    exact .left h1 (ih _ _ _ _ hp ha)
  · intro c cs cs' h1 _ ih p p' above above' hp ha
    exact .right h1 (ih _ _ _ _ hp ha)
  · intro c c' cs cs' h1 _ ih1 ih2 p p' above above' hp ha
    unfold parseKids
    rw [ih1 p p' above above' hp ha]
    exact .both h1 (ih2 _ _ _ _ hp ha)

theorem kids_alike {U : UnicodeTable} {p p' : Node} {above above' : List Node} (hp : Agree p p')
    (ha : SameLine (p :: above) (p' :: above')) {cs cs' : List Node} (h : AlikeKids cs cs') :
    SameKids (cs.map fun k => (k, parseNode U k p above)) (cs'.map fun k => (k, parseNode U k p' above')) := by
  refine AlikeKids.rec (motive_1 := fun _ _ _ => True)
    (motive_2 := fun cs cs' _ => SameKids (cs.map fun k => (k, parseNode U k p above)) (cs'.map fun k => (k, parseNode U k p' above')))
    ?_ ?_ ?_ ?_ ?_ ?_ h
  · intros; trivial
  · intros; trivial
  · exact .nil
  · intro c cs cs' h1 _ ih; exact .left h1 ih
  · intro c cs cs' h1 _ ih; exact .right h1 ih
  · intro c c' cs cs' h1 _ _ ih
    rw [List.map_cons, List.map_cons, node_congr U h1 p p' above above' hp ha]
    exact .both h1 ih

theorem typed_map {U : UnicodeTable} (n : Node) (above : List Node) (p : Option Str) : ∀ cs : List Node,
    Res.mapM' (fun k : Node × Res RsEntity => (xsdType p k.1).bind fun t => .ok (t, k))
        (cs.map fun k => (k, parseNode U k n above)) =
      (Res.mapM' (fun k => (xsdType p k).bind fun t => .ok (t, k)) cs).bind fun ks =>
        .ok (ks.map fun k => (k.1, k.2, parseNode U k.2 n above))
  | [] => rfl
  | c :: cs => by
    rw [List.map_cons, Res.mapM', Res.mapM', typed_map n above p cs]
    dsimp only
    cases xsdType p c with
    | err => rfl
    | panic => rfl
    | ok t =>
      simp only [Res.ok_bind]
      cases Res.mapM' (fun k => (xsdType p k).bind fun t => .ok (t, k)) cs <;> rfl

theorem schema_typed (U : UnicodeTable) (n : Node) (above : List Node) :
    parseSchema U n above =
      (Res.mapM' (fun k : Node × Res RsEntity => (xsdType (some n.tag) k.1).bind fun t => .ok (t, k))
        (n.children.map fun k => (k, parseNode U k n above))).bind fun ks =>
        (Res.mapM' (fun k => k.2.2)
          (ks.filter fun k => decide (k.2.1.isElement ∧ k.1 ≠ .annotation ∧ k.1 ≠ .attributeGroup))).bind fun types =>
          (Res.mapM' (fun k => k.2.2) (ks.filter fun k => decide (k.2.1.isElement ∧ k.1 = .attributeGroup))).bind fun groups =>
            .ok ⟨[], none, types, groups, targetNamespace n, xsdNamespace n⟩ := by
  rw [typed_map, bind_assoc]
  unfold parseSchema
  congr 1
  funext ks
  rw [Res.ok_bind, List.filter_map, List.filter_map, mapM'_map, mapM'_map]
  rfl

/-- Schemas which say the same are read in the same way. -/
theorem schema_congr {U : UnicodeTable} {a b : Node} (h : SameDocument a b) (above above' : List Node) :
    parseSchema U a above = parseSchema U b above' := by
  obtain ⟨hs, hk, hn⟩ := h
  have hag : Agree a b := alike_agree hk (by rw [hs]; decide)
  have e1 : targetNamespace a = targetNamespace b := by
    unfold targetNamespace; rw [hag.attr "targetNamespace" (by decide), hn]
  have e2 : xsdNamespace a = xsdNamespace b := by unfold xsdNamespace; rw [hn]
  have hc : AlikeKids a.children b.children := by
    cases hk with
    | annotation => exact absurd (show "annotation".toList = "schema".toList from hs) (by decide)
    | element _ _ h => exact h
  rw [schema_typed, schema_typed, e1, e2, hag.tag]
  refine (sameTyped (kids_alike hag (.schema hag hs) hc)).bind fun ks ks' hk => ?_
  have f1 : Fair fun t n => decide (n.isElement ∧ t ≠ .annotation ∧ t ≠ .attributeGroup) :=
    fair_of (f := fun t => decide (t ≠ .annotation ∧ t ≠ .attributeGroup)) (fun t n => by simp) (by decide)
  rw [mapM'_congr (hk.filter f1) (g := fun k => k.2.2) fun k k' hs => hs.2.2.1,
    mapM'_congr (hk.filter (fair_kind .attributeGroup (by decide))) (g := fun k => k.2.2) fun k k' hs => hs.2.2.1]

end Verif.Lemmas.Alike
