import Verif.Lemmas.Respell
import Verif.Lemmas.TotalExt

/-! # The prefix of XML Schema: the parser -/

namespace Verif.Lemmas.Respell

open Verif Verif.Model Verif.Spec Verif.RoXml Verif.Lemmas Verif.Lemmas.Parse Verif.Lemmas.Gen
open Verif.Lemmas.Alike (SameRes forall₂_join schema_typed annotation_panics)

variable {p p' : Option Str}

/-! ## Places -/

/-- What is needed of an element. -/
structure Fit (p p' : Option Str) (n : Node) : Prop where
  blank : ∀ q, p' = some q → ' ' ∉ q
  name : ∀ v, n.attr "name".toList = some v → Tame p p' v
  ref : ∀ v, n.attr "ref".toList = some v → Plain p p' v
  type : ∀ a ∈ ["type", "base", "itemType"], ∀ v, n.attr a.toList = some v → Spelled p p' v (respellName p p' v)
  members : ∀ v, n.attr "memberTypes".toList = some v → ∀ w ∈ (Str.splitOn ' ' v).filter (· ≠ []),
    Spelled p p' w (respellName p p' w)

def KidLike (p p' : Option Str) (k k' : Node × Res RsEntity) : Prop := k'.1 = respell p p' k.1 ∧ SameRes (Like p p') k.2 k'.2

/-- Names of what is around are not those of built-in types. -/
def Uncoloned (p p' : Option Str) (l : List Node) : Prop := ∀ a ∈ l, ∀ v, a.attr "name".toList = some v → Tame p p' v

structure Moved (p p' : Option Str) (c c' : Place) : Prop where
  node : c'.node = respell p p' c.node
  fit : Fit p p' c.node
  kids : List.Forall₂ (KidLike p p') c.kids c'.kids
  parent : c'.parent = respell p p' c.parent
  above : c'.above = c.above.map (respell p p')
  line : Uncoloned p p' (c.parent :: c.above)

theorem head_respell (l : List Node) : (l.map (respell p p')).head?.map Node.tag = l.head?.map Node.tag := by
  cases l with
  | nil => rfl
  | cons a l => simp

theorem parentName_respell : ∀ {l : List Node}, Uncoloned p p' l → getParentName (l.map (respell p p')) = getParentName l
  | [], _ => rfl
  | a :: l, h => by
    rw [List.map_cons, getParentName, getParentName, head_respell, xsdType_respell, name_respell,
      parentName_respell fun b hb => h b (by simp [hb])]

theorem tame_unsupported : Tame p p' "UnsupportedName".toList := ⟨by decide, fun _ => ⟨by decide +kernel, by decide +kernel⟩⟩

theorem parentName_tame : ∀ {l : List Node}, Uncoloned p p' l → ∀ s, getParentName l = .ok s → Tame p p' s
  | [], _, s, e => by
    rw [getParentName] at e; cases e; exact tame_unsupported
  | a :: l, h, s, e => by
    rw [getParentName] at e
    cases ht : xsdType (l.head?.map Node.tag) a with
    | ok t =>
      rw [ht, Res.ok_bind] at e
      split at e
      · cases e; exact ⟨by decide, fun _ => ⟨by decide +kernel, by decide +kernel⟩⟩
      · cases hn : attrName a with
        | some v => rw [hn] at e; exact h a (by simp) s (by cases e; exact hn)
        | none => rw [hn] at e; exact parentName_tame (fun b hb => h b (by simp [hb])) s e
    | err => rw [ht] at e; cases e
    | panic => rw [ht] at e; cases e

/-- A child with its kind. -/
abbrev Typed := ElementType × Node × Res RsEntity

def TypedLike (p p' : Option Str) (k k' : Typed) : Prop := k.1 = k'.1 ∧ KidLike p p' k.2 k'.2

theorem typed_rel {t : Option Str} {ks ks' : List (Node × Res RsEntity)} (h : List.Forall₂ (KidLike p p') ks ks') :
    SameRes (List.Forall₂ (TypedLike p p')) (Res.mapM' (fun k => (xsdType t k.1).bind fun t => .ok (t, k)) ks)
      (Res.mapM' (fun k => (xsdType t k.1).bind fun t => .ok (t, k)) ks') := by
  refine mapM'_rel h fun k k' hk => ?_
  rw [hk.1, xsdType_respell]
  cases xsdType t k.1 with
  | ok t => exact ⟨rfl, hk⟩
  | _ => trivial

variable {c c' : Place}

theorem Moved.typedKids (h : Moved p p' c c') : SameRes (List.Forall₂ (TypedLike p p')) c.typedKids c'.typedKids := by
  unfold Place.typedKids
  rw [h.node, tag_respell]
  exact typed_rel h.kids

theorem Moved.parentType (h : Moved p p' c c') : c'.parentType = c.parentType := by
  unfold Place.parentType
  rw [h.parent, h.above, head_respell, xsdType_respell]

theorem Moved.type (h : Moved p p' c c') : c'.type = c.type := by
  unfold Place.type
  rw [h.parent, h.node, tag_respell, xsdType_respell]

theorem Moved.parentName (h : Moved p p' c c') : c'.parentName = c.parentName := by
  unfold Place.parentName
  rw [h.parent, h.above, ← List.map_cons]
  exact parentName_respell h.line

theorem Moved.parentTame (h : Moved p p' c c') {s : Str} (e : c.parentName = .ok s) : Tame p p' s := parentName_tame h.line s e

/-- Filters which only look at the kind and at whether there is an element. -/
def Blind (q : ElementType → Node → Bool) : Prop := ∀ t n n', n.isElement = n'.isElement → q t n = q t n'

theorem kids_rel {γ δ : Type} {S : γ → δ → Prop} (h : Moved p p' c c') {q : ElementType → Node → Bool} (hq : Blind q)
    {f : RsEntity → Res γ} {g : RsEntity → Res δ} (hf : ∀ e e', Like p p' e e' → SameRes S (f e) (g e')) :
    SameRes (List.Forall₂ S)
      (c.typedKids.bind fun ks => Res.mapM' (fun k => k.2.2.bind f) (ks.filter fun k => q k.1 k.2.1))
      (c'.typedKids.bind fun ks => Res.mapM' (fun k => k.2.2.bind g) (ks.filter fun k => q k.1 k.2.1)) :=
  SameRes.then h.typedKids fun ks ks' hk =>
    mapM'_rel (forall₂_filter hk fun a b hab => by
        rw [hab.1]; exact hq _ _ _ (by rw [hab.2.1, isElement_respell]))
      fun a b hab => SameRes.then hab.2.2 hf

theorem lastKid_rel {γ δ : Type} {S : γ → δ → Prop} (h : Moved p p' c c') {q : ElementType → Node → Bool} (hq : Blind q)
    {f : Option (Node × Res RsEntity) → Res γ} {g : Option (Node × Res RsEntity) → Res δ} (h0 : SameRes S (f none) (g none))
    (h1 : ∀ n r r', SameRes (Like p p') r r' → SameRes S (f (some (n, r))) (g (some (respell p p' n, r')))) :
    SameRes S ((c.lastKid q).bind f) ((c'.lastKid q).bind g) := by
  unfold Place.lastKid
  rw [Verif.Lemmas.Alike.bind_assoc, Verif.Lemmas.Alike.bind_assoc]
  refine SameRes.then h.typedKids fun ks ks' hk => ?_
  rw [Res.ok_bind, Res.ok_bind]
  have hl := forall₂_filter (q := fun k : Typed => q k.1 k.2.1) (q' := fun k : Typed => q k.1 k.2.1) hk fun a b hab => by
    rw [hab.1]; exact hq _ _ _ (by rw [hab.2.1, isElement_respell])
  rcases Verif.Lemmas.Alike.getLast_congr hl with ⟨e1, e2⟩ | ⟨⟨t, n, r⟩, ⟨t', n', r'⟩, e1, e2, -, ha, hr⟩
  · rw [e1, e2]; exact h0
  · rw [e1, e2]
    obtain rfl : n' = respell p p' n := ha
    exact h1 n r r' hr

/-! ## Filters -/

theorem blind_type {f : ElementType → Bool} : Blind fun t _ => f t := fun _ _ _ _ => rfl
theorem blind_element {f : ElementType → Prop} [DecidablePred f] : Blind fun t n => decide (n.isElement ∧ f t) :=
  fun t n n' h => by simp [h]
theorem blind_member : Blind isMember := fun t n n' h => by unfold isMember; rw [h]
theorem blind_contentType : Blind isContentType := fun _ _ _ _ => rfl
theorem blind_complex : Blind isComplexContent := fun t n n' h => by unfold isComplexContent; rw [h]
theorem blind_extension : Blind isExtensionContent := fun t n n' h => by unfold isExtensionContent; rw [h]
theorem blind_restriction : Blind isRestrictionContent := fun t n n' h => by unfold isRestrictionContent; rw [h]

/-! ## The parsers of the single elements -/

theorem asField_rel {e e' : RsEntity} (h : Like p p' e e') : SameRes (FieldLike p p') (asField e) (asField e') := by
  cases h <;> first | assumption | trivial

theorem asAlias_rel {e e' : RsEntity} (h : Like p p' e e') : SameRes (AliasLike p p') (asAlias e) (asAlias e') := by
  cases h <;> first | assumption | trivial

theorem asCase_rel {e e' : RsEntity} (h : Like p p' e e') : SameRes (CaseLike p p') (asCase e) (asCase e') := by
  cases h <;> first | assumption | trivial

theorem Moved.fields (h : Moved p p' c c') :
    SameRes (List.Forall₂ (FieldLike p p')) (attributesToFields c) (attributesToFields c') :=
  kids_rel h (q := fun t _ => decide (t = .attribute ∨ t = .anyAttribute)) blind_type fun _ _ => asField_rel

theorem Moved.groups (h : Moved p p' c c') :
    SameRes (List.Forall₂ (AliasLike p p')) (attributeGroupsToAliases c) (attributeGroupsToAliases c') :=
  kids_rel h (q := fun t _ => decide (t = .attributeGroup)) blind_type fun _ _ => asAlias_rel

theorem suffix_spelled {s t t' : Str} (hs : ':' ∉ s) (h : Spelled p p' t t') : s.isSuffixOf t = s.isSuffixOf t' := by
  cases h with
  | same => rfl
  | @named n _ =>
    have key : ∀ q : Option Str, s <:+ spell q n ↔ s <:+ n := by
      intro q
      cases q with
      | none => exact Iff.rfl
      | some q =>
        constructor
        · intro h
          rcases List.suffix_or_suffix_of_suffix h (show ':' :: n <:+ q ++ ':' :: n from ⟨q, rfl⟩) with h | h
          · rcases List.suffix_cons_iff.1 h with h | h
            · exact absurd (by rw [h]; simp) hs
            · exact h
          · exact absurd (h.subset (by simp)) hs
        · intro h
          exact h.trans ⟨q ++ [':'], by simp [spell]⟩
    rw [Bool.eq_iff_iff, List.isSuffixOf_iff_suffix, List.isSuffixOf_iff_suffix, key, key]

theorem doc_eq (h : Moved p p' c c') : getDocumentation c'.node = getDocumentation c.node := by rw [h.node, doc_respell]

theorem enumField_rel {n : Str} {cs cs' : List EnumCase} {cm : Option Str} {t t' : Str} {sub sub' : List RsEntity} {src : EnumSource}
    (h : Like p p' (.enum (.mk n cs cm t sub src)) (.enum (.mk n cs' cm t' sub' src))) :
    FieldLike p p' (enumToField (.mk n cs cm t sub src)) (enumToField (.mk n cs' cm t' sub' src)) := by
  have h0 : Plain p p' n := by cases h with | enum h0 => exact h0
  exact .mk (.same h0) (fun _ => rfl) (.cons h .nil)

theorem memberField_rel {s : Str} (hs : ':' ∉ s) {e e' : RsEntity} (h : Like p p' e e') :
    SameRes (FieldLike p p') (memberField s e) (memberField s e') := by
  cases h with
  | field h1 =>
    cases h1 with
    | mk h1 h2 h3 =>
      unfold memberField
      dsimp only
      rw [← suffix_spelled hs h1]
      exact .mk h1 h2 h3
  | enum h0 h1 h2 h3 =>
    exact enumField_rel (.enum (plain_choice hs) h1 h2 h3)
  | _ => trivial

theorem Moved.elements (h : Moved p p' c c') {s : Str} (hs : ':' ∉ s) :
    SameRes (List.Forall₂ (FieldLike p p')) (elementsToFields c s) (elementsToFields c' s) :=
  kids_rel h (q := isMember) blind_member fun _ _ => memberField_rel hs

theorem string_spelled : Spelled p p' "String".toList "String".toList := Spelled.same (plain_lit (by decide +kernel))

theorem typeAttr_rel (h : Fit p p' c.node) {v : Str} (e : attrType c.node = some v) : Spelled p p' v (respellName p p' v) :=
  h.type "type" (by decide) v e

theorem baseAttr_rel (h : Fit p p' c.node) {v : Str} (e : attrBase c.node = some v) : Spelled p p' v (respellName p p' v) :=
  h.type "base" (by decide) v e

theorem elementDefault_rel {n : Node} (h : Fit p p' n) : Like p p' (elementDefault n) (elementDefault (respell p p' n)) := by
  unfold elementDefault
  rw [type_respell, doc_respell]
  refine .alias (.mk (plain_lit (by decide +kernel)) ?_)
  cases e : attrType n with
  | none => exact .same (plain_lit (by decide +kernel))
  | some v => exact h.type "type" (by decide) v e

theorem caseOfChoice_rel {n : Node} (h : Fit p p' n) : Like p p' (parseCaseOfChoice n) (parseCaseOfChoice (respell p p' n)) := by
  unfold parseCaseOfChoice
  rw [ref_respell, type_respell, doc_respell, name_respell, modifier_respell]
  cases e : attrRef n with
  | some r => exact .case ⟨.inl rfl, rfl, rfl, .some (.same (h.ref r e)), rfl, rfl⟩
  | none =>
    refine .case ⟨.inl rfl, rfl, rfl, ?_, rfl, rfl⟩
    cases e : attrType n with
    | none => exact .none
    | some v => exact .some (h.type "type" (by decide) v e)

theorem hasAttribute_type (n : Node) : (respell p p' n).hasAttribute "type".toList = n.hasAttribute "type".toList := by
  unfold Node.hasAttribute
  rw [show (respell p p' n).attr "type".toList = (n.attr "type".toList).map (respellName p p') from type_respell n]
  cases n.attr "type".toList <;> rfl

theorem hasAttribute_ref (n : Node) : (respell p p' n).hasAttribute "ref".toList = n.hasAttribute "ref".toList := by
  unfold Node.hasAttribute
  rw [show (respell p p' n).attr "ref".toList = n.attr "ref".toList from ref_respell n]

theorem fieldOfSequence_rel (h : Moved p p' c c') : SameRes (Like p p') (parseFieldOfSequence c) (parseFieldOfSequence c') := by
  unfold parseFieldOfSequence
  dsimp only
  rw [h.node, ref_respell, type_respell, doc_respell, name_respell, modifier_respell, hasAttribute_type, hasAttribute_ref]
  split
  · refine .field (fieldLike_simple ?_)
    cases e : attrType c.node with
    | some v => exact h.fit.type "type" (by decide) v e
    | none =>
      cases e : attrRef c.node with
      | some r => exact .same (h.fit.ref r e)
      | none => exact string_spelled
  · rename_i hno
    have hr : attrRef c.node = none := by
      cases e : attrRef c.node with
      | none => rfl
      | some r =>
        refine absurd ?_ hno
        have : c.node.hasAttribute "ref".toList = true := by
          unfold Node.hasAttribute
          rw [show c.node.attr "ref".toList = some r from e]; rfl
        rw [this, Bool.or_true]
    have hn : Tame p p' ((attrName c.node).getD ((attrRef c.node).getD "UNSUPPORTED_ELEMENT_NAME".toList)) := by
      rw [hr]
      cases e : attrName c.node with
      | none => exact ⟨by decide, fun _ => ⟨by decide +kernel, by decide +kernel⟩⟩
      | some v => exact h.fit.name v e
    generalize (attrName c.node).getD ((attrRef c.node).getD "UNSUPPORTED_ELEMENT_NAME".toList) = name at hn
    refine lastKid_rel h blind_contentType trivial fun n r r' hr => ?_
    show SameRes _ (Res.bind (.ok (n, r)) _) (Res.bind (.ok (respell p p' n, r')) _)
    rw [Res.ok_bind, Res.ok_bind]
    refine SameRes.then hr fun e e' he => ?_
    have hp : Plain p p' (name ++ "Type".toList) := hn.type
    simp only [setName_name]
    exact .field (.mk (.same hp) (fun _ => rfl) (.cons (he.setName hp) .nil))

theorem globalElement_rel (h : Moved p p' c c') : SameRes (Like p p') (parseGlobalElement c) (parseGlobalElement c') := by
  unfold parseGlobalElement
  rw [h.node, type_respell, doc_respell, name_respell]
  cases hn : attrName c.node with
  | none => trivial
  | some name =>
    have hp : Plain p p' name := (h.fit.name name hn).plain
    show SameRes _ (Res.bind (.ok name) _) (Res.bind (.ok name) _)
    rw [Res.ok_bind, Res.ok_bind]
    cases e : attrType c.node with
    | some t => exact .alias (.mk hp (typeAttr_rel h.fit e))
    | none =>
      exact lastKid_rel h blind_contentType (.struct hp .nil .nil .nil) fun n r r' hr =>
        SameRes.then hr fun e e' he => he.setName hp

theorem element_rel (h : Moved p p' c c') : SameRes (Like p p') (parseElement c) (parseElement c') := by
  unfold parseElement
  rw [h.parentType]
  cases c.parentType with
  | ok t =>
    rw [Res.ok_bind, Res.ok_bind]
    cases t with
    | schema => exact globalElement_rel h
    | all => exact fieldOfSequence_rel h
    | sequence => exact fieldOfSequence_rel h
    | choice => rw [h.node]; exact caseOfChoice_rel h.fit
    | _ => rw [h.node]; exact elementDefault_rel h.fit
  | _ => trivial

theorem globalAttribute_rel (h : Moved p p' c c') : SameRes (Like p p') (parseGlobalAttribute c) (parseGlobalAttribute c') := by
  unfold parseGlobalAttribute
  rw [h.node, ref_respell, type_respell, doc_respell, name_respell]
  cases e : attrRef c.node with
  | some r => exact .alias (.mk (h.fit.ref r e) (.same (h.fit.ref r e)))
  | none =>
    cases hn : attrName c.node with
    | none => trivial
    | some name =>
      have hp : Plain p p' name := (h.fit.name name hn).plain
      show SameRes _ (Res.bind (.ok name) _) (Res.bind (.ok name) _)
      rw [Res.ok_bind, Res.ok_bind]
      cases e : attrType c.node with
      | some t => exact .alias (.mk hp (typeAttr_rel h.fit e))
      | none =>
        exact lastKid_rel h (blind_element (f := fun t => t = .simpleType)) (.struct hp .nil .nil .nil) fun n r r' hr =>
          SameRes.then hr fun e e' he => he.setName hp

theorem attribute_rel (h : Moved p p' c c') : SameRes (Like p p') (parseAttribute c) (parseAttribute c') := by
  unfold parseAttribute
  rw [h.parentType]
  refine SameRes.then (R := Eq) (SameRes.same fun _ _ => rfl) ?_
  rintro pt _ rfl
  split
  · exact globalAttribute_rel h
  · rw [h.node, ref_respell, type_respell, doc_respell, name_respell, use_respell]
    refine SameRes.then (R := Eq) (SameRes.same fun _ _ => rfl) ?_
    rintro name _ rfl
    refine SameRes.then (R := Eq) (SameRes.same fun _ _ => rfl) ?_
    rintro u _ rfl
    refine .field (fieldLike_simple ?_)
    cases e : attrType c.node with
    | some v => exact typeAttr_rel h.fit e
    | none =>
      cases e : attrRef c.node with
      | some r => exact .same (h.fit.ref r e)
      | none => exact string_spelled

theorem attributeGroup_rel (h : Moved p p' c c') : SameRes (Like p p') (parseAttributeGroup c) (parseAttributeGroup c') := by
  unfold parseAttributeGroup
  rw [h.parentType]
  refine SameRes.then (R := Eq) (SameRes.same fun _ _ => rfl) ?_
  rintro pt _ rfl
  split
  · rw [h.node, name_respell]
    cases hn : attrName c.node with
    | none => trivial
    | some name =>
      show SameRes _ (Res.bind (.ok name) _) (Res.bind (.ok name) _)
      rw [Res.ok_bind, Res.ok_bind]
      exact SameRes.then h.fields fun fs fs' hf =>
        .struct ((h.fit.name name hn).plain) (fieldsLike_iff.2 hf) .nil .nil
  · rw [h.node, ref_respell, doc_respell]
    cases hn : attrRef c.node with
    | none => trivial
    | some r => exact .alias (.mk (h.fit.ref r hn) (.same (h.fit.ref r hn)))

theorem sequence_rel (h : Moved p p' c c') : SameRes (Like p p') (parseSequence c) (parseSequence c') := by
  unfold parseSequence
  rw [h.parentName, h.parent, doc_respell]
  refine SameRes.then (R := fun a b => a = b ∧ Tame p p' a) (SameRes.same fun a e => ⟨rfl, h.parentTame e⟩) ?_
  rintro name _ ⟨rfl, hc⟩
  exact SameRes.then (h.elements hc.1) fun fs fs' hf => .struct hc.plain (fieldsLike_iff.2 hf) .nil .nil

theorem choice_rel (h : Moved p p' c c') : SameRes (Like p p') (parseChoice c) (parseChoice c') := by
  unfold parseChoice
  rw [← Verif.Lemmas.Alike.bind_assoc, ← Verif.Lemmas.Alike.bind_assoc]
  exact SameRes.then (kids_rel h (blind_element (f := fun t => t = .element)) fun _ _ => asCase_rel) fun cs cs' hc =>
    .enum (plain_nil) hc string_spelled .nil

theorem complexTypeName_rel (h : Moved p p' c c') : SameRes (fun a b => a = b ∧ Tame p p' a) (complexTypeName c) (complexTypeName c') := by
  unfold complexTypeName
  rw [h.parentType, h.parentName, h.node, name_respell]
  refine SameRes.then (R := Eq) (SameRes.same fun _ _ => rfl) ?_
  rintro pt _ rfl
  split
  · refine SameRes.same fun a e => ⟨rfl, ?_⟩
    cases hn : attrName c.node with
    | none => rw [hn] at e; cases e
    | some v => rw [hn] at e; cases e; exact h.fit.name _ hn
  · exact SameRes.same fun a e => ⟨rfl, h.parentTame e⟩

theorem finish_rel (h : Moved p p' c c') {name : Str} (hn : Tame p p' name) {fs fs' : List StructField}
    (hf : List.Forall₂ (FieldLike p p') fs fs') {e e' : RsEntity} (he : Like p p' e e') :
    SameRes (Like p p') (finishComplexType c name fs e) (finishComplexType c' name fs' e') := by
  cases he with
  | struct _ h1 h2 h3 =>
    exact .struct (hn.plain) (fieldsLike_iff.2 (forall₂_join (fieldsLike_iff.1 h1) hf)) h2 h3
  | enum _ h1 h2 _ =>
    unfold finishComplexType
    dsimp only
    rw [doc_eq h]
    have hc : Plain p p' (name ++ "Choice".toList) := plain_choice hn.1
    exact SameRes.then h.groups fun ag ag' ha => .enum hc h1 h2
      (.cons (.struct (hn.plain)
        (fieldsLike_iff.2 (forall₂_join hf (.cons (fieldLike_simple (.same hc)) .nil))) ha .nil) .nil)
  | field h1 => exact .field h1
  | tuple h0 h1 h2 => exact .tuple h0 h1 h2
  | case h1 => exact .case h1
  | «alias» h1 => exact .alias h1
  | «import» => exact .import

theorem complexType_rel (h : Moved p p' c c') : SameRes (Like p p') (parseComplexType c) (parseComplexType c') := by
  unfold parseComplexType
  refine SameRes.then (complexTypeName_rel h) ?_
  rintro name _ ⟨rfl, hn⟩
  refine SameRes.then h.fields fun fs fs' hf => ?_
  have h0 : SameRes (Like p p')
      ((attributeGroupsToAliases c).bind fun ag => .ok (.struct (.mk name (getDocumentation c.node) fs ag [])))
      ((attributeGroupsToAliases c').bind fun ag => .ok (.struct (.mk name (getDocumentation c'.node) fs' ag []))) := by
    rw [doc_eq h]
    exact SameRes.then h.groups fun ag ag' ha => .struct (hn.plain) (fieldsLike_iff.2 hf) ha .nil
  refine lastKid_rel h blind_complex h0 fun n r r' hr => ?_
  dsimp only
  rw [elements_respell]
  split
  · exact h0
  · exact SameRes.then hr fun e e' he => finish_rel h hn hf he

theorem content_rel (h : Moved p p' c c') : SameRes (Like p p') (parseContent c) (parseContent c') :=
  lastKid_rel h blind_member trivial fun _ _ _ hr => hr

theorem base_rel {n : Node} {b b' : Str} (hb : Spelled p p' b b') :
    FieldLike p p' (baseField n b) (baseField (respell p p' n) b') := by
  unfold baseField
  rw [doc_respell]
  exact fieldLike_simple hb

theorem simpleExtension_rel (h : Moved p p' c c') : SameRes (Like p p') (simpleContentExtension c) (simpleContentExtension c') := by
  unfold simpleContentExtension
  rw [h.node, base_respell, doc_respell]
  cases e : attrBase c.node with
  | none => trivial
  | some b =>
    show SameRes _ (Res.bind (.ok b) _) (Res.bind (.ok (respellName p p' b)) _)
    rw [Res.ok_bind, Res.ok_bind]
    exact SameRes.then h.fields fun fs fs' hf => SameRes.then h.groups fun ag ag' ha =>
      .struct (plain_nil)
        (fieldsLike_iff.2 (forall₂_join hf (.cons (base_rel (baseAttr_rel h.fit e)) .nil))) ha .nil

theorem withoutContent_rel (h : Moved p p' c c') {fs fs' : List StructField} (hf : List.Forall₂ (FieldLike p p') fs fs') :
    SameRes (Like p p') (derivedWithoutContent c fs) (derivedWithoutContent c' fs') := by
  unfold derivedWithoutContent
  rw [doc_eq h]
  exact SameRes.then h.groups fun ag ag' ha => .struct (plain_nil) (fieldsLike_iff.2 hf) ha .nil

theorem withContent_rel (h : Moved p p' c c') {fs fs' : List StructField} (hf : List.Forall₂ (FieldLike p p') fs fs')
    {e e' : RsEntity} (he : Like p p' e e') :
    SameRes (Like p p') (derivedWithContent c fs e) (derivedWithContent c' fs' e') := by
  cases he with
  | struct h0 h1 h2 h3 =>
    unfold derivedWithContent
    rw [doc_eq h]
    exact .struct h0 (fieldsLike_iff.2 (forall₂_join (fieldsLike_iff.1 h1) hf)) h2 h3
  | _ => exact withoutContent_rel h hf

theorem complexExtension_rel (h : Moved p p' c c') : SameRes (Like p p') (complexContentExtension c) (complexContentExtension c') := by
  unfold complexContentExtension
  rw [h.node, base_respell]
  cases e : attrBase c.node with
  | none => trivial
  | some b =>
    show SameRes _ (Res.bind (.ok b) _) (Res.bind (.ok (respellName p p' b)) _)
    rw [Res.ok_bind, Res.ok_bind]
    refine SameRes.then h.fields fun fs fs' hf => ?_
    have hf' := forall₂_join hf (.cons (base_rel (n := c.node) (baseAttr_rel h.fit e)) .nil)
    exact lastKid_rel h blind_extension (withoutContent_rel h hf') fun n r r' hr =>
      SameRes.then hr fun e e' he => withContent_rel h hf' he

theorem complexRestriction_rel (h : Moved p p' c c') :
    SameRes (Like p p') (complexContentRestriction c) (complexContentRestriction c') := by
  unfold complexContentRestriction
  rw [h.node, base_respell]
  cases e : attrBase c.node with
  | none => trivial
  | some b =>
    show SameRes _ (Res.bind (.ok b) _) (Res.bind (.ok (respellName p p' b)) _)
    rw [Res.ok_bind, Res.ok_bind]
    refine SameRes.then h.fields fun fs fs' hf => ?_
    have hf' := forall₂_join hf (.cons (base_rel (n := c.node) (baseAttr_rel h.fit e)) .nil)
    exact lastKid_rel h blind_restriction (withoutContent_rel h hf') fun n r r' hr =>
      SameRes.then hr fun e e' he => withContent_rel h hf' he

theorem extension_rel (h : Moved p p' c c') : SameRes (Like p p') (parseExtension c) (parseExtension c') := by
  unfold parseExtension
  rw [h.type]
  refine SameRes.then (R := Eq) (SameRes.same fun _ _ => rfl) ?_
  rintro t _ rfl
  cases t with
  | extension x => cases x with
    | simpleContent => exact simpleExtension_rel h
    | complexContent => exact complexExtension_rel h
  | _ => trivial

theorem filterMap_rel {ks ks' : List Typed} (h : List.Forall₂ (TypedLike p p') ks ks') :
    (ks.filterMap fun k => match k.1 with | .facet f => some (Facet.mk f (getDocumentation k.2.1)) | _ => none) =
      ks'.filterMap fun k => match k.1 with | .facet f => some (Facet.mk f (getDocumentation k.2.1)) | _ => none := by
  induction h with
  | nil => rfl
  | @cons a b l l' h1 _ ih =>
    rw [List.filterMap_cons, List.filterMap_cons, ih, ← h1.1, h1.2.1, doc_respell]

theorem facets_rel (h : Moved p p' c c') : facets c = facets c' := by
  unfold facets
  exact SameRes.bind h.typedKids fun ks ks' hk => congrArg _ (filterMap_rel hk)

theorem all_rel {f : ElementType → Bool} {ks ks' : List Typed} (h : List.Forall₂ (TypedLike p p') ks ks') :
    (ks.all fun k => f k.1) = ks'.all fun k => f k.1 := by
  induction h with
  | nil => rfl
  | cons h1 _ ih => rw [List.all_cons, List.all_cons, ih, h1.1]

theorem simpleEnumerations_rel (U : UnicodeTable) (h : Moved p p' c c') : isSimpleEnumerations U c = isSimpleEnumerations U c' := by
  unfold isSimpleEnumerations
  exact SameRes.bind h.typedKids fun ks ks' hk => congrArg _ (all_rel (f := fun t => match t with
    | .facet (.enumeration v) => isSimpleEnumeration U v
    | _ => true) hk)

theorem caseLike_refl {cs : List EnumCase} (h : ∀ c ∈ cs, c.typeName = none) : List.Forall₂ (CaseLike p p') cs cs := by
  induction cs with
  | nil => exact .nil
  | cons c cs ih =>
    exact .cons ⟨.inl rfl, rfl, rfl, by rw [h c (by simp)]; exact .none, rfl, rfl⟩ (ih fun d hd => h d (by simp [hd]))

theorem facetCases_none {fs : List Facet} : ∀ c ∈ facetCases fs, c.typeName = none := by
  intro c hc
  unfold facetCases at hc
  obtain ⟨f, -, hf⟩ := List.mem_filterMap.1 hc
  split at hf
  · cases hf; rfl
  · cases hf

theorem simpleRestriction_rel (U : UnicodeTable) (h : Moved p p' c c') :
    SameRes (Like p p') (simpleTypeRestriction U c) (simpleTypeRestriction U c') := by
  unfold simpleTypeRestriction
  rw [← facets_rel h, ← simpleEnumerations_rel U h, h.parentName, h.node, base_respell]
  cases e : attrBase c.node with
  | none => trivial
  | some b =>
    have hb := baseAttr_rel h.fit e
    show SameRes _ (Res.bind (.ok b) _) (Res.bind (.ok (respellName p p' b)) _)
    rw [Res.ok_bind, Res.ok_bind]
    refine SameRes.then (R := Eq) (SameRes.same fun _ _ => rfl) ?_
    rintro fs _ rfl
    refine SameRes.then (R := Eq) (SameRes.same fun _ _ => rfl) ?_
    rintro simple _ rfl
    split
    · refine SameRes.then (R := fun a b => a = b ∧ Tame p p' a) (SameRes.same fun a e => ⟨rfl, h.parentTame e⟩) ?_
      rintro name _ ⟨rfl, hc⟩
      exact .enum (plain_enum hc.1) (caseLike_refl facetCases_none) hb .nil
    · exact .tuple (plain_nil) hb .nil

theorem restriction_rel (U : UnicodeTable) (h : Moved p p' c c') : SameRes (Like p p') (parseRestriction U c) (parseRestriction U c') := by
  unfold parseRestriction
  rw [h.type]
  refine SameRes.then (R := Eq) (SameRes.same fun _ _ => rfl) ?_
  rintro t _ rfl
  cases t with
  | restriction x => cases x with
    | simpleType => exact simpleRestriction_rel U h
    | simpleContent => trivial
    | complexContent => exact complexRestriction_rel h
  | _ => trivial

def TupleLike (p p' : Option Str) (t t' : TupleStruct) : Prop := Like p p' (.tupleStruct t) (.tupleStruct t')

theorem listItem_rel {e e' : RsEntity} (h : Like p p' e e') : SameRes (TupleLike p p') (listItem e) (listItem e') := by
  cases h with
  | tuple h0 h1 h2 => exact .tuple h0 h1 h2
  | enum h0 h1 h2 h3 => exact .tuple (plain_nil) (.same h0) (.cons (.enum h0 h1 h2 h3) .nil)
  | _ => trivial

theorem pushArray_rel {t t' : TupleStruct} (h : TupleLike p p' t t') : Like p p' (pushArray t) (pushArray t') := by
  cases h with
  | tuple h0 h1 h2 => exact .tuple h0 h1 h2

theorem find_rel {ks ks' : List (Node × Res RsEntity)} (h : List.Forall₂ (KidLike p p') ks ks') (q : Node → Bool)
    (hq : ∀ n, q (respell p p' n) = q n) :
    Option.Rel (KidLike p p') (ks.find? fun k => q k.1) (ks'.find? fun k => q k.1) := by
  induction h with
  | nil => exact .none
  | @cons a b l l' h1 _ ih =>
    rw [List.find?_cons, List.find?_cons, h1.1, hq]
    cases q a.1 with
    | true => exact .some h1
    | false => exact ih

theorem list_rel (h : Moved p p' c c') : SameRes (Like p p') (parseList c) (parseList c') := by
  unfold parseList
  rw [h.node, show (respell p p' c.node).attr "itemType".toList = (c.node.attr "itemType".toList).map (respellName p p') from
    attr_type c.node (by decide)]
  cases e : c.node.attr "itemType".toList with
  | some t => exact pushArray_rel (.tuple (plain_nil) (h.fit.type "itemType" (by decide) t e) .nil)
  | none =>
    have hk := find_rel h.kids (fun n => n.isElement && decide (n.tag = "simpleType".toList)) fun n => by
      rw [isElement_respell, tag_respell]
    dsimp only [Option.map_none]
    generalize c.kids.find? _ = x at hk ⊢
    generalize c'.kids.find? _ = y at hk ⊢
    cases hk with
    | none => trivial
    | @some k k' hk =>
      show SameRes _ (Res.bind (.ok k) _) (Res.bind (.ok k') _)
      rw [Res.ok_bind, Res.ok_bind]
      exact SameRes.then hk.2 fun e e' he => SameRes.then (listItem_rel he) fun t t' ht => pushArray_rel ht

theorem natStr_colon (i : Nat) : ':' ∉ Str.natStr i := (quoteSafe_natStr i).2

theorem unionSubtypes_rel : ∀ {rs rs' : List (Res RsEntity)} (i : Nat), List.Forall₂ (SameRes (Like p p')) rs rs' →
    SameRes (fun es es' => List.Forall₂ (Like p p') es es' ∧ unionCases i es = unionCases i es' ∧
      ∀ c ∈ unionCases i es, ∃ s, c.typeName = some s ∧ Plain p p' s) (unionSubtypes i rs) (unionSubtypes i rs')
  | [], _, i, h => by cases h; exact ⟨.nil, rfl, fun _ h => absurd h List.not_mem_nil⟩
  | r :: rs, _, i, h => by
    cases h with
    | cons h1 h2 =>
      unfold unionSubtypes
      refine SameRes.then h1 fun e e' he => SameRes.then (unionSubtypes_rel (i + 1) h2) ?_
      rintro es es' ⟨ha, hb, hc⟩
      have hp : Plain p p' ("EnumCaseType_".toList ++ Str.natStr i) := plain_case (natStr_colon i)
      refine ⟨.cons (he.setName hp) ha, ?_, ?_⟩
      · unfold unionCases
        rw [setName_name, setName_name, hb]
      · intro c hm
        unfold unionCases at hm
        rw [setName_name] at hm
        rcases List.mem_cons.1 hm with rfl | hm
        · exact ⟨_, rfl, hp⟩
        · exact hc c hm

theorem caseLike_named {cs : List EnumCase} (h : ∀ c ∈ cs, ∃ s, c.typeName = some s ∧ Plain p p' s) :
    List.Forall₂ (CaseLike p p') cs cs := by
  induction cs with
  | nil => exact .nil
  | cons c cs ih =>
    obtain ⟨s, hs, hc⟩ := h c (by simp)
    exact .cons ⟨.inl rfl, rfl, rfl, by rw [hs]; exact .some (.same hc), rfl, rfl⟩ (ih fun d hd => h d (by simp [hd]))

theorem createCases_rel (h : Fit p p' c.node) {v : Str} (hv : c.node.attr "memberTypes".toList = some v) :
    List.Forall₂ (CaseLike p p') (createEnumCases v) (createEnumCases (respellNames p p' v)) := by
  unfold createEnumCases
  have := h.members v hv
  rw [words_eq h.blank this, List.map_map]
  generalize (Str.splitOn ' ' v).filter (· ≠ []) = ws at this
  induction ws with
  | nil => exact .nil
  | cons w ws ih =>
    have hw := this w (by simp)
    exact .cons ⟨.inr ⟨rfl, hw⟩, rfl, rfl, .some hw, rfl, rfl⟩ (ih fun d hd => this d (by simp [hd]))

theorem union_rel (h : Moved p p' c c') : SameRes (Like p p') (parseUnion c) (parseUnion c') := by
  unfold parseUnion
  rw [h.parentName, h.node, doc_respell, attr_members]
  refine SameRes.then h.typedKids fun ks ks' hk => ?_
  have hr : List.Forall₂ (SameRes (Like p p'))
      ((ks.filter fun k => decide (k.2.1.isElement = true ∧ k.1 = .simpleType)).map (·.2.2))
      ((ks'.filter fun k => decide (k.2.1.isElement = true ∧ k.1 = .simpleType)).map (·.2.2)) := by
    rw [List.forall₂_map_left_iff, List.forall₂_map_right_iff]
    exact (forall₂_filter hk fun a b hab => by rw [hab.1, hab.2.1, isElement_respell]).imp fun a b hab => hab.2.2
  refine SameRes.then (unionSubtypes_rel 0 hr) ?_
  rintro es es' ⟨h1, h2, h3⟩
  refine SameRes.then h.fields fun fs fs' hf => ?_
  have hc : List.Forall₂ (CaseLike p p')
      (((c.node.attr "memberTypes".toList).map createEnumCases).getD [] ++ unionCases 0 es)
      ((((c.node.attr "memberTypes".toList).map (respellNames p p')).map createEnumCases).getD [] ++ unionCases 0 es') := by
    rw [← h2]
    refine forall₂_join ?_ (caseLike_named h3)
    cases e : c.node.attr "memberTypes".toList with
    | none => exact .nil
    | some v => exact createCases_rel h.fit e
  have he : fs.isEmpty = fs'.isEmpty := by cases hf <;> rfl
  dsimp only
  rw [← he]
  split
  · exact .enum (plain_nil) hc string_spelled (allLike_iff.2 h1)
  · refine SameRes.then (R := fun a b => a = b ∧ Tame p p' a) (SameRes.same fun a e => ⟨rfl, h.parentTame e⟩) ?_
    rintro name _ ⟨rfl, hn⟩
    refine .struct (plain_nil) (fieldsLike_iff.2 (forall₂_join hf (.cons ?_ .nil))) .nil .nil
    exact enumField_rel (.enum (plain_choice hn.1) hc string_spelled (allLike_iff.2 h1))

theorem simpleType_rel (h : Moved p p' c c') : SameRes (Like p p') (parseSimpleType c) (parseSimpleType c') := by
  unfold parseSimpleType
  rw [h.parentType, h.node, name_respell, doc_respell]
  refine SameRes.then (R := Eq) (SameRes.same fun _ _ => rfl) ?_
  rintro pt _ rfl
  split
  · trivial
  · refine lastKid_rel h blind_member trivial fun n r r' hr => ?_
    show SameRes _ (Res.bind (.ok (n, r)) _) (Res.bind (.ok (respell p p' n, r')) _)
    rw [Res.ok_bind, Res.ok_bind]
    refine SameRes.then hr fun e e' he => ?_
    refine Like.setComment ?_ _
    cases hn : attrName c.node with
    | none => exact he
    | some v => exact he.setName ((h.fit.name v hn).plain)

theorem place_rel (U : UnicodeTable) (h : Moved p p' c c') : SameRes (Like p p') (parsePlace U c) (parsePlace U c') := by
  unfold parsePlace
  rw [h.type]
  refine SameRes.then (R := Eq) (SameRes.same fun _ _ => rfl) ?_
  rintro t _ rfl
  cases t with
  | all => exact sequence_rel h
  | any =>
    rw [h.node]; unfold parseAny; rw [doc_respell]
    exact .field (fieldLike_simple string_spelled)
  | anyAttribute =>
    rw [h.node]; unfold parseAnyAttribute; rw [doc_respell]
    exact .field (fieldLike_simple string_spelled)
  | «attribute» => exact attribute_rel h
  | attributeGroup => exact attributeGroup_rel h
  | choice => exact choice_rel h
  | complexContent => exact content_rel h
  | complexType => exact complexType_rel h
  | element => exact element_rel h
  | «extension» => exact extension_rel h
  | «import» =>
    rw [h.node]; unfold parseImport
    rw [attr_same _ (by decide) (by decide), attr_same _ (by decide) (by decide)]
    exact .import
  | «include» =>
    rw [h.node]; unfold parseImport
    rw [attr_same _ (by decide) (by decide), attr_same _ (by decide) (by decide)]
    exact .import
  | list => exact list_rel h
  | restriction => exact restriction_rel U h
  | sequence => exact sequence_rel h
  | simpleContent => exact content_rel h
  | simpleType => exact simpleType_rel h
  | union => exact union_rel h
  | _ => trivial

/-! ## All elements -/

theorem fit_other (hb : ∀ q, p' = some q → ' ' ∉ q) {n : Node} (h : n.attrs = []) : Fit p p' n := by
  have e : ∀ a : Str, n.attr a = none := fun a => by unfold Node.attr; rw [h]; rfl
  have e' : ∀ (a v : Str), n.attr a ≠ some v := fun a v h => by rw [e] at h; cases h
  exact ⟨hb, fun v h => absurd h (e' _ v), fun v h => absurd h (e' _ v), fun a _ v h => absurd h (e' _ v),
    fun v h => absurd h (e' _ v)⟩

theorem panics_rel (U : UnicodeTable) {n : Node} (h : n.tag = "annotation".toList) (parent : Node) (above : List Node) :
    SameRes (Like p p') (parseNode U n parent above)
      (parseNode U (respell p p' n) (respell p p' parent) (above.map (respell p p'))) := by
  rw [annotation_panics h, annotation_panics (by rw [tag_respell]; exact h)]
  trivial

mutual
theorem node_rel (U : UnicodeTable) (hb : ∀ q, p' = some q → ' ' ∉ q) : ∀ (n parent : Node) (above : List Node), (∀ m, PartOf n m → Fit p p' m) →
    Uncoloned p p' (parent :: above) →
    SameRes (Like p p') (parseNode U n parent above)
      (parseNode U (respell p p' n) (respell p p' parent) (above.map (respell p p')))
  | .element u t as ns cs, parent, above, hf, hl => by
    have hn : Fit p p' (.element u t as ns cs) := hf _ .root
    show SameRes _ (parsePlace U _) (parsePlace U _)
    refine place_rel U ⟨rfl, hn, ?_, rfl, rfl, hl⟩
    refine kids_all U hb cs _ _ (fun k hk m hm => hf m (Verif.Lemmas.Parse.PartOf.trans (.child .root hk) hm)) fun a ha v hv => ?_
    rcases List.mem_cons.1 ha with rfl | ha
    · exact hn.name v hv
    · exact hl a ha v hv
  | .text s, parent, above, _, hl => place_rel U ⟨rfl, fit_other hb rfl, .nil, rfl, rfl, hl⟩
  | .other, parent, above, _, hl => place_rel U ⟨rfl, fit_other hb rfl, .nil, rfl, rfl, hl⟩
theorem kids_all (U : UnicodeTable) (hb : ∀ q, p' = some q → ' ' ∉ q) : ∀ (cs : List Node) (parent : Node) (above : List Node),
    (∀ k ∈ cs.filter fun c => c.isElement && decide (c.tag ≠ "annotation".toList), ∀ m, PartOf k m → Fit p p' m) →
    Uncoloned p p' (parent :: above) →
    List.Forall₂ (KidLike p p') (parseKids U cs parent above)
      (parseKids U (respellAll p p' cs) (respell p p' parent) (above.map (respell p p')))
  | [], _, _, _, _ => .nil
  | k :: ks, parent, above, hf, hl => by
    refine .cons ⟨rfl, ?_⟩ (kids_all U hb ks parent above (fun x hx => hf x (by
      rw [List.filter_cons]; split
      · exact List.mem_cons_of_mem _ hx
      · exact hx)) hl)
    by_cases ht : k.tag = "annotation".toList
    · exact panics_rel U ht parent above
    · by_cases he : k.isElement = true
      · exact node_rel U hb k parent above (hf k (List.mem_filter.2 ⟨by simp, by rw [he, decide_eq_true ht]; rfl⟩)) hl
      · cases k with
        | element => exact absurd rfl he
        | text s =>
          exact place_rel U (c := ⟨.text s, [], parent, above⟩) (c' := ⟨.text s, [], respell p p' parent, above.map (respell p p')⟩)
            ⟨rfl, fit_other hb rfl, .nil, rfl, rfl, hl⟩
        | other =>
          exact place_rel U (c := ⟨.other, [], parent, above⟩) (c' := ⟨.other, [], respell p p' parent, above.map (respell p p')⟩)
            ⟨rfl, fit_other hb rfl, .nil, rfl, rfl, hl⟩
end

/-! ## The schema -/

structure FileLike (p p' : Option Str) (f f' : RsFile) : Prop where
  types : List.Forall₂ (Like p p') f.types f'.types
  groups : List.Forall₂ (Like p p') f.attributeGroups f'.attributeGroups
  target : f'.targetNs = f.targetNs
  xsd : nsPrefix f.xsdNs = p
  xsd' : nsPrefix f'.xsdNs = p'

theorem clear_of {root : Node} (h : Respellable root p p') : Clear p ∧ Clear p' :=
  ⟨fun q e => (h.prefixes q (.inl e)).1, fun q e => (h.prefixes q (.inr e)).1⟩

theorem blank_of {root : Node} (h : Respellable root p p') : ∀ q, p' = some q → ' ' ∉ q := fun q e => (h.prefixes q (.inr e)).2

theorem tame_of {root : Node} (h : Respellable root p p') {m : Node} (hm : PartOf root m) {v : Str}
    (e : m.attr "name".toList = some v) : Tame p p' v :=
  ⟨h.names m v hm e, fun hn => by rw [row_iff, row_iff]; exact h.taken m v hm e hn⟩

theorem fit_of {root : Node} (h : Respellable root p p') {m : Node} (hm : PartOf root m) : Fit p p' m where
  blank := blank_of h
  name _ e := tame_of h hm e
  ref v e n hn := ⟨fun ev => (h.refs m v hm e n).1 (ev ▸ ref_spell (clear_of h).1 (row_colon hn)),
    fun ev => (h.refs m v hm e n).2 (ev ▸ ref_spell (clear_of h).2 (row_colon hn))⟩
  type a ha v e := spelled_ref (clear_of h).1 (clear_of h).2 (h.types m a v hm ha e)
  members v e w hw := spelled_ref (clear_of h).1 (clear_of h).2 (h.memberTypes m v _ w hm e (spaceSeparated_iff.2 rfl) hw)

theorem respellNs_uri (a : Namespace) : (respellNs p p' a).uri = a.uri := by
  unfold respellNs; split <;> rfl

theorem target_respell {root : Node} (h : Respellable root p p') : targetNamespace (respell p p' root) = targetNamespace root := by
  unfold targetNamespace
  rw [attr_same root (by decide) (by decide), namespaces_respell]
  have ht := h.target
  cases hn : root.attr "targetNamespace".toList with
  | none => rfl
  | some tn =>
    rw [hn] at ht
    dsimp only
    rw [List.find?_map, show ((fun a : Namespace => decide (a.uri = tn)) ∘ respellNs p p') = fun a => decide (a.uri = tn) from
      funext fun a => by simp only [Function.comp, respellNs_uri]]
    cases hf : root.namespaces.find? fun a => decide (a.uri = tn) with
    | none => rfl
    | some a =>
      have hu := List.find?_some hf
      simp only [decide_eq_true_eq] at hu
      rw [Option.map_some]
      unfold respellNs
      rw [if_neg fun e => ht (by rw [← hu, h.unique a (List.mem_of_find?_eq_some hf) e])]

theorem respellNs_name {a : Namespace} (h : a.name = p) : (respellNs p p' a).name = p' := by
  unfold respellNs; rw [if_pos h]

/-- Which of the declarations is taken. -/
theorem pick_name {l : List Namespace} {q : Option Str} (h : ∀ a ∈ l, a.name = q) (hl : l ≠ []) :
    nsPrefix ((l.find? fun n => n.name.isSome).or l.head?) = q := by
  have hsome : ∀ a, l.find? (fun n => n.name.isSome) = some a → a.name = q := fun a e => h a (List.mem_of_find?_eq_some e)
  cases hf : l.find? fun n => n.name.isSome with
  | some a => exact hsome a hf
  | none =>
    cases l with
    | nil => exact absurd rfl hl
    | cons a l => exact h a (by simp)

theorem respellNs_some (q q' : Str) (a : Namespace) : (respellNs (some q) (some q') a).name.isSome = a.name.isSome := by
  unfold respellNs
  split
  · rename_i h; rw [h]; rfl
  · rfl

theorem xsd_filter (root : Node) : (respell p p' root).namespaces.filter (fun a => decide (a.uri = xsdUri)) =
    (root.namespaces.filter fun a => decide (a.uri = xsdUri)).map (respellNs p p') := by
  rw [namespaces_respell, List.filter_map,
    show ((fun a : Namespace => decide (a.uri = xsdUri)) ∘ respellNs p p') = fun a => decide (a.uri = xsdUri) from
      funext fun a => by simp only [Function.comp, respellNs_uri]]

theorem xsd_respell {root : Node} (h : Respellable root p p') : nsPrefix (xsdNamespace (respell p p' root)) = p' := by
  obtain ⟨a, h1, h2⟩ := h.xsd
  have h1 := xsdNs_iff.1 h1
  unfold xsdNamespace at h1 ⊢
  dsimp only at h1 ⊢
  rw [xsd_filter]
  have hmem : ∀ b ∈ root.namespaces.filter (fun a => decide (a.uri = xsdUri)), b ∈ root.namespaces ∧ b.uri = xsdNamespaceUri :=
    fun b hb => ⟨(List.mem_filter.1 hb).1, of_decide_eq_true (List.mem_filter.1 hb).2⟩
  generalize root.namespaces.filter (fun a => decide (a.uri = xsdUri)) = l at h1 hmem
  have hl : l ≠ [] := by rintro rfl; cases h1
  have one : (∀ b ∈ l, b.name = p) → nsPrefix (((l.map (respellNs p p')).find? fun n => n.name.isSome).or
      (l.map (respellNs p p')).head?) = p' := fun hall =>
    pick_name (fun b hb => by
      obtain ⟨c, hc, rfl⟩ := List.mem_map.1 hb
      exact respellNs_name (hall c hc)) (by simpa using hl)
  cases p' with
  | none => exact one fun b hb => h.single rfl b (hmem b hb).1 (hmem b hb).2
  | some q' =>
    cases p with
    | none =>
      refine one fun b hb => ?_
      cases hf : l.find? fun n => n.name.isSome with
      | none =>
        have := List.find?_eq_none.1 hf b hb
        simpa using this
      | some c =>
        rw [hf] at h1
        cases h1
        have := List.find?_some hf
        rw [h2] at this; cases this
    | some q =>
      rw [List.find?_map, show ((fun a : Namespace => a.name.isSome) ∘ respellNs (some q) (some q')) = fun a => a.name.isSome from
        funext fun a => by simp only [Function.comp, respellNs_some], List.head?_map]
      rw [show ((l.find? fun n => n.name.isSome).map (respellNs (some q) (some q'))).or (l.head?.map (respellNs (some q) (some q')))
        = ((l.find? fun n => n.name.isSome).or l.head?).map (respellNs (some q) (some q')) by
          cases l.find? fun n => n.name.isSome <;> rfl, ← h1]
      exact respellNs_name h2

theorem schema_rel (U : UnicodeTable) {root : Node} (h : Respellable root p p') (above : List Node) (ha : Uncoloned p p' above) :
    SameRes (FileLike p p') (parseSchema U root above) (parseSchema U (respell p p' root) (above.map (respell p p'))) := by
  rw [schema_typed, schema_typed, tag_respell]
  have hl : Uncoloned p p' (root :: above) := fun a hm v hv => by
    rcases List.mem_cons.1 hm with rfl | hm
    · exact tame_of h .root hv
    · exact ha a hm v hv
  have hk : List.Forall₂ (KidLike p p') (root.children.map fun k => (k, parseNode U k root above))
      ((respell p p' root).children.map fun k => (k, parseNode U k (respell p p' root) (above.map (respell p p')))) := by
    rw [← parseKids_eq, ← parseKids_eq, children_respell, ← respellAll_eq]
    exact kids_all U (blank_of h) _ _ _ (fun k hk m hm => fit_of h (Verif.Lemmas.Parse.PartOf.trans (.child .root hk) hm)) hl
  refine SameRes.then (typed_rel hk) fun ks ks' hks => ?_
  refine SameRes.then (mapM'_rel (forall₂_filter hks fun a b hab => by rw [hab.1, hab.2.1, isElement_respell])
    fun a b hab => hab.2.2) fun ts ts' ht => ?_
  refine SameRes.then (mapM'_rel (forall₂_filter hks fun a b hab => by rw [hab.1, hab.2.1, isElement_respell])
    fun a b hab => hab.2.2) fun gs gs' hg => ?_
  obtain ⟨a, h1, h2⟩ := h.xsd
  exact ⟨ht, hg, target_respell h, by dsimp only; rw [← xsdNs_iff.1 h1]; exact h2, xsd_respell h⟩

end Verif.Lemmas.Respell
