import Verif.Props.XmlNames
import Verif.Lemmas.XmlMembers

/-! # C76: the names in XML documents, for all members -/

namespace Verif.Props

open Verif Verif.Model Verif.Spec Verif.RoXml Verif.Lemmas Verif.Lemmas.Parse

open Verif.Props.Sample

/-- **C76** What any member of a struct for a type with a name is called in documents, be it of the type itself, inherited or
from an attribute group: as the part of the schema says which it comes from. -/
theorem C76_members_partial (U : UnicodeTable) (root : Node) (t : Str) (hg : Grammatical root) (hs : CopySafe root)
    (hr : RegularSchema root) (hp : ProperNames root) (h : convertXsd U root = .ok t)
    (is : List Item) (hi : HasItems t is) (tns : Option Namespace) (ht : TargetNs root tns) :
    ∃ F : Node → List StructField, ∀ c nm n, Declares root c nm n → TypeFields root F c nm n (F c) ∧
      ∃ i ∈ is, i.path = [] ∧ DefinesType i ((naming U root).type nm) ∧
        List.Forall₂ (fun f m => FieldMember (naming U root) ((targetNamespace root).bind (·.name)) (defaultFormatName U nm) f m ∧
          ∃ e, ComesFrom root f e ∧ PartReads tns i f m e) (written (F c)) (readFieldLines none i.body) := by
  obtain ⟨f, hpf, hit⟩ := items_for hg hs h hi
  obtain ⟨F, hF⟩ := parseFile_fields hg hr hpf
  refine ⟨F, fun c nm n hc => ⟨(hF c nm n hc).1, ?_⟩⟩
  obtain ⟨-, j, cm, ag, -, k5⟩ := hF c nm n hc
  obtain ⟨hcp, hnp⟩ := Xml.declares_part hc
  have hNs := nsOk_of hs hp ht
  obtain rfl := targetNs_iff.1 ht
  obtain ⟨i, him, p1, p2, p3, p4⟩ := hit _ (List.mem_of_getElem? k5)
    ([], .entity (.struct (.mk nm cm (F c) ag []))) (by rw [originsOf]; exact List.mem_cons_self)
  have hN : Xml.Names (targetNamespace root) i.attrs := by rw [p2]; exact Xml.structNames hNs (by decide)
  refine ⟨i, him, p1, .inl ?_, ?_⟩
  · have hh : i.head = "pub struct ".toList ++ ((naming U root).type nm ++ ' ' ::
        (if written (F c) = [] then "{}".toList else "{".toList)) := by
      refine p4.trans ?_
      split <;> rfl
    rw [hh, Gen.readHead_struct]
    have := (hs.names c "name" nm hcp (by decide) hc.2.1).2
    exact (Gen.typeName_word ⟨U, targetNamespace root, xsdNamespace root⟩ this).sp
  · refine forall₂_imp_mem p3 fun f hf m hm => ?_
    obtain ⟨hf, hw⟩ := List.mem_filter.1 hf
    obtain ⟨e, he⟩ := Xml.typeFields_from hr (fun c nm n h => (hF c nm n h).1) hc f hf
    refine ⟨hm, e, he, ?_⟩
    cases id he with
    | @member d o n' s k1 k2 k3 k4 k5 =>
      obtain ⟨kd, kn⟩ := Xml.declares_part k1
      have hep : PartOf root e := .child (PartOf.trans kn k2) k4
      obtain ⟨n1, n2⟩ := name_ok hs hp hep
      have elem : e.tag = "element".toList → PartReads (targetNamespace root) i f m e := fun ht =>
        .element (is_one.2 ht) fun x => Xml.sequence_reads hNs hN ht n1 n2 k5 hm
      cases id k5 with
      | typed ht => exact elem ht
      | ref ht => exact elem ht
      | inline ht => exact elem ht
      | any ht =>
        rw [← Xml.memberField_empty k5] at hw
        exact absurd ht (of_decide_eq_true hw)
      | choice ht =>
        exact .choice (is_one.2 ht) fun x => Xml.nested_reads hNs hN ht ((name_ok hs hp kd).1 o k1.2.1) k5 hm
    | «attribute» k1 k2 =>
      obtain ⟨n1, n2⟩ := name_ok hs hp k1
      rw [← Xml.attrField_empty k2] at hw
      have ht := (of_decide_eq_true hw).1
      exact .attribute (is_one.2 ht) fun x => Xml.attribute_reads hN ht n1 n2 k2 hm
    | marker k1 k2 => subst k2; exact .marker rfl hm.2.2

/-- **C76** In a schema whose local elements have names and are qualified, and whose attributes have names and are not, the
code reads and writes exactly the names of the schema for every member of every struct, wherever it comes from. -/
theorem C76_right_partial (U : UnicodeTable) (root : Node) (t : Str) (hg : Grammatical root) (hs : CopySafe root)
    (hr : RegularSchema root) (hp : ProperNames root) (h : convertXsd U root = .ok t)
    (is : List Item) (hi : HasItems t is) (ht : ∃ a ∈ root.namespaces, root.attr "targetNamespace".toList = some a.uri)
    (hq : ∀ s e, PartOf root s → Is s ["sequence", "all"] → e ∈ members s → Is e ["element", "any"] ∧
      (Is e ["element"] → Has e "name" ∧ Qualified root e "elementFormDefault"))
    (ha : ∀ a, PartOf root a → Is a ["attribute"] → Has a "name" ∧ ¬ Qualified root a "attributeFormDefault") :
    ∃ F : Node → List StructField, ∀ c nm n, Declares root c nm n → TypeFields root F c nm n (F c) ∧
      ∃ i ∈ is, i.path = [] ∧ DefinesType i ((naming U root).type nm) ∧
        List.Forall₂ (fun f m => ∃ e, ComesFrom root f e ∧
          ((Is e ["element"] ∧ ∀ x, ElementReads i m x ↔ DeclaredName root e "elementFormDefault" x) ∨
           (Is e ["attribute"] ∧ ∀ x, AttributeReads i m x ↔ DeclaredName root e "attributeFormDefault" x) ∨
           ∃ base, f = baseMarker e base ∧ m.attr = none))
          (written (F c)) (readFieldLines none i.body) := by
  obtain ⟨tns, ht', hu⟩ := declared_target ht
  obtain ⟨F, hF⟩ := C76_members_partial U root t hg hs hr hp h is hi tns ht'
  refine ⟨F, fun c nm n hc => ⟨(hF c nm n hc).1, ?_⟩⟩
  obtain ⟨-, i, him, p1, p2, p3⟩ := hF c nm n hc
  refine ⟨i, him, p1, p2, p3.imp ?_⟩
  rintro f m ⟨hfm, e, he, hm⟩
  refine ⟨e, he, ?_⟩
  have seq : ∀ {l : List String}, Is e l → (∀ x ∈ ["attribute", "anyAttribute"].map String.toList, x ∉ l.map String.toList) →
      (∀ base, f ≠ baseMarker e base) →
      ∃ s, PartOf root s ∧ Is s ["sequence", "all"] ∧ e ∈ members s := by
    intro l hl hn hb
    cases he with
    | member k1 k2 k3 k4 => exact ⟨_, PartOf.trans (Xml.declares_part k1).2 k2, k3, k4⟩
    | «attribute» _ k2 =>
      cases k2 with
      | «attribute» ht => rw [Is, ht] at hl; exact absurd hl (hn _ (by decide))
      | any ht => rw [Is, ht] at hl; exact absurd hl (hn _ (by decide))
    | marker _ k => exact absurd k (hb _)
  by_cases hb : ∃ base, f = baseMarker e base
  · obtain ⟨base, rfl⟩ := hb
    exact .inr (.inr ⟨base, rfl, hfm.2.2⟩)
  push Not at hb
  cases hm with
  | element k1 k2 =>
    obtain ⟨s, q1, q2, q3⟩ := seq k1 (by decide) hb
    obtain ⟨⟨v, q4⟩, q5⟩ := (hq s e q1 q2 q3).2 k1
    exact .inl ⟨k1, fun x => by rw [k2]; exact (C76_element_iff root e tns v q4).2 ⟨fun _ => hu, fun k => absurd q5 k⟩ x⟩
  | choice k1 =>
    obtain ⟨s, q1, q2, q3⟩ := seq k1 (by decide) hb
    have := (hq s e q1 q2 q3).1
    rw [Is, is_one.1 k1] at this
    exact absurd this (by decide)
  | «attribute» k1 k2 =>
    have hep : PartOf root e := by
      cases he with
      | member k1 k2 _ k4 => exact .child (PartOf.trans (Xml.declares_part k1).2 k2) k4
      | «attribute» k => exact k
      | marker k => exact k
    obtain ⟨⟨v, q1⟩, q2⟩ := ha e hep k1
    exact .inr (.inl ⟨k1, fun x => by rw [k2]; exact (C76_attribute_iff root e tns v q1).2 (fun k => absurd k q2) x⟩)
  | marker k => exact absurd k (hb _)

/-! ## Example -/

private abbrev field (n t : String) : Node := el "element" [("name", n), ("type", t)] []
private abbrev codeAttr : Node := el "attribute" [("name", "code"), ("type", "xs:string")] []
private abbrev baseType : Node := el "complexType" [("name", "Base")] [el "sequence" [] [field "id" "xs:int"], codeAttr]
private abbrev derivedType : Node := el "complexType" [("name", "Derived")] [el "complexContent" []
  [el "extension" [("base", "tns:Base")] [el "sequence" [] [field "note" "xs:string"]]]]
private def family : Node :=
  .element (some xsdUri) "schema".toList [⟨none, "targetNamespace".toList, "http://example.com/a".toList⟩,
      ⟨none, "elementFormDefault".toList, "qualified".toList⟩]
    [⟨some "xs".toList, xsdUri⟩, ⟨some "tns".toList, "http://example.com/a".toList⟩] [baseType, derivedType]

private def familyText : Str := okText (convertXsd A family)

private theorem family_of : Grammatical family ∧ CopySafe family ∧ RegularSchema family ∧ ProperNames family ∧
    convertXsd A family = .ok familyText ∧ HasItems familyText (readItems [] [] (Gen.lns familyText)) :=
  ⟨grammatical_of rfl (by decide +kernel), copySafe_of (by decide +kernel) (by decide +kernel) (by decide +kernel)
      (by decide +kernel) (by decide +kernel), regular_of (by decide +kernel) (by decide +kernel) (by decide +kernel),
      properNames_of (by decide +kernel) (by decide +kernel) (by decide +kernel), okText_eq (by decide +kernel), _,
      Gen.lines_lns _, rfl⟩

/-- The hypotheses are met by a type which is derived from another: it has three members, its own element and the inherited
element and attribute, all under the names in the schema. -/
example : ∃ t is i, convertXsd A family = .ok t ∧ HasItems t is ∧ i ∈ is ∧ DefinesType i "Derived".toList ∧
    (readFieldLines none i.body).map Spec.Member.name = ["note".toList, "id".toList, "code".toList] ∧
    ∀ m ∈ readFieldLines none i.body, ∃ e, PartOf family e ∧
      ((Is e ["element"] ∧ ∀ x, ElementReads i m x ↔ DeclaredName family e "elementFormDefault" x) ∨
       (Is e ["attribute"] ∧ ∀ x, AttributeReads i m x ↔ DeclaredName family e "attributeFormDefault" x)) := by
  obtain ⟨h1, h2, h3, h4, h5, h6⟩ := family_of
  obtain ⟨F, hF⟩ := C76_right_partial A family _ h1 h2 h3 h4 h5 _ h6 ⟨_, List.mem_of_getElem? (i := 1) rfl, rfl⟩
    (fun s e hs ht he => by
      have : ∀ s ∈ elements family, Is s ["sequence", "all"] → ∀ e ∈ members s, Is e ["element", "any"] ∧
          (Is e ["element"] → (e.attr "name".toList).isSome ∧ e.attr "form".toList = none) := by decide +kernel
      obtain ⟨k1, k2⟩ := this s (partOf_elements hs) ht e he
      exact ⟨k1, fun k => ⟨Option.isSome_iff_exists.1 (k2 k).1, .inr ⟨(k2 k).2, rfl⟩⟩⟩)
    (fun a ha ht => by
      have : ∀ a ∈ elements family, Is a ["attribute"] → (a.attr "name".toList).isSome ∧ a.attr "form".toList = none := by
        decide +kernel
      obtain ⟨k1, k2⟩ := this a (partOf_elements ha) ht
      refine ⟨Option.isSome_iff_exists.1 k1, fun k => ?_⟩
      rcases k with k | ⟨-, k⟩
      · exact nomatch k2.symm.trans k
      · exact absurd k (by decide +kernel))
  obtain ⟨-, i, him, -, p2, p3⟩ := hF derivedType "Derived".toList derivedType
    ⟨List.mem_of_getElem? (i := 1) rfl, rfl, .type rfl, by decide +kernel⟩
  have e : (naming A family).type "Derived".toList = "Derived".toList := by decide +kernel
  rw [e] at p2
  have hms : (readFieldLines none i.body).map Spec.Member.name = ["note".toList, "id".toList, "code".toList] ∧
      ∀ m ∈ readFieldLines none i.body, m.attr ≠ none := by
    have : ∀ i ∈ readItems [] [] (Gen.lns familyText), DefinesType i "Derived".toList →
        (readFieldLines none i.body).map Spec.Member.name = ["note".toList, "id".toList, "code".toList] ∧
        ∀ m ∈ readFieldLines none i.body, m.attr ≠ none := by decide +kernel
    exact this i him p2
  refine ⟨_, _, i, h5, h6, him, p2, hms.1, fun m hm => ?_⟩
  obtain ⟨f, -, e, k1, k2⟩ := forall₂_left p3 m hm
  have hep : PartOf family e := by
    cases k1 with
    | member k1 k2 _ k4 => exact .child (PartOf.trans (Xml.declares_part k1).2 k2) k4
    | «attribute» k => exact k
    | marker k => exact k
  rcases k2 with k | k | ⟨base, -, k⟩
  · exact ⟨e, hep, .inl k⟩
  · exact ⟨e, hep, .inr k⟩
  · exact absurd k (hms.2 m hm)

end Verif.Props
