import Verif.Props.Denote
import Verif.Lemmas.Headings

/-! # C95: documentation stands above what it documents -/

namespace Verif.Props

open Verif Verif.Model Verif.Spec Verif.RoXml Verif.Lemmas Verif.Lemmas.Parse Verif.Lemmas.Heading

open Verif.Props.Sample

/-- **C95** The comments, definitions and members in the text for a file, in order: above each definition, field and case
stands its documentation, and nowhere else is there a comment except for aliases without documentation and imports. -/
theorem C95_file (U : UnicodeTable) (f : RsFile) (r : Str) (ht : SafeNamespace f.targetNs)
    (hs : ∀ x ∈ generatedList f.types, SafeTexts x ∧ IsItem x) (h : (generateRsFile U f).1 = .ok r) :
    ∃ docs, (∀ i d, Explains 80 i d (docs i d)) ∧ HasOutline r (outlineList (fileNaming U f) docs f.types) :=
  ⟨Gen.docMarks, Gen.explains, Gen.file_outline ht hs h⟩

/-- **C95** The outline of a text is determined. -/
theorem C95_determined (t : Str) (ms ns : List Mark) (h1 : HasOutline t ms) (h2 : HasOutline t ns) : ms = ns := by
  obtain ⟨ls, h1, rfl⟩ := h1
  obtain ⟨ms, h2, rfl⟩ := h2
  rw [Gen.lines_unique h1, Gen.lines_unique h2]

/-- **C95** For a schema document: the outline of the code is that of the entities which the parser returns. -/
theorem C95_document (U : UnicodeTable) (root : Node) (t : Str) (hg : Grammatical root) (hs : CopySafe root)
    (h : convertXsd U root = .ok t) : ∃ f, parseFile U root = .ok f ∧
      ∃ docs, (∀ i d, Explains 80 i d (docs i d)) ∧ HasOutline t (outlineList (naming U root) docs f.types) := by
  obtain ⟨f, hp, h⟩ := Res.bind_eq_ok.1 h
  obtain ⟨h1, h2⟩ := parseFile_safe hs hp
  obtain ⟨docs, k1, k2⟩ := C95_file U f t h1 (fun x hx => ⟨h2 x hx, parseFile_items hg hp x hx⟩) h
  rw [fileNaming, (parseFile_namespaces hp).1, (parseFile_namespaces hp).2] at k2
  exact ⟨f, hp, docs, k1, k2⟩

/-- **C95** The outline of the code for a schema has a part for each global declaration, in order, which tells where the
documentation of the declaration, of its elements, attributes and enumerated values stands. -/
theorem C95_declarations_partial (U : UnicodeTable) (root : Node) (t : Str) (hg : Grammatical root) (hf : ProperForms root)
    (hs : CopySafe root)
    (hb : ∀ n a, PartOf root n → a ∈ ["name", "ref"] → n.attr a.toList ≠ some "__base__".toList)
    (h : convertXsd U root = .ok t) :
    ∃ docs, (∀ i d, Explains 80 i d (docs i d)) ∧ ∃ parts, HasOutline t parts.flatten ∧
      List.Forall₂ (DeclMarks (naming U root) docs U root) (globals root) parts := by
  obtain ⟨f, hp, h⟩ := Res.bind_eq_ok.1 h
  obtain ⟨h1, h2⟩ := parseFile_safe hs hp
  have k := Gen.file_outline h1 (fun x hx => ⟨h2 x hx, parseFile_items hg hp x hx⟩) h
  obtain ⟨parts, q1, q2⟩ := file_marks (N := naming U root) hg hf hb docMarks_none docMarks_silent hp
  refine ⟨Gen.docMarks, Gen.explains, parts, ?_, q1⟩
  rw [(parseFile_namespaces hp).1, (parseFile_namespaces hp).2] at k
  rw [← q2]
  exact k

/-! ## Examples -/

private def note (s : String) : Node := el "annotation" [] [el "documentation" [] [.text s.toList]]

private theorem no_marker {b : Node}
    (h : ∀ n ∈ Sample.elements b, ∀ a ∈ ["name", "ref"], n.attr a.toList ≠ some "__base__".toList) :
    ∀ n at', PartOf b n → at' ∈ ["name", "ref"] → n.attr at'.toList ≠ some "__base__".toList :=
  fun n a hn ha => h n (partOf_elements hn) a ha

private def shop : Node := doc [
  el "complexType" [("name", "Order")] [note "An order\nof a customer", el "sequence" []
    [el "element" [("name", "item"), ("type", "xs:string")] [note "What is ordered"],
     el "element" [("name", "count"), ("type", "xs:int")] []],
    el "attribute" [("name", "id"), ("type", "xs:string")] [note "Number of the order"]],
  el "simpleType" [("name", "State")] [note "State of an order", el "restriction" [("base", "xs:string")]
    [el "enumeration" [("value", "open")] [note "Not yet paid"], el "enumeration" [("value", "closed")] []]],
  el "element" [("name", "order"), ("type", "tns:Order")] [note "The root"],
  el "element" [("name", "other"), ("type", "tns:Order")] []]

private theorem shop_grammatical : Grammatical shop := grammatical_of (by decide) (by decide +kernel)
private theorem shop_forms : ProperForms shop := properForms_of (by decide +kernel) (by decide +kernel) (by decide +kernel)
private theorem shop_safe : CopySafe shop :=
  copySafe_of (by decide +kernel) (by decide +kernel) (by decide +kernel) (by decide +kernel) (by decide +kernel)

/-- The outline for a schema with documentation everywhere. -/
example : ∃ t, convertXsd A shop = .ok t ∧ HasOutline t [
    .comment " An order".toList, .comment " of a customer".toList, .item .struct "Order".toList,
    .comment " What is ordered".toList, .member "item".toList, .member "count".toList,
    .comment " Number of the order".toList, .member "id".toList,
    .comment " State of an order".toList, .item .enum "State".toList, .comment " Not yet paid".toList,
    .member "Open".toList, .member "Closed".toList, .member "__Unknown__".toList,
    .comment " The root".toList, .item .type "Order".toList,
    .comment " pub type Other = Order;".toList] := by
  exact ⟨_, okText_eq (by decide +kernel), _, Gen.lines_lns _, by decide +kernel⟩

/-- The theorem applies. -/
example : ∃ t, convertXsd A shop = .ok t ∧ ∃ docs, (∀ i d, Explains 80 i d (docs i d)) ∧ ∃ parts, HasOutline t parts.flatten ∧
    List.Forall₂ (DeclMarks (naming A shop) docs A shop) (globals shop) parts ∧ (globals shop).length = 4 := by
  obtain ⟨t, ht⟩ := ok_of (r := convertXsd A shop) (by decide +kernel)
  obtain ⟨docs, h1, parts, h2, h3⟩ := C95_declarations_partial A shop t shop_grammatical shop_forms shop_safe
    (no_marker (by decide +kernel)) ht
  exact ⟨t, ht, docs, h1, parts, h2, h3, by decide +kernel⟩

private def derived : Node := doc [
  el "complexType" [("name", "Base")] [],
  el "complexType" [("name", "Special")] [note "Only for tests", el "complexContent" []
    [el "extension" [("base", "tns:Base")] []]]]

/-- **C95** The documentation of a derived type is lost: it is nowhere in the code. -/
theorem C95_derived_violated : ∃ root c t, Grammatical root ∧ ProperForms root ∧ CopySafe root ∧ c ∈ globals root ∧
    docOf c = some "Only for tests".toList ∧ convertXsd A root = .ok t ∧ ¬ "Only".toList <:+: t := by
  refine ⟨derived, (globals derived)[1]'(by decide +kernel), _, grammatical_of (by decide) (by decide +kernel),
    properForms_of (by decide +kernel) (by decide +kernel) (by decide +kernel),
    copySafe_of (by decide +kernel) (by decide +kernel) (by decide +kernel) (by decide +kernel) (by decide +kernel),
    List.getElem_mem _, by decide +kernel, okText_eq (by decide +kernel), by decide +kernel⟩

private def inlined : Node := doc [
  el "element" [("name", "report")] [note "Only for tests", el "complexType" [] [el "sequence" []
    [el "element" [("name", "text"), ("type", "xs:string")] []]]]]

/-- **C95** So is that of a global element with an inline type. -/
theorem C95_inline_violated : ∃ root c t, Grammatical root ∧ ProperForms root ∧ CopySafe root ∧ c ∈ globals root ∧
    docOf c = some "Only for tests".toList ∧ convertXsd A root = .ok t ∧ ¬ "Only".toList <:+: t := by
  refine ⟨inlined, (globals inlined)[0]'(by decide +kernel), _, grammatical_of (by decide) (by decide +kernel),
    properForms_of (by decide +kernel) (by decide +kernel) (by decide +kernel),
    copySafe_of (by decide +kernel) (by decide +kernel) (by decide +kernel) (by decide +kernel) (by decide +kernel),
    List.getElem_mem _, by decide +kernel, okText_eq (by decide +kernel), by decide +kernel⟩

end Verif.Props
