import Verif.Lemmas.CharactersDoc
import Verif.Props.Sample

/-! # C94: the Unicode tables matter only at the characters of names, references and values -/

namespace Verif.Props

open Verif Verif.Model Verif.Model.Wsdl Verif.Spec Verif.Spec.Wsdl Verif.RoXml Verif.Lemmas Verif.Lemmas.Chars

/-- **C94**: tables which agree on the characters of names, references and values of a schema give the same code for it, or
the same failure. -/
theorem C94_schema {U V : UnicodeTable} {root : Node} (h : ∀ c, InNames root c → SameClasses U V c) :
    convertXsd U root = convertXsd V root :=
  convertXsd_same h

/-- **C94**: the same for a service description. -/
theorem C94_service {U V : UnicodeTable} {root : Node} {order : Definitions → List PortType}
    (h : ∀ c, InNames root c → SameClasses U V c)
    (hp : ∀ d, IsDefinitions root d → ∀ p ∈ order d, p ∈ d.portTypes.map (·.2)) : wsdlCode U root order = wsdlCode V root order :=
  wsdlCode_same h hp

/-- **C94**: where all these characters are ASCII, the code can be computed with the ASCII table. -/
theorem C94_ascii (U : UnicodeTable) {root : Node} (h : ∀ c, InNames root c → c.toNat < 128) :
    convertXsd U root = convertXsd .ascii root ∧ ∀ order : Definitions → List PortType,
      (∀ d, IsDefinitions root d → ∀ p ∈ order d, p ∈ d.portTypes.map (·.2)) → wsdlCode U root order = wsdlCode .ascii root order :=
  ⟨C94_schema fun c hc => same_ascii (h c hc), fun _ hp => C94_service (fun c hc => same_ascii (h c hc)) hp⟩

/-! ## Documents -/

open Verif.Props.Sample

private theorem within_elements {root n : Node} (h : Within root n) : n ∈ Sample.elements root := by
  induction h with
  | root => exact elements_self _
  | child _ hc ih => exact elements_child _ _ ih _ hc

private theorem ascii_of {root : Node} (h : (Sample.elements root).all (fun n => nameAttributes.all fun a =>
    ((n.attr a.toList).getD []).all fun c => decide (c.toNat < 128)) = true) : ∀ c, InNames root c → c.toNat < 128 := by
  rintro c ⟨n, hn, a, ha, v, hv, hc⟩
  have h := List.all_eq_true.1 (List.all_eq_true.1 h n (within_elements hn)) a ha
  rw [hv] at h
  exact of_decide_eq_true (List.all_eq_true.1 h c hc)

private def described (value comment : String) : Node := doc [el "simpleType" [("name", "Size")]
  [el "annotation" [] [el "documentation" [] [.text comment.toList]],
   el "restriction" [("base", "xs:string")] [el "enumeration" [("value", value)] []]]]

private def service : Node := el "definitions" []
  [el "types" [] [described "big" "Größe"], el "message" [("name", "In")] [el "part" [("name", "x"), ("element", "tns:X")] []],
   el "portType" [("name", "P")] [el "operation" [("name", "GetIt")] [el "input" [("message", "tns:In")] []]]]

private def order (d : Definitions) : List PortType := d.portTypes.map (·.2)

/-- The letters of a comment do not matter. -/
example (U : UnicodeTable) : convertXsd U (described "big" "Größe") = convertXsd A (described "big" "Größe") ∧
    wsdlCode U service order = wsdlCode A service order ∧ (∃ t, convertXsd A (described "big" "Größe") = .ok t) ∧
    ∃ t, wsdlCode A service order = .ok t :=
  ⟨(C94_ascii U (ascii_of (by decide +kernel))).1, (C94_ascii U (ascii_of (by decide +kernel))).2 order fun _ _ _ h => h,
    ok_of (by decide +kernel), ok_of (by decide +kernel)⟩

/-- **C94**: those of a value do. -/
theorem C94_needed : ∃ (U V : UnicodeTable) (root : Node) (s t : Str), convertXsd U root = .ok s ∧ convertXsd V root = .ok t ∧ s ≠ t := by
  refine ⟨A, .latin1, described "groß" "", _, _, okText_eq (by decide +kernel), okText_eq (by decide +kernel), ?_⟩
  decide +kernel

end Verif.Props
