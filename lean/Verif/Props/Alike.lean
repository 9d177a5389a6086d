import Verif.Lemmas.Alike
import Verif.Props.Sample

/-! # C88: nothing but the meaning of the document matters -/

namespace Verif.Props

open Verif Verif.Model Verif.Spec Verif.RoXml Verif.Lemmas Verif.Lemmas.Parse Verif.Lemmas.Alike

/-- **C88**: documents which say the same give the same code. -/
theorem C88_meaning (U : UnicodeTable) {a b : Node} (h : SameDocument a b) : convertXsd U a = convertXsd U b := by
  unfold convertXsd parseFile
  rw [schema_congr h [] []]

private theorem bare_tag : ∀ n, (bare n).tag = n.tag
  | .element u t as ns cs => by unfold bare; split <;> rfl
  | .text _ => rfl
  | .other => rfl

private theorem bare_annotation : ∀ {n : Node}, n.tag = "annotation".toList → bare n = n
  | .element u t as ns cs, h => by unfold bare; exact if_pos h
  | .text _, _ => rfl
  | .other, _ => rfl

private theorem bare_find : ∀ cs : List Node, (bareKids cs).find? (fun c => c.tag = "annotation".toList) =
    cs.find? fun c => c.tag = "annotation".toList
  | [] => rfl
  | c :: cs => by
    unfold bareKids
    by_cases hc : c.isElement = true
    · rw [if_pos hc]
      by_cases ht : c.tag = "annotation".toList
      · rw [List.find?_cons_of_pos (a := bare c) (p := fun c => decide (c.tag = _)) (decide_eq_true ((bare_tag c).trans ht)),
          List.find?_cons_of_pos (a := c) (p := fun c => decide (c.tag = _)) (decide_eq_true ht), bare_annotation ht]
      · rw [List.find?_cons_of_neg (a := bare c) (p := fun c => decide (c.tag = _))
            (fun h => ht ((bare_tag c).symm.trans (of_decide_eq_true h))),
          List.find?_cons_of_neg (a := c) (p := fun c => decide (c.tag = _)) (fun h => ht (of_decide_eq_true h)), bare_find cs]
    · rw [if_neg hc, bare_find cs, List.find?_cons_of_neg]
      intro h
      have h := of_decide_eq_true h
      cases c with
      | element => exact absurd rfl hc
      | text s => exact absurd (show ([] : Str) = _ from h) (by decide)
      | other => exact absurd (show ([] : Str) = _ from h) (by decide)

private theorem bare_doc (u u' : Option Str) (t : Str) (as as' : List Attr) (ns ns' : List Namespace) (cs : List Node) :
    docOf (.element u t as ns (bareKids cs)) = docOf (.element u' t as' ns' cs) := by
  unfold docOf
  rw [show (Node.element u t as ns (bareKids cs)).children = bareKids cs from rfl, bare_find]
  rfl

mutual
private theorem bare_alike : ∀ {n : Node}, n.isElement = true → Alike (bare n) n
  | .element u t as ns cs, _ => by
    unfold bare
    by_cases ht : t = "annotation".toList
    · rw [if_pos ht]; subst ht; exact .annotation
    · rw [if_neg ht]; exact .element (fun _ _ => rfl) (bare_doc ..) (bareKids_alike cs)
  | .text _, h => by cases h
  | .other, h => by cases h
private theorem bareKids_alike : ∀ cs : List Node, AlikeKids (bareKids cs) cs
  | [] => .nil
  | c :: cs => by
    unfold bareKids
    by_cases hc : c.isElement = true
    · rw [if_pos hc]; exact .both (bare_alike hc) (bareKids_alike cs)
    · rw [if_neg hc]; exact .right (by simpa using hc) (bareKids_alike cs)
end

/-- **C88**: comments, processing instructions and text outside annotations do not matter. -/
theorem C88_remarks (U : UnicodeTable) {a : Node} (h : a.tag = "schema".toList) : convertXsd U (bare a) = convertXsd U a := by
  cases a with
  | text s => exact absurd (show ([] : Str) = _ from h) (by decide)
  | other => exact absurd (show ([] : Str) = _ from h) (by decide)
  | element u t as ns cs =>
    refine C88_meaning U ⟨(bare_tag _).trans h, bare_alike rfl, ?_⟩
    unfold bare
    split <;> rfl

/-! ## Two documents -/

open Verif.Props.Sample

private def terse : Node := doc [el "complexType" [("name", "Person")]
  [el "sequence" [] [el "element" [("name", "age"), ("type", "xs:int")] []]]]

private def verbose : Node :=
  .element none "schema".toList
    [⟨none, "elementFormDefault".toList, "qualified".toList⟩, ⟨none, "targetNamespace".toList, "http://example.com/a".toList⟩]
    [⟨some "xs".toList, xsdUri⟩, ⟨some "tns".toList, "http://example.com/a".toList⟩]
    [.text "\n  ".toList, .other,
     el "complexType" [("final", "#all"), ("name", "Person")]
       [.other, el "sequence" [("id", "s")] [.text "\n".toList, el "element" [("type", "xs:int"), ("name", "age")] [.text "  ".toList], .other]],
     .text "\n".toList]

private theorem same_verbose : SameDocument terse verbose :=
  ⟨rfl, .element (by decide +kernel) rfl
    (.right rfl (.right rfl (.both (.element (by decide +kernel) rfl
      (.right rfl (.both (.element (by decide +kernel) rfl
        (.right rfl (.both (.element (by decide +kernel) rfl (.right rfl .nil)) (.right rfl .nil)))) .nil))) (.right rfl .nil)))), rfl⟩

example : convertXsd A terse = convertXsd A verbose ∧ ∃ t, convertXsd A terse = .ok t :=
  ⟨C88_meaning A same_verbose, ok_of (by decide +kernel)⟩

example : convertXsd A (bare verbose) = convertXsd A verbose ∧ bare verbose ≠ verbose :=
  ⟨C88_remarks A rfl, fun h => absurd (congrArg (fun n => n.children.length) h) (by decide +kernel)⟩

private def remarked (r : List Node) : Node := doc [el "complexType" [("name", "Person")]
  [el "annotation" [] [el "documentation" [] (r ++ [.text "A person".toList])]]]

/-- **C88**: a comment in front of the documentation does matter: the documentation is lost. -/
theorem C88_comment_violated : ¬ ∀ cs : List Node, convertXsd A (remarked (.other :: cs)) = convertXsd A (remarked cs) :=
  fun h => absurd (congrArg okText (h [])) (by decide +kernel)

end Verif.Props
