import Verif.Lemmas.RespellGen
import Verif.Props.Sample

/-! # C92: the prefix for XML Schema -/

namespace Verif.Props

open Verif Verif.Model Verif.Spec Verif.RoXml Verif.Lemmas Verif.Lemmas.Parse Verif.Lemmas.Respell

/-- **C92** (partial): a schema which uses its prefix for XML Schema only for the built-in types of the published table can as
well use another prefix, or make XML Schema the default namespace (`none`), or give it a prefix if it is the default namespace;
the code is the same, and so is a failure.  Missing are schemas which mention other types of XML Schema
(`C92_prefix_violated`), and, for the default namespace, schemas in which something is called like a built-in type
(`C92_default_violated`); for both this is false. -/
theorem C92_prefix_partial (U : UnicodeTable) {root : Node} {p p' : Option Str} (h : Respellable root p p') :
    convertXsd U (respell p p' root) = convertXsd U root := (convert_rel U h).symm

section
open Sample

/-- What has to be checked for a concrete reference. -/
private def properCheck (p p' : Option Str) (v : Str) : Bool :=
  (decide ((splitName v).1 ≠ p) || (readmeTable ++ undocumentedTable).any fun r => r.1.toList = (splitName v).2) &&
    decide ((splitName v).1 ≠ p')

private def takenCheck (v : Str) : Bool :=
  (readmeTable ++ undocumentedTable).all fun r => decide (v ≠ r.1.toList) && decide (v ++ "Type".toList ≠ r.1.toList)

/-- What has to be checked for a concrete document. -/
private theorem respellable_of {root : Node} {p p' : Option Str}
    (xsd : (xsdNamespace root).map (·.name) = some p)
    (ns : ∀ a ∈ root.namespaces, (a.name = p → a.uri = xsdNamespaceUri) ∧ a.name ≠ p' ∧
      (p' = none → a.uri = xsdNamespaceUri → a.name = p))
    (target : root.attr "targetNamespace".toList ≠ some xsdNamespaceUri)
    (prefixes : ∀ q ∈ p.toList ++ p'.toList, ':' ∉ q ∧ ' ' ∉ q)
    (names : ∀ n ∈ elements root, ∀ v ∈ (n.attr "name".toList).toList, ':' ∉ v ∧ (p = none ∨ p' = none → takenCheck v = true))
    (refs : ∀ n ∈ elements root, ∀ v ∈ (n.attr "ref".toList).toList, (splitName v).1 ≠ p ∧ (splitName v).1 ≠ p')
    (types : ∀ n ∈ elements root, ∀ a ∈ ["type", "base", "itemType"], ∀ v ∈ (n.attr a.toList).toList, properCheck p p' v = true)
    (memberTypes : ∀ n ∈ elements root, ∀ v ∈ (n.attr "memberTypes".toList).toList,
      ∀ w ∈ (Str.splitOn ' ' v).filter (· ≠ []), properCheck p p' w = true) : Respellable root p p' := by
  have proper : ∀ v : Str, properCheck p p' v = true → ProperRef p p' v := by
    intro v h
    obtain ⟨h1, h2⟩ := Bool.and_eq_true_iff.1 h
    refine ⟨fun n e => ?_, fun n e => ?_⟩
    · rw [Gen.splitName_iff.2 e] at h1
      rcases Bool.or_eq_true_iff.1 h1 with h1 | h1
      · exact absurd rfl (of_decide_eq_true h1)
      · obtain ⟨r, hr, he⟩ := List.any_eq_true.1 h1
        exact ⟨r, hr, (of_decide_eq_true he).symm⟩
    · rw [Gen.splitName_iff.2 e] at h2
      exact of_decide_eq_true h2 rfl
  have taken : ∀ v, takenCheck v = true → ¬ IsBuiltIn v ∧ ¬ IsBuiltIn (v ++ "Type".toList) := by
    intro v h
    refine ⟨?_, ?_⟩ <;> rintro ⟨r, hr, e⟩
    · exact of_decide_eq_true (Bool.and_eq_true_iff.1 (List.all_eq_true.1 h r hr)).1 e
    · exact of_decide_eq_true (Bool.and_eq_true_iff.1 (List.all_eq_true.1 h r hr)).2 e
  refine ⟨?_, fun a ha => (ns a ha).1, fun e a ha => (ns a ha).2.2 e, fun a ha => (ns a ha).2.1, target, ?_, ?_, ?_, ?_, ?_, ?_⟩
  · cases e : xsdNamespace root with
    | none => rw [e] at xsd; cases xsd
    | some a => rw [e] at xsd; exact ⟨a, xsdNs_iff.2 e.symm, Option.some.inj xsd⟩
  · rintro q (e | e)
    · exact prefixes q (by rw [e]; simp)
    · exact prefixes q (by rw [e]; simp)
  · exact fun n v hn hv => (names n (partOf_elements hn) v (Option.mem_toList.2 hv)).1
  · exact fun n v hn hv hp => taken v ((names n (partOf_elements hn) v (Option.mem_toList.2 hv)).2 hp)
  · intro n v hn hv l
    have := refs n (partOf_elements hn) v (Option.mem_toList.2 hv)
    exact ⟨fun e => this.1 (by rw [Gen.splitName_iff.2 e]), fun e => this.2 (by rw [Gen.splitName_iff.2 e])⟩
  · exact fun n a v hn ha hv => proper v (types n (partOf_elements hn) a ha v (Option.mem_toList.2 hv))
  · exact fun n v ws w hn hv hs hw =>
      proper w (memberTypes n (partOf_elements hn) v (Option.mem_toList.2 hv) w (spaceSeparated_iff.1 hs ▸ hw))

private theorem sample_respellable : Respellable sample (some "xs".toList) (some "xsd".toList) :=
  respellable_of (by decide +kernel) (by decide +kernel) (by decide +kernel) (by decide) (by decide +kernel) (by decide +kernel)
    (by decide +kernel) (by decide +kernel)

/-- With `xsd` instead of `xs` the sample gives the same code. -/
example : convertXsd A (respell (some "xs".toList) (some "xsd".toList) sample) = convertXsd A sample ∧
    respell (some "xs".toList) (some "xsd".toList) sample ≠ sample ∧ convertXsd A sample ≠ .panic ∧ convertXsd A sample ≠ .err :=
  ⟨C92_prefix_partial A sample_respellable,
    fun h => absurd (congrArg (fun n => n.namespaces) h) (by decide +kernel), by
      rw [okText_eq (r := convertXsd A sample) (by decide +kernel)]; exact ⟨by simp, by simp⟩⟩

/-- And so it does with XML Schema as the default namespace. -/
example : convertXsd A (respell (some "xs".toList) none sample) = convertXsd A sample ∧
    respell (some "xs".toList) none sample ≠ sample :=
  ⟨C92_prefix_partial A (respellable_of (by decide +kernel) (by decide +kernel) (by decide +kernel) (by decide) (by decide +kernel)
      (by decide +kernel) (by decide +kernel) (by decide +kernel)),
    fun h => absurd (congrArg (fun n => n.namespaces) h) (by decide +kernel)⟩

/-- A prefix for what is the default namespace. -/
private def unprefixed : Node := respell (some "xs".toList) none sample
example : convertXsd A (respell none (some "s".toList) unprefixed) = convertXsd A unprefixed ∧
    respell none (some "s".toList) unprefixed ≠ unprefixed :=
  ⟨C92_prefix_partial A (respellable_of (by decide +kernel) (by decide +kernel) (by decide +kernel) (by decide) (by decide +kernel)
      (by decide +kernel) (by decide +kernel) (by decide +kernel)),
    fun h => absurd (congrArg (fun n => n.namespaces) h) (by decide +kernel)⟩

/-- A member of the type which everything is an instance of. -/
private def content : Node := el "element" [("name", "content"), ("type", "xs:anyType")] []
private def anything : Node := doc [el "complexType" [("name", "Box")] [el "sequence" [] [content]]]

/-- **C92**: the prefix of a type which is not in the table is copied into the code, as the name of a module. -/
theorem C92_prefix_violated : ∃ root : Node, (∃ a, XsdNs root (some a) ∧ a.name = some "xs".toList) ∧
    (∀ a ∈ root.namespaces, a.name ≠ some "xsd".toList) ∧
    (∃ n, PartOf root n ∧ n.attr "type".toList = some "xs:anyType".toList) ∧
    convertXsd A (respell (some "xs".toList) (some "xsd".toList) root) ≠ convertXsd A root ∧
    (∃ t, convertXsd A root = .ok t ∧ "xs::AnyType".toList <:+: t) ∧
    ∃ t, convertXsd A (respell (some "xs".toList) (some "xsd".toList) root) = .ok t ∧ "xsd::AnyType".toList <:+: t := by
  refine ⟨anything, ?_, by decide +kernel, ?_, ?_, ?_, ?_⟩
  · exact ⟨⟨some "xs".toList, xsdNamespaceUri⟩, xsdNs_iff.2 (by decide +kernel), rfl⟩
  · exact ⟨content, .child (n := el "sequence" [] [content])
      (.child (n := el "complexType" [("name", "Box")] [el "sequence" [] [content]])
        (.child .root List.mem_cons_self) List.mem_cons_self) List.mem_cons_self, by decide +kernel⟩
  · exact fun h => absurd (congrArg okText h) (by decide +kernel)
  · exact ⟨_, okText_eq (by decide +kernel), by decide +kernel⟩
  · exact ⟨_, okText_eq (by decide +kernel), by decide +kernel⟩

/-- A type of the schema's own, called like a built-in type. -/
private def ownToken : Node := el "complexType" [("name", "token")] [el "sequence" [] []]
private def own : Node := doc [ownToken]

/-- **C92**: with XML Schema as the default namespace, the name of a type of one's own is taken for that of a built-in type:
the code has a struct called `String`. -/
theorem C92_default_violated : ∃ root : Node, (∃ a, XsdNs root (some a) ∧ a.name = some "xs".toList) ∧
    (∀ a ∈ root.namespaces, a.name ≠ none) ∧
    (∀ n, PartOf root n → n.attr "type".toList = none ∧ n.attr "base".toList = none ∧ n.attr "ref".toList = none) ∧
    (∃ t, convertXsd A root = .ok t ∧ "pub struct Token {".toList <:+: t) ∧
    ∃ t, convertXsd A (respell (some "xs".toList) none root) = .ok t ∧ "pub struct String {".toList <:+: t := by
  refine ⟨own, ?_, by decide +kernel, ?_, ?_, ?_⟩
  · exact ⟨⟨some "xs".toList, xsdNamespaceUri⟩, xsdNs_iff.2 (by decide +kernel), rfl⟩
  · have : ∀ n ∈ elements own, n.attr "type".toList = none ∧ n.attr "base".toList = none ∧ n.attr "ref".toList = none := by
      decide +kernel
    exact fun n hn => this n (partOf_elements hn)
  · exact ⟨_, okText_eq (by decide +kernel), by decide +kernel⟩
  · exact ⟨_, okText_eq (by decide +kernel), by decide +kernel⟩

end

end Verif.Props
