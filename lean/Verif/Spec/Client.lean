import Verif.Spec.Service
import Verif.Spec.Closed

/-! # Specification: what the functions of a client name -/

namespace Verif.Spec.Wsdl

open Verif Verif.RoXml Verif.Spec Verif.Model.Wsdl

/-- The input of an operation. -/
inductive Input : Operation → Node → Prop where
  | oneWay {n i} : Input ⟨n, .oneWay i⟩ i
  | requestResponse {n i o fs} : Input ⟨n, .requestResponse i o fs⟩ i

/-- The input of the operation has the message `m`. -/
def Takes (root : Node) (op : Operation) (m : Node) : Prop := ∃ i, Input op i ∧ Refers root i (some m)

/-- The names of the parts of a message. -/
def partNames (m : Node) : List (Option (List Char)) := (kids m "part").map (·.attr "name".toList)

/-- The parts of a message have different names, of which none is that of the transport; the name of a single part does not
matter. -/
def UnlikeParts (m : Node) : Prop :=
  (kids m "part").length = 1 ∨ (partNames m).Nodup ∧ some "transport".toList ∉ partNames m

/-- There is a request in the message: it has a single part, or one called so. -/
def HasRequest (m : Node) : Prop := (kids m "part").length = 1 ∨ some "request".toList ∈ partNames m

/-- The names of parts and the prefixes of their types can be copied into code. -/
structure SafeParts (root : Node) : Prop where
  names : ∀ m ∈ kids root "message", ∀ p ∈ kids m "part", ∀ v, p.attr "name".toList = some v → ∀ c ∈ v, c ∉ codeUnsafe ∧ c ≠ ':'
  refs : ∀ m ∈ kids root "message", ∀ p ∈ kids m "part", ∀ a ∈ ["element", "type"], ∀ v, p.attr a.toList = some v → PrefixSafe v

/-- Operations whose names, without prefixes, differ in more than case and punctuation. -/
def UnlikeOperations (U : UnicodeTable) (ops : List Operation) : Prop :=
  ops.Pairwise fun a b => ∀ v w s t, a.node.attr "name".toList = some v → b.node.attr "name".toList = some w →
    AfterLastColon v s → AfterLastColon w t → skeleton U.isAlphanumeric s ≠ skeleton U.isAlphanumeric t

/-- What is referred to by `r` is declared, as something which becomes a definition, in the schema `s` of the description, which
has the same target namespace, and for which the reference means the same. -/
inductive Provided (root s : Node) (r : List Char) : Prop where
  | mk {uri nm c} : s ∈ embedded root → Verif.Spec.PlainNames s uri →
      (∀ a ∈ root.namespaces, ∀ b ∈ root.namespaces, a.uri = uri → b.uri = uri → a = b) →
      Denotes root uri nm r → Denotes s uri nm r → c ∈ globals s → c.attr "name".toList = some nm → Written c → Provided root s r

/-- The type `c` is defined at the top level of the text, between others in which all brackets match. -/
def DefinedIn (t c : List Char) : Prop := ∃ a b d ds k, t = a ++ (b ++ d) ∧ LexComplete a ∧ LexComplete b ∧ HasDefs b ds ∧ (k, c) ∈ topLevel ds

end Verif.Spec.Wsdl
