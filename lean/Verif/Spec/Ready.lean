import Verif.Spec.Pieces
import Verif.Spec.Document

/-! # Specification: the service descriptions for which there is a client -/

namespace Verif.Spec.Wsdl

open Verif Verif.RoXml Verif.Spec Verif.Model

/-- These elements have the attribute, all with different values. -/
def Keyed (a : String) (ns : List Node) : Prop := (∀ n ∈ ns, Has n a) ∧ (ns.map (·.attr a.toList)).Nodup

/-- The input and the output, if there is one, of an operation with these child elements: nothing comes after an input without
output, and nothing between the two. -/
inductive Exchange : List Node → Node → Option Node → Prop where
  | oneWay {pre i} : (∀ n ∈ pre, Skipped n) → i.tag = "input".toList → Exchange (pre ++ [i]) i none
  | answered {pre i o rest} : (∀ n ∈ pre, Skipped n) → i.tag = "input".toList → o.tag = "output".toList →
      Exchange (pre ++ i :: o :: rest) i (some o)

/-- A message which can be sent: a single part with an element, or any other number of parts with names and an element or type. -/
def Sendable (m : Node) : Prop :=
  (∃ p, kids m "part" = [p] ∧ Has p "element") ∨
  ((kids m "part").length ≠ 1 ∧ ∀ p ∈ kids m "part", Has p "name" ∧ (Has p "element" ∨ Has p "type"))

/-- An operation with a name, of which the input can be sent and the output, if there is one, has a part; what they refer to need
not exist. -/
def Callable (root n : Node) : Prop :=
  Has n "name" ∧ ∃ i o, Exchange (allKids n) i o ∧ Has i "message" ∧ (∀ m, Refers root i (some m) → Sendable m) ∧
    ∀ x, o = some x → Has x "message" ∧ ∀ m, Refers root x (some m) → kids m "part" ≠ []

/-- A description whose declarations have different names, whose operations can be called and whose schemas can be converted. -/
structure Ready (U : UnicodeTable) (root : Node) : Prop where
  imports : Keyed "namespace" (kids root "import")
  messages : Keyed "name" (kids root "message")
  portTypes : Keyed "name" (kids root "portType")
  bindings : Keyed "name" (kids root "binding")
  operations : ∀ p ∈ kids root "portType", ∀ n ∈ kids p "operation", Callable root n
  schemas : ∀ s ∈ embedded root, ∃ c, SchemaCode U s c

end Verif.Spec.Wsdl
