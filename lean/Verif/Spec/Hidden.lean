import Verif.Spec.Closed

/-!
# Specification: names which the generated code uses

The generated code uses names of the prelude of Rust and of the libraries. A definition of the same name in the code hides them.
-/

namespace Verif.Spec

open Verif Verif.Model Verif.RoXml

/-- The names which the generated code uses without defining them: those of types, and `Option`, `Result` and the traits. -/
def codeNames : List String := reservedNames ++ ["Option", "Result", "Validate", "Default"]

/-- The global declaration becomes a definition of this name (beside others for what is inside it). -/
def NamesDef (c : Node) (nm : List Char) : Prop :=
  (c.tag ∈ ["complexType", "simpleType"].map String.toList ∧ c.attr "name".toList = some nm) ∨
  (c.tag ∈ ["element", "attribute"].map String.toList ∧ (c.tag = "attribute".toList → c.attr "ref".toList = none) ∧
    c.attr "name".toList = some nm ∧ (c.attr "type".toList = none ∨ Documented (docOf c))) ∨
  (c.tag = "attribute".toList ∧ c.attr "ref".toList = some nm ∧ Documented (docOf c))

end Verif.Spec
