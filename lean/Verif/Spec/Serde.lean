import Verif.Spec.DateTime
import Verif.Ext.XmlEvents

/-! # Specification: XML form of a simple value, white-space separated lists -/

namespace Verif.Spec

open Xml

/-- The events of an element holding a text; without its tags when `skip`. -/
def elementEvents (skip : Bool) (name text : List Char) : List Ev :=
  if skip then [.chars text] else [.start name, .chars text, .close]

/-- A sink takes these events one after the other, having received `out` before. -/
def Takes (accepts : List Ev → Ev → Bool) : List Ev → List Ev → Prop
  | _, [] => True
  | out, e :: es => accepts out e = true ∧ Takes accepts (out ++ [e]) es

/-- A text without white space at either end. -/
def Trimmed (t : List Char) : Prop := trimXml t = t

/-- A non-empty word without white space. -/
def Word (t : List Char) : Prop := t ≠ [] ∧ ∀ c ∈ t, ¬ Space c

/-- `ts` are the maximal white-space-free words of a text, in order. -/
inductive Words : List Char → List (List Char) → Prop where
  | nil {w} : Spaces w → Words w []
  | cons {w t rest ts} : Spaces w → Word t → (∀ c, rest.head? = some c → Space c) → Words rest ts →
      Words (w ++ t ++ rest) (t :: ts)

end Verif.Spec
