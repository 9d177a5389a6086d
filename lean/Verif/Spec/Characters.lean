import Verif.Ext.RoXml
import Verif.Rust.Unicode

/-!
# Specification: characters of a document

The characters which occur in names, references and values of a document, and Unicode tables which agree on them.
-/

namespace Verif.Spec

open Verif RoXml

/-- `n` is the root or a node below it. -/
inductive Within (root : Node) : Node → Prop where
  | root : Within root root
  | child {n c} : Within root n → c ∈ n.children → Within root c

/-- The attributes which hold names, references or values. -/
def nameAttributes : List String := ["name", "ref", "type", "base", "itemType", "memberTypes", "value", "element"]

/-- The character occurs in a name, a reference or a value of the document. -/
def InNames (root : Node) (ch : Char) : Prop :=
  ∃ n, Within root n ∧ ∃ a ∈ nameAttributes, ∃ v, n.attr a.toList = some v ∧ ch ∈ v

/-- The two tables put the character into the same classes. -/
structure SameClasses (U V : UnicodeTable) (c : Char) : Prop where
  alphanumeric : U.isAlphanumeric c = V.isAlphanumeric c
  numeric : U.isNumeric c = V.isNumeric c
  lowercase : U.isLowercase c = V.isLowercase c
  uppercase : U.isUppercase c = V.isUppercase c

end Verif.Spec
