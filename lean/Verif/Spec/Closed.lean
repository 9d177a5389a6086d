import Verif.Spec.Size
import Verif.Spec.Checks
import Verif.Spec.Values

/-!
# Specification: every type which is mentioned is there

The members of the generated structs and enums mention types. Each of them should be a type of the library or the prelude,
or one which is defined in the same file where Rust looks for it.
-/

namespace Verif.Spec

open Verif Verif.Model Verif.RoXml

/-- The text is the type `c`, possibly inside `Option` and `Vec`. -/
inductive Wraps (c : List Char) : List Char → Prop where
  | bare : Wraps c c
  | option {t} : Wraps c t → Wraps c ("Option<".toList ++ (t ++ ">".toList))
  | vec {t} : Wraps c t → Wraps c ("Vec<".toList ++ (t ++ ">".toList))

/-- The types which are not defined in the generated code. -/
def preludeTypes : List String := "()" :: (readmeTable ++ undocumentedTable).map (·.2)

/-- In the module `p`, the text `c` is the name of a type: of one which is not defined in the code, of one in the module or
around it (every module starts with `use super::*;`), or of one in a module inside. -/
inductive Found (is : List Item) (p : List (List Char)) : List Char → Prop where
  | prelude {c} : c ∈ preludeTypes.map String.toList → Found is p c
  | scope {c} : InScope is p c → Found is p c
  | inner {md m} : Defined is (p ++ [md]) m → Found is p (md ++ ("::".toList ++ m))

/-- The item mentions types which exist only. -/
def Closed (is : List Item) (i : Item) : Prop := ∀ t ∈ memberTypes i, ∃ c, Wraps c t ∧ Found is i.path c

/-! ## Schemas -/

/-- The declaration becomes a definition of its name. -/
def Written (c : Node) : Prop :=
  c.tag ∈ ["complexType", "simpleType"].map String.toList ∨
  (c.tag ∈ ["element", "attribute"].map String.toList ∧ c.attr "ref".toList = none ∧
    (c.attr "type".toList = none ∨ Documented (docOf c)))

/-- The reference is one to a built-in type or to a declaration of the schema which becomes a definition. -/
def RefersTo (root : Node) (uri r : List Char) : Prop :=
  (∃ row ∈ readmeTable ++ undocumentedTable, DenotesXsd root row.1 r) ∨
  ∃ c ∈ globals root, ∃ nm, c.attr "name".toList = some nm ∧ Denotes root uri nm r ∧ Written c

/-- A letter of ASCII comes first, and there is no colon. -/
def Lettered (v : List Char) : Prop := (∃ c, v.head? = some c ∧ (asciiUpper c = true ∨ asciiLower c = true)) ∧ ':' ∉ v

/-- The schema refers to what it declares itself and to built-in types. -/
structure SelfContained (root : Node) (uri : List Char) : Prop where
  plain : PlainNames root uri
  types : ∀ n a v, PartOf root n → a ∈ ["type", "base", "itemType"] → n.attr a.toList = some v → RefersTo root uri v
  refs : ∀ n v, PartOf root n → n.tag ≠ "attributeGroup".toList → n.attr "ref".toList = some v → RefersTo root uri v
  memberTypes : ∀ n v ws w, PartOf root n → n.attr "memberTypes".toList = some v → SpaceSeparated v ws → w ∈ ws →
    RefersTo root uri w
  names : ∀ n v, PartOf root n → n.attr "name".toList = some v → Lettered v
  /-- a type with a choice is given a name -/
  choices : ∀ c ∈ members root, ∀ m ∈ members c, ∀ n, PartOf m n → n.tag = "complexType".toList → ¬ ChoiceContent n

end Verif.Spec
