import Verif.Spec.Syntax
import Verif.Spec.Generator
import Verif.Spec.Items

/-! # Specification: names which can stand in Rust code -/

namespace Verif.Spec.Syn

open Verif Verif.Model Verif.RoXml

/-- The text of a type. -/
def TypeText (s : List Char) : Prop := ∃ ts, Lexed s ts ∧ Ty ts

/-- The definitions for the entity itself (not for the entities inside it) are called like Rust definitions, and the types
it mentions are written like Rust types. -/
def WellNamed (N : Naming) : RsEntity → Prop
  | .struct s => LegalIdent (N.type s.name) ∧ (hasInner s.fields s.subtypes = true → LegalIdent (N.name s.name)) ∧
      ∀ f ∈ s.fields, .empty ∉ f.typeModifiers → LegalIdent (N.name f.name) ∧
        TypeText (N.type (if f.subtypes.isEmpty then f.typeName else N.name s.name ++ "::".toList ++ f.typeName))
  | .tupleStruct t => LegalIdent (N.type t.name) ∧ TypeText (N.type t.typeName)
  | .enum e => LegalIdent (N.type e.name) ∧ TypeText (N.type e.typeName) ∧
      ∀ c ∈ e.cases, LegalIdent (N.case c.name) ∧ ∀ t, c.typeName = some t → TypeText (N.type t)
  | .alias a => LegalIdent (N.type a.name) ∧ TypeText (N.type a.original)
  | .import _ => True
  | _ => True

/-! ## Names in a schema -/

/-- A name of ASCII characters which starts with a letter (after other characters than letters and digits) and does not have
the letters and digits of `Self` or `try`. -/
def PlainName (n : List Char) : Prop :=
  (∀ c ∈ n, c.toNat < 128) ∧ ':' ∉ n ∧ (∃ c cs, skeleton asciiAlnum n = c :: cs ∧ asciiLower c = true) ∧
  skeleton asciiAlnum n ≠ "self".toList ∧ skeleton asciiAlnum n ≠ "try".toList

/-- A plain name with or without a prefix which is a Rust identifier. -/
def PlainRef (v : List Char) : Prop := ∃ o n, Ref o n v ∧ PlainName n ∧ ∀ p, o = some p → LegalIdent p

/-- The names in a schema document are plain. -/
structure PlainNames (U : UnicodeTable) (root : Node) : Prop where
  /-- XML Schema has a prefix -/
  xsd : ∃ a ∈ root.namespaces, a.uri = "http://www.w3.org/2001/XMLSchema".toList ∧ a.name ≠ none
  names : ∀ n v, PartOf root n → n.attr "name".toList = some v → PlainName v
  refs : ∀ n a v, PartOf root n → a ∈ ["ref", "type", "base", "itemType"] → n.attr a.toList = some v → PlainRef v
  memberTypes : ∀ n v ws, PartOf root n → n.attr "memberTypes".toList = some v → SpaceSeparated v ws → ∀ w ∈ ws, PlainRef w
  /-- enumerated values of letters, digits and hyphens, which become cases -/
  values : ∀ n v, PartOf root n → n.tag = "enumeration".toList → n.attr "value".toList = some v → SimpleValue U v →
    (∀ c ∈ v, c.toNat < 128) ∧ ∃ c ∈ v, asciiAlnum c = true
  /-- global attributes are not references -/
  attributes : ∀ c ∈ members root, c.tag = "attribute".toList → c.attr "ref".toList = none
  /-- no list of an inline union -/
  lists : ∀ n c r, PartOf root n → n.tag = "list".toList → n.attr "itemType".toList = none → c ∈ members n →
    c.tag = "simpleType".toList → r ∈ members c → r.tag ≠ "union".toList

end Verif.Spec.Syn
