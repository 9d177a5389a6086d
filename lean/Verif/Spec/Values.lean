import Verif.Spec.Builtin
import Verif.Spec.GenNames
import Verif.Spec.Checks
import Verif.Spec.Document

/-!
# Specification: values of the simple types of a schema, and of the generated types

Which texts denote which values of a simple type according to the schema, before its facets; and what the types in the
generated code read, given their definitions in the text.
-/

namespace Verif.Spec

open Verif Verif.Model RoXml

/-! ## The schema -/

def xmlSchemaUri : List Char := "http://www.w3.org/2001/XMLSchema".toList

/-- According to the declared prefixes, `r` stands for the built-in type `n`. -/
def DenotesXsd (root : Node) (n : String) (r : List Char) : Prop :=
  ∃ a ∈ root.namespaces, a.uri = xmlSchemaUri ∧ Ref a.name n.toList r

/-- The built-in types which are lists. -/
def listTypes : List String := ["ENTITIES", "IDREFS", "NMTOKENS"]

/-- `r` refers to a built-in type of the table, or to a global declaration of the schema. -/
def Known (root : Node) (uri r : List Char) : Prop :=
  (∃ row ∈ readmeTable ++ undocumentedTable, DenotesXsd root row.1 r) ∨
  ∃ nm c, Denotes root uri nm r ∧ c ∈ globals root ∧ c.attr "name".toList = some nm

/-- The text `s` denotes `x` in the simple type referred to by `r`, facets left aside; `Lit` are the literals of the
built-in types.  Left out are restrictions to an enumeration of names, unions, and types with inline base or item types. -/
inductive ValueOf (U : UnicodeTable) (root : Node) (uri : List Char) (Lit : String → List Char → XVal → Prop) :
    List Char → List Char → XVal → Prop where
  | builtin {n r s x} : DenotesXsd root n r → Lit n s x → ValueOf U root uri Lit r s x
  | restriction {r c nm d b fs s x} : Denotes root uri nm r → SimpleDecl root c nm d → d.tag = "restriction".toList →
      d.attr "base".toList = some b → FacetsOf d.tag d.children fs →
      (enumValues fs = [] ∨ ∃ v ∈ enumValues fs, ¬ SimpleValue U v.1) →
      ValueOf U root uri Lit b s x → ValueOf U root uri Lit r s x
  | list {r c nm d it s ts xs} : Denotes root uri nm r → SimpleDecl root c nm d → d.tag = "list".toList →
      d.attr "itemType".toList = some it → Known root uri it →
      (∀ n ∈ listTypes, ¬ DenotesXsd root n it) → Words s ts → ts.length = xs.length →
      (∀ (i : Nat) t x, ts[i]? = some t → xs[i]? = some x → ValueOf U root uri Lit it t x) →
      ValueOf U root uri Lit r s (.list xs)

/-- `r` refers to the built-in type `n`, or to a restriction of such a type. -/
inductive Restricts (U : UnicodeTable) (root : Node) (uri : List Char) : List Char → String → Prop where
  | builtin {n r} : DenotesXsd root n r → Restricts U root uri r n
  | restriction {r c nm d b fs n} : Denotes root uri nm r → SimpleDecl root c nm d → d.tag = "restriction".toList →
      d.attr "base".toList = some b → FacetsOf d.tag d.children fs →
      (enumValues fs = [] ∨ ∃ v ∈ enumValues fs, ¬ SimpleValue U v.1) → Restricts U root uri b n → Restricts U root uri r n

/-- What has to hold of the document: prefixes and namespaces are declared once, the one of XML Schema has a prefix, the
target namespace is another one, names have no colon. -/
structure PlainNames (root : Node) (uri : List Char) : Prop where
  prefixes : UniquePrefixes root
  uris : ∀ a ∈ root.namespaces, ∀ b ∈ root.namespaces, a.uri = b.uri → a = b
  xsd : ∃ a ∈ root.namespaces, a.uri = xmlSchemaUri ∧ a.name ≠ none
  target : uri ≠ xmlSchemaUri
  names : ∀ c ∈ globals root, ∀ nm, c.attr "name".toList = some nm → ':' ∉ nm

/-! ## The generated types -/

/-- Values: of library types, and of wrappers around a text, another value or a vector. -/
inductive RVal where
  | lib (v : LibVal)
  | text (s : List Char)
  | one (v : RVal)
  | many (vs : List RVal)

def RVal.ofTup : TupVal RVal → RVal
  | .text s => .text s
  | .one v => .one v
  | .many vs => .many vs

/-- The value is the XSD value. -/
inductive Represents : RVal → XVal → Prop where
  | lib {v x} : Carries v x → Represents (.lib v) x
  | text {s} : Represents (.text s) (.text s)
  | one {v x} : Represents v x → Represents (.one v) x
  | many {vs xs} : vs.length = xs.length → (∀ (i : Nat) v x, vs[i]? = some v → xs[i]? = some x → Represents v x) →
      Represents (.many vs) (.list xs)

/-- The text of a path. -/
def pathText : RPath → List Char
  | .mk qs i none => qs.flatMap (· ++ "::".toList) ++ i
  | .mk qs i (some a) => qs.flatMap (· ++ "::".toList) ++ i ++ "<".toList ++ pathText a ++ ">".toList

/-- The segments of a path have no spaces and signs in them. -/
def PlainPath : RPath → Prop
  | .mk qs i none => ∀ w ∈ i :: qs, ∀ c ∈ w, c ∉ ":<> ()".toList
  | .mk qs i (some a) => (∀ w ∈ i :: qs, ∀ c ∈ w, c ∉ ":<> ()".toList) ∧ PlainPath a

/-- The path written as `ty`. -/
def PathOf (ty : List Char) (p : RPath) : Prop := PlainPath p ∧ pathText p = ty

/-- `FromStr` of the types, by the text of the type. -/
def envOf (R : List Char → List Char → Res RVal) : TypeEnv RVal := ⟨fun p s => R (pathText p) s, fun _ _ => []⟩

/-- The name and the wrapped type in a line `pub struct … (pub …);`. -/
def readTuple (l : List Char) : Option (List Char × List Char) :=
  match afterPrefix "pub struct ".toList l with
  | none => none
  | some r =>
    match afterPrefix (r.takeWhile (· ≠ ' ') ++ " (pub ".toList) r with
    | none => none
    | some r' => some (r.takeWhile (· ≠ ' '), r'.takeWhile (· ≠ ')'))

/-- `R` is `from_str` of the types at the top level: library types are read by their own `from_str`, unless the name is
defined in the code; a wrapper which derives `UtilsTupleIo` is read as the expansion of the macro says. -/
structure Implements (R : List Char → List Char → Res RVal) (L : Lib) (is : List Item) : Prop where
  lib : ∀ ty f, libFromStr L ty = some f → ¬ InScope is [] ty → ∀ s, R ty s = (f s).map .lib
  tuple : ∀ i ∈ is, i.path = [] → "UtilsTupleIo".toList ∈ i.attrs.flatMap derived → ∀ n ty, readTuple i.head = some (n, ty) →
    ∀ p f, PathOf ty p → tupleFromStr (envOf R) p = .ok f → ∀ s, R n s = (f s).map .ofTup

/-- The names which the macros treat as types of the standard library, and the library types. -/
def reservedNames : List String :=
  ["String", "Vec", "bool", "i8", "u8", "i16", "u16", "i32", "u32", "i64", "u64", "f32", "f64", "xs::Integer",
   "xs::NonNegativeInteger", "xs::PositiveInteger", "xs::NonPositiveInteger", "xs::NegativeInteger", "xs::Decimal",
   "xs::Date", "xs::Time", "xs::DateTime", "xs::DateTimeStamp", "xs::Duration", "xs::GDay", "xs::GMonth", "xs::GMonthDay",
   "xs::GYear", "xs::GYearMonth"]

/-- A field of this type, in a wrapper, reads the text as the value. -/
def FieldReads (R : List Char → List Char → Res RVal) (ty s : List Char) (x : XVal) : Prop :=
  ∃ p f v, PathOf ty p ∧ tupleFromStr (envOf R) p = .ok f ∧ f s = .ok v ∧ Represents (.ofTup v) x

/-- A line of an enum, as the macros see it. -/
def VariantOf (m : Member) (v : Variant) : Prop :=
  v.ident = m.name ∧ ((m.type = none ∧ v.ty = none) ∨ ∃ ty p, m.type = some ty ∧ v.ty = some p ∧ PathOf ty p)

end Verif.Spec
