import Verif.Spec.Values
import Verif.Spec.Writes
import Verif.Model.Defaults

/-!
# Specification: default values

The values with which a program starts: what they are for the simple types of a schema, and what `default()` of the
generated types returns, given their definitions in the text.
-/

namespace Verif.Spec

open Verif Verif.Model RoXml

/-! ## The schema -/

/-- The initial value of a built-in type: nothing, no, zero, or the first of January of the year one at midnight. -/
inductive Initial : String → XVal → Prop where
  | text {n} : n ∈ textTypes → Initial n (.text [])
  | list {n} : n ∈ listTypes → Initial n (.list [])
  | boolean : Initial "boolean" (.bool false)
  | int {n} : n ∈ intTypes.map (·.1) → Initial n (.int 0)
  | decimal : Initial "decimal" (.dec 0)
  | double : Initial "double" (.double (.num false 0))
  | float : Initial "float" (.single (.num false 0))
  | date : Initial "date" (.date 1 1 1 none)
  | time : Initial "time" (.time 0 0 0 none)
  | dateTime : Initial "dateTime" (.dateTime 1 1 1 0 0 0 (some 0))
  | stamp : Initial "dateTimeStamp" (.dateTime 1 1 1 0 0 0 (some 0))
  | duration : Initial "duration" (.duration false 0 0 0 0 0 0)
  | gDay : Initial "gDay" (.gDay 1 none)
  | gMonth : Initial "gMonth" (.gMonth 1 none)
  | gMonthDay : Initial "gMonthDay" (.gMonthDay 1 1 none)
  | gYear : Initial "gYear" (.gYear 1 none)
  | gYearMonth : Initial "gYearMonth" (.gYearMonth 1 1 none)

/-- The built-in types whose texts are never empty, and those whose lists are never empty (XML Schema 1.1 part 2, 3.3 and
3.4). -/
def nonEmptyTypes : List String :=
  ["language", "Name", "NCName", "ENTITY", "ID", "IDREF", "NMTOKEN", "QName", "NOTATION", "ENTITIES", "IDREFS", "NMTOKENS"]

/-- `x` is a value of the built-in type: it has a literal; names, tokens and lists of them have at least one character or
item. -/
def IsValue (n : String) (x : XVal) : Prop :=
  (∃ s, Literal n s x) ∧ (n ∈ nonEmptyTypes → x ≠ .text [] ∧ x ≠ .list [])

/-- The initial value of the simple type referred to by `r`: that of the built-in type at the bottom of the restrictions,
no items for a list.  Left out are restrictions to an enumeration of names, unions, and inline base types. -/
inductive InitialOf (U : UnicodeTable) (root : Node) (uri : List Char) : List Char → XVal → Prop where
  | builtin {n r x} : DenotesXsd root n r → Initial n x → InitialOf U root uri r x
  | restriction {r c nm d b fs x} : Denotes root uri nm r → SimpleDecl root c nm d → d.tag = "restriction".toList →
      d.attr "base".toList = some b → FacetsOf d.tag d.children fs →
      (enumValues fs = [] ∨ ∃ v ∈ enumValues fs, ¬ SimpleValue U v.1) → InitialOf U root uri b x → InitialOf U root uri r x
  | list {r c nm d it} : Denotes root uri nm r → SimpleDecl root c nm d → d.tag = "list".toList →
      d.attr "itemType".toList = some it → Known root uri it → InitialOf U root uri r (.list [])

/-! ## The generated types -/

/-- The default value of a field of this type, in a wrapper. -/
inductive FieldDefault (D : List Char → RVal) : List Char → RVal → Prop where
  | text {s} : D "String".toList = .lib (.text s) → FieldDefault D "String".toList (.text s)
  | vec {ty} : FieldDefault D ("Vec<".toList ++ ty ++ ">".toList) (D ("Vec<".toList ++ ty ++ ">".toList))
  | one {ty} : ty ≠ "String".toList → (∀ t, ty ≠ "Vec<".toList ++ t ++ ">".toList) → FieldDefault D ty (.one (D ty))

/-- `D` is `default()` of the types at the top level: library types have their own, unless the name is defined in the code;
a vector starts without items; a wrapper which derives `Default` starts with the default of the type it wraps. -/
structure Defaults (D : List Char → RVal) (L : Lib) (is : List Item) : Prop where
  lib : ∀ ty v, libDefault L ty = some (.ok v) → ¬ InScope is [] ty → D ty = .lib v
  vec : ¬ InScope is [] "Vec".toList → ∀ ty, D ("Vec<".toList ++ ty ++ ">".toList) = .many []
  tuple : ∀ i ∈ is, i.path = [] → "Default".toList ∈ i.attrs.flatMap derived → ∀ n ty, readTuple i.head = some (n, ty) →
    ∀ v, FieldDefault D ty v → D n = v

/-- A text literal can be converted with `into()` to the type which is written as `ty` in the module `p`: it stands for
`String` of the standard library, or there is an implementation in the code.  No other library type which is used has one. -/
def FromText (is : List Item) (p : List (List Char)) (ty : List Char) : Prop :=
  ∃ ty', StandsFor is p ty ty' ∧
    ((¬ InScope is p ty' ∧ ty' = "String".toList) ∨ ∃ q, q <+: p ∧ (q, ty', "From<&str>".toList) ∈ implementations is)

end Verif.Spec
