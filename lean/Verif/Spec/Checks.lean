import Verif.Spec.Traits

/-!
# Specification: the operations which the checks use

A check compares the wrapped value with a literal or asks for its length. Rust accepts it when the wrapped type has the
operations in it: comparison, reading from a text and printing (the message contains the value), or `len`.
-/

namespace Verif.Spec

open Verif Verif.Model

inductive CheckOp where
  /-- `<`, `<=`, `>`, `>=`: `PartialOrd` -/
  | compare
  /-- `parse`: `FromStr` -/
  | parse
  /-- `{}` in `format!`: `Display` -/
  | print
  /-- `len()` -/
  | len
  deriving DecidableEq, Repr

/-- What the statement for a condition uses. -/
def Cond.needs : Cond → List CheckOp
  | .value _ _ _ => [.compare, .parse, .print]
  | .length _ _ => [.len]

/-- The Rust types for which there is an order, and values can be read and printed: primitive types and those of
`xsd-types` which derive `PartialOrd`. -/
def orderedTypes : List String :=
  ["String", "bool", "i8", "i16", "i32", "i64", "u8", "u16", "u32", "u64", "f64", "xs::Integer", "xs::NonNegativeInteger",
   "xs::PositiveInteger", "xs::NonPositiveInteger", "xs::NegativeInteger", "xs::Decimal", "xs::DateTime", "xs::DateTimeStamp",
   "xs::Duration"]

/-- Those of `xsd-types` which only can be read and printed. -/
def unorderedTypes : List String :=
  ["xs::Date", "xs::Time", "xs::GDay", "xs::GMonth", "xs::GMonthDay", "xs::GYear", "xs::GYearMonth"]

/-- The types with a length. -/
def sizedTypes : List String := ["String", "Vec<String>"]

/-- The operations of the types which are not defined in the generated code. A vector of strings can be compared, but
neither read nor printed. -/
def LibraryHas (ty : List Char) : CheckOp → Prop
  | .compare => ty ∈ (orderedTypes ++ ["Vec<String>"]).map String.toList
  | .parse => ty ∈ (orderedTypes ++ unorderedTypes).map String.toList
  | .print => ty ∈ (orderedTypes ++ unorderedTypes).map String.toList
  | .len => ty ∈ sizedTypes.map String.toList

/-- The operation which a trait gives. -/
def traitGives (tr : List Char) : Option CheckOp :=
  if tr = "PartialOrd".toList then some .compare
  else if tr = "FromStr".toList then some .parse
  else if tr = "Display".toList then some .print
  else none

/-- The name and the target in a line `pub type … = …;`. -/
def readAlias (l : List Char) : Option (List Char × List Char) :=
  match afterPrefix "pub type ".toList l with
  | none => none
  | some r =>
    match afterPrefix (r.takeWhile (· ≠ ' ') ++ " = ".toList) r with
    | none => none
    | some r' => some (r.takeWhile (· ≠ ' '), r'.takeWhile (· ≠ ';'))

/-- A type or alias `n` is defined in the module `p` or around it (every module starts with `use super::*;`). -/
def InScope (is : List Item) (p : List (List Char)) (n : List Char) : Prop :=
  ∃ i ∈ is, i.path <+: p ∧ (DefinesType i n ∨ readHead i.head = some (.type, n))

/-- In the module `p` the name `a` stands for the type `b`, following aliases. -/
inductive StandsFor (is : List Item) (p : List (List Char)) : List Char → List Char → Prop where
  | refl {a} : StandsFor is p a a
  | step {a b c i} : i ∈ is → i.path <+: p → readAlias i.head = some (a, b) → StandsFor is p b c → StandsFor is p a c

/-- The type `ty` has the operation in the module `p`: by an implementation in the code, or from the library if the name is
not defined in the code. -/
def Offers (is : List Item) (p : List (List Char)) (ty : List Char) (op : CheckOp) : Prop :=
  (∃ q tr, q <+: p ∧ (q, ty, tr) ∈ implementations is ∧ traitGives tr = some op) ∨ (¬ InScope is p ty ∧ LibraryHas ty op)

/-- It stands for one of these library types. -/
def IsOneOf (is : List Item) (p : List (List Char)) (ty : List Char) (tys : List String) : Prop :=
  ∃ ty', StandsFor is p ty ty' ∧ ¬ InScope is p ty' ∧ ty' ∈ tys.map String.toList

/-- The type which is written as `ty` in the module `p` has all operations which the checks use. -/
def AllOffered (is : List Item) (p : List (List Char)) (ty : List Char) (cs : List Cond) : Prop :=
  ∀ c ∈ cs, ∃ ty', StandsFor is p ty ty' ∧ ∀ op ∈ c.needs, Offers is p ty' op

/-- A bound among the facets. -/
def HasBound (fs : List Facet) : Prop := ∃ f ∈ fs, ∃ b, facetBound f.facetType = some b

/-- A length among the facets, other than the minimum 0. -/
def HasLength (fs : List Facet) : Prop := ∃ f ∈ fs, ∃ t n, facetLength f.facetType = some t ∧ U32Text t n ∧ ¬ Unchecked f.facetType

end Verif.Spec
