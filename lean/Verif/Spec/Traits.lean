import Verif.Spec.Items

/-!
# Specification: the traits of the generated types

Which implementations the text has, by `derive` or as items of their own, and which there should be.
-/

namespace Verif.Spec

open Verif Verif.Model

/-! ## Reading -/

/-- The item defines the struct or enum `n`. -/
def DefinesType (i : Item) (n : List Char) : Prop :=
  readHead i.head = some (.struct, n) ∨ readHead i.head = some (.enum, n)

instance (i : Item) (n : List Char) : Decidable (DefinesType i n) := by unfold DefinesType; infer_instance

def splitComma : List Char → List (List Char)
  | [] => [[]]
  | c :: cs =>
    if c = ',' then [] :: splitComma cs
    else
      match splitComma cs with
      | [] => [[c]]
      | p :: ps => (c :: p) :: ps

/-- The names in an attribute `#[derive(…)]`. -/
def derived (a : List Char) : List (List Char) :=
  match afterPrefix "#[derive(".toList a with
  | none => []
  | some r => (splitComma (r.takeWhile (· ≠ ')'))).map dropSpaces

/-- The traits which a derive macro implements; the macros of `xsd-macro-utils` have names of their own. -/
def macroTraits (m : List Char) : List (List Char) :=
  if m = "UtilsTupleIo".toList then ["FromStr".toList, "Display".toList]
  else if m = "UtilsDefaultSerde".toList ∨ m = "UtilsUnionSerDe".toList then ["YaSerialize".toList, "YaDeserialize".toList]
  else [m]

/-- The trait and the type of a line `impl … for … {`. -/
def readImpl (l : List Char) : Option (List Char × List Char) :=
  match afterPrefix "impl ".toList l with
  | none => none
  | some r =>
    match afterPrefix (r.takeWhile (· ≠ ' ') ++ " for ".toList) r with
    | none => none
    | some r' => some (r.takeWhile (· ≠ ' '), r'.takeWhile (· ≠ ' '))

/-- The types and traits which an item implements. -/
def provides (i : Item) : List (List Char × List Char) :=
  match readHead i.head with
  | some (.struct, n) => ((i.attrs.flatMap derived).flatMap macroTraits).map (n, ·)
  | some (.enum, n) => ((i.attrs.flatMap derived).flatMap macroTraits).map (n, ·)
  | some _ => []
  | none =>
    match readImpl i.head with
    | some (tr, n) => [(n, tr)]
    | none => []

/-- All implementations: in which module, of which type, of which trait. -/
def implementations (is : List Item) : List (List (List Char) × List Char × List Char) :=
  is.flatMap fun i => (provides i).map (i.path, ·)

/-! ## What is expected -/

/-- The name of the type which is defined for an entity. -/
def typeName? : RsEntity → Option (List Char)
  | .struct (.mk n _ _ _ _) => some n
  | .tupleStruct (.mk n _ _ _ _ _) => some n
  | .enum (.mk n _ _ _ _ _) => some n
  | _ => none

/-- The traits which the type for an entity implements. All types can be compared, printed, validated, have a default and
can be written to and read from XML; values of simple types can be written to and read from a text; a union cannot be
cloned. -/
def traitsOf : RsEntity → List (List Char)
  | .struct _ => ["Default".toList, "Clone".toList, "PartialEq".toList, "Debug".toList, "YaSerialize".toList,
      "YaDeserialize".toList, "Validate".toList]
  | .tupleStruct _ => ["Default".toList, "Clone".toList, "PartialEq".toList, "Debug".toList, "FromStr".toList, "Display".toList,
      "YaSerialize".toList, "YaDeserialize".toList, "Validate".toList]
  | .enum (.mk _ _ _ _ _ src) => (if src = .union then [] else ["Clone".toList]) ++
      ["PartialEq".toList, "Debug".toList, "YaSerialize".toList, "YaDeserialize".toList, "Default".toList, "Validate".toList]
  | _ => []

/-- The implementations for an entity with this path. -/
def expectedImpls (tn : List Char → List Char) (x : List (List Char) × Origin) :
    List (List (List Char) × List Char × List Char) :=
  match x.2 with
  | .entity e =>
    match typeName? e with
    | some n => (traitsOf e).map (x.1, tn n, ·)
    | none => []
  | _ => []

end Verif.Spec
