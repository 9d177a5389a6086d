import Verif.Model.Macros
import Verif.Spec.Closed

/-!
# Specification: what the derive macros see of the generated code

The text of an item is taken apart into what the macros get: a struct with its fields or an enum with its variants.
-/

namespace Verif.Spec

open Verif Verif.Model Verif.RoXml

/-- Letters, digits and underscores. -/
def wordChar (c : Char) : Bool := asciiAlnum c || c = '_'

/-- The segments of a path. -/
def splitPath : List Char → List (List Char)
  | [] => [[]]
  | ':' :: ':' :: cs => [] :: splitPath cs
  | c :: cs =>
    match splitPath cs with
    | [] => [[c]]
    | p :: ps => (c :: p) :: ps

/-- The path of these segments, if all of them are words. -/
def pathOfSegments (ws : List (List Char)) (arg : Option RPath) : Option RPath :=
  if ws.all (fun w => decide (w ≠ []) && w.all wordChar) then ws.getLast?.map fun i => .mk ws.dropLast i arg else none

/-- The path written as the text: words with `::` between them, and a path in angle brackets. Of brackets with nothing or
anything else in them only the word before is kept, as by the macros. -/
def readPath : Nat → List Char → Option RPath
  | 0, _ => none
  | k + 1, t =>
    match t.dropWhile (· ≠ '<') with
    | [] => pathOfSegments (splitPath t) none
    | _ :: r =>
      if r.getLast? = some '>' then pathOfSegments (splitPath (t.takeWhile (· ≠ '<'))) (readPath k r.dropLast) else none

/-- The type written as the text. -/
def readType (t : List Char) : RType :=
  match readPath (t.length + 1) t with
  | some p => .path p
  | none => .other

/-- What a macro sees of a variant. -/
def macroVariant (m : Member) : List Char × Fields :=
  (m.name, match m.type with | some t => .unnamed [readType t] | none => .unit)

/-- What a macro sees of an item. -/
def macroInput (i : Item) : Data :=
  match readHead i.head with
  | some (.enum, _) =>
    .enum ((readCaseLines none i.body).map macroVariant)
  | _ =>
    match readTuple i.head with
    | some (_, t) => .struct (.unnamed [readType t])
    | none => .struct (.named ((readFieldLines none i.body).map fun m => (m.type.map readType).getD .other))

/-- The macro is among the derived traits. -/
def Derives (i : Item) (m : String) : Prop := m.toList ∈ i.attrs.flatMap derived

/-! ## Schemas -/

/-- Lists are lists of single values: their items are no built-in lists, and inside their inline types there are neither lists
nor unions. -/
structure FlatLists (root : Node) : Prop where
  items : ∀ n v, PartOf root n → n.attr "itemType".toList = some v → ∀ l ∈ listTypes, ¬ DenotesXsd root l v
  bases : ∀ n m v, PartOf root n → n.tag = "list".toList → PartOf n m → m.attr "base".toList = some v →
    ∀ l ∈ listTypes, ¬ DenotesXsd root l v
  inside : ∀ n d m, PartOf root n → n.tag = "list".toList → d ∈ members n → PartOf d m →
    m.tag ∉ ["list", "union"].map String.toList

/-- No declaration is called like the vectors of Rust. -/
def NoVec (tn : List Char → List Char) (root : Node) : Prop :=
  ∀ c ∈ globals root, ∀ v, c.attr "name".toList = some v → tn v ≠ "Vec".toList

end Verif.Spec
