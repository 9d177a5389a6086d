import Mathlib.Logic.Relation
import Mathlib.Data.List.Infix
import Verif.Spec.Traits

/-!
# Specification: types which contain each other

A type which contains itself, not behind a `Vec` or `Box`, has no finite size, and the compiler refuses it.
-/

namespace Verif.Spec

open Verif Verif.Model

/-- The types in the members of a struct or enum, as they are written. -/
def memberTypes (i : Item) : List (List Char) :=
  match readHead i.head with
  | some (.struct, _) =>
    match afterPrefix "(pub ".toList ((i.head.dropWhile (· ≠ '(')).takeWhile (· ≠ ')')) with
    | some t => [t]
    | none => (readFieldLines none i.body).filterMap (·.type)
  | some (.enum, _) => (readCaseLines none i.body).filterMap (·.type)
  | _ => []

/-- `m`, or an option of it. -/
def byValue (m : List Char) : List (List Char) := [m, "Option<".toList ++ (m ++ ">".toList)]

/-- A struct or enum of this name is defined in this module. -/
def Defined (is : List Item) (q : List (List Char)) (m : List Char) : Prop := ∃ i ∈ is, i.path = q ∧ DefinesType i m

instance (is : List Item) (q : List (List Char)) (m : List Char) : Decidable (Defined is q m) := by
  unfold Defined; infer_instance

/-- In the module `p`, the text means the type `m` of the module `q`: it is in a module inside, or in the nearest of the
modules around (each of which starts with `use super::*;`). -/
inductive Means (is : List Item) (p : List (List Char)) : List Char → List (List Char) × List Char → Prop where
  | inner {md m} : Defined is (p ++ [md]) m → Means is p (md ++ ("::".toList ++ m)) (p ++ [md], m)
  | outer {q m} : q ∈ p.inits → Defined is q m → (∀ q' ∈ p.inits, q.length < q'.length → ¬ Defined is q' m) →
      Means is p m (q, m)

/-- The first type has a value of the second type inside. -/
def Contains (is : List Item) (x y : List (List Char) × List Char) : Prop :=
  ∃ i ∈ is, i.path = x.1 ∧ DefinesType i x.2 ∧ ∃ t, Means is x.1 t y ∧ ∃ w ∈ byValue t, w ∈ memberTypes i

/-- A value of this type has another one inside. -/
def Infinite (is : List Item) (x : List (List Char) × List Char) : Prop := Relation.TransGen (Contains is) x x

end Verif.Spec
