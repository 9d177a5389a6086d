import Verif.Model.Macros
import Mathlib.Data.List.Forall2

/-!
# Specification: on which items the derive macros expand
-/

namespace Verif.Spec

open Verif Verif.Model

/-- The path is one to the vectors of Rust, with this argument. -/
def VecOf (p : RPath) (arg : Option RPath) : Prop := ∃ qs, p = .mk qs "Vec".toList arg

/-- The item is a tuple struct whose first field has this path as its type. -/
def TupleOf (d : Data) (p : RPath) : Prop := ∃ ts, d = .struct (.unnamed (.path p :: ts))

/-- A single value or a vector of single values. -/
def FlatType (p : RPath) : Prop := ∀ arg, VecOf p arg → ∃ q, arg = some q ∧ ∀ a, ¬ VecOf q a

/-- A vector of vectors of something. -/
def NestedVec (p : RPath) : Prop := ∃ q a, VecOf p (some q) ∧ VecOf q (some a)

/-- A vector, or a vector of vectors, of which it is not said of what. -/
def UnknownVec (p : RPath) : Prop := VecOf p none ∨ ∃ q, VecOf p (some q) ∧ VecOf q none

/-- The variants of the enum which have values, with the type of the first. -/
def UnionOf (d : Data) (ms : List (List Char × RType)) : Prop :=
  ∃ vs, d = .enum vs ∧ List.Forall₂ (fun v m => v.1 = m.1 ∧ ∃ ts, v.2 = .unnamed (m.2 :: ts))
    (vs.filter fun v => v.1 ≠ "__Unknown__".toList) ms

end Verif.Spec
