import Verif.Spec.GenNames
import Mathlib.Data.List.Forall2

/-!
# Specification: names of several words
-/

namespace Verif.Spec

/-- A word of lower-case letters. -/
def LowerWord (w : List Char) : Prop := w ≠ [] ∧ ∀ c ∈ w, 'a' ≤ c ∧ c ≤ 'z'

/-- The text consists of the words, between which there are hyphens, underscores, dots and spaces. -/
inductive Separated : List Char → List (List Char) → Prop where
  | one {w} : LowerWord w → Separated w [w]
  | more {w s t ws} : LowerWord w → s ≠ [] → (∀ c ∈ s, c ∈ "-_. ".toList) → Separated t ws → Separated (w ++ (s ++ t)) (w :: ws)

/-- The word with a capital letter. -/
inductive Capital : List Char → List Char → Prop where
  | mk {c d cs} : c.toNat = d.toNat + 32 → Capital (c :: cs) (d :: cs)

/-- The text consists of the words without separators, each but perhaps the first with a capital letter; no word is a single letter. -/
inductive Humps : List Char → List (List Char) → Prop where
  | mk {w v ws vs} : v = w ∨ Capital w v → List.Forall₂ Capital ws vs → (∀ x ∈ w :: ws, LowerWord x ∧ 2 ≤ x.length) →
      Humps (v ++ vs.flatten) (w :: ws)

/-- The words of a text, in any of these styles. -/
def Worded (t : List Char) (ws : List (List Char)) : Prop := Separated t ws ∨ Humps t ws

/-- Capital letters. -/
def UpperRun (w : List Char) : Prop := w ≠ [] ∧ ∀ c ∈ w, 'A' ≤ c ∧ c ≤ 'Z'

end Verif.Spec
