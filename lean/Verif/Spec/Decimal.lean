import Verif.Spec.Integers
import Mathlib.Algebra.Field.Rat

/-!
# Specification: decimal texts

Written from XSD 1.0 part 2, 3.2.3: an optional sign and digits with at most one point, at least one digit.
-/

namespace Verif.Spec

/-- The number `v * 10^(-scale)`. -/
def decQ (v scale : Int) : ℚ := v * 10 ^ (-scale)

/-- XSD decimal text with the digits `ds` before the point and `fs` after it. -/
inductive XsdDec : List Char → Sign → List Nat → List Nat → Prop where
  | whole {sg ds} : Digits1 ds → XsdDec (sg.text ++ dtext ds) sg ds []
  | point {sg ds fs} : Digits ds → Digits fs → ds ++ fs ≠ [] → XsdDec (sg.text ++ dtext ds ++ '.' :: dtext fs) sg ds fs

/-- The number such a text denotes. -/
def xsdDecVal (sg : Sign) (ds fs : List Nat) : ℚ := decQ (sg.apply (decVal (ds ++ fs))) fs.length

/-! ## The language of the parser -/

/-- Number before the exponent: without a point, or with one anywhere, even before the sign.  The characters after the
point count, except underscores. -/
inductive Mantissa : List Char → Int → Nat → Prop where
  | whole {s sg v} : UIntText s sg v → Mantissa s v 0
  | point {a b sg v} : UIntText (a ++ b) sg v → Mantissa (a ++ '.' :: b) v (b.countP (· ≠ '_'))

/-- Exponent: nothing, or `e` or `E` and an integer of at most 128 bits. -/
inductive Exponent : List Char → Int → Prop where
  | none : Exponent [] 0
  | some {c s sg x} : c = 'e' ∨ c = 'E' → XsdInt s sg x → -2 ^ 127 ≤ x → x < 2 ^ 127 → Exponent (c :: s) x

/-- The texts the parser accepts. -/
def DecText (s : List Char) (v scale : Int) : Prop :=
  ∃ m e n x, s = m ++ e ∧ Mantissa m v n ∧ Exponent e x ∧ scale = n - x ∧ -2 ^ 63 ≤ scale ∧ scale < 2 ^ 63

end Verif.Spec
