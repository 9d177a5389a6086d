import Verif.Rust.Float
import Verif.Rust.Unicode

/-!
# Standard library: `FromStr` and `Display` of `bool` and `f64`

Written from the documentation of the standard library (`impl FromStr for bool`, "Grammar" of
`impl FromStr for f64`) and the source of `core::num::dec2flt`.
-/

namespace Verif

/-- `bool::from_str`: the two keywords and nothing else. -/
def parseBool (s : Str) : Option Bool :=
  if s = "true".toList then some true
  else if s = "false".toList then some false
  else none

/-- A double, by the number whose nearest double it is: `± mant · 10 ^ exp`. -/
inductive F64 where
  | nan
  | inf (neg : Bool)
  | num (neg : Bool) (mant : Nat) (exp : Int)
  deriving DecidableEq, Repr

/-- `parse_inf_nan`: compared without regard to case. -/
def f64Word (neg : Bool) (s : Str) : Option F64 :=
  let l := s.map toAsciiLower
  if l = "nan".toList then some .nan
  else if l = "inf".toList then some (.inf neg)
  else if l = "infinity".toList then some (.inf neg)
  else none

/-- `parse_scientific`: the exponent, after its letter. -/
def f64Exp : Str → Option Int
  | '-' :: ds => (Str.parseDigits ds).map fun n : Nat => -(n : Int)
  | '+' :: ds => (Str.parseDigits ds).map fun n : Nat => (n : Int)
  | ds => (Str.parseDigits ds).map fun n : Nat => (n : Int)

/-- The digits after a point, and the rest. -/
def f64Frac : Str → Str × Str
  | '.' :: r => (r.takeWhile Str.isAsciiDigit, r.dropWhile Str.isAsciiDigit)
  | r => ([], r)

/-- The end of a number with `k` digits after the point: nothing or an exponent. -/
def f64Tail (neg : Bool) (m : Nat) (k : Int) : Str → Option F64
  | [] => some (.num neg m (-k))
  | c :: r => if c = 'e' ∨ c = 'E' then (f64Exp r).map fun e => .num neg m (e - k) else none

/-- `parse_number`: digits with at most one point among them, and an optional exponent. -/
def f64Number (neg : Bool) (s : Str) : Option F64 :=
  let ds := s.takeWhile Str.isAsciiDigit
  let fr := f64Frac (s.dropWhile Str.isAsciiDigit)
  if ds = [] ∧ fr.1 = [] then none
  else f64Tail neg (Str.digitsVal (ds ++ fr.1)) fr.1.length fr.2

/-- The text after the sign. -/
def f64Unsigned (neg : Bool) (s : Str) : Option F64 :=
  match f64Number neg s with
  | some v => some v
  | none => f64Word neg s

/-- `f64::from_str` (`dec2flt`): one optional sign, then a number or a word. -/
def parseF64 : Str → Option F64
  | '-' :: s => f64Unsigned true s
  | '+' :: s => f64Unsigned false s
  | s => f64Unsigned false s

/-- `Display` of `bool` -/
def showBool (b : Bool) : Str := if b then "true".toList else "false".toList

/-- The number `m · 10 ^ e`. -/
def scaled (m : Nat) (e : Int) : Rat := if 0 ≤ e then m * 10 ^ e.toNat else m / 10 ^ (-e).toNat

/-- `Display` of `f64` (`float_to_decimal_display`); `sh` writes the finite numbers which are not negative. -/
def showF64 (sh : Rat → Str) : F64 → Str
  | .nan => "NaN".toList
  | .inf b => (if b then ['-'] else []) ++ "inf".toList
  | .num b m e => (if b then ['-'] else []) ++ sh (Ieee.rnd (scaled m e))

end Verif
