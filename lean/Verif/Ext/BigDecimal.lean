import Verif.Ext.NumBigint

/-!
# External: `bigdecimal` 0.4.3, parsing, printing and comparing

Trusted transcription of `BigDecimal::from_str` and of `Display` (the crate is not in this sandbox).  `Display`
writes the number out in full, or with an exponent if too many zeros would be needed; where the border is depends on
settings made when the crate is built, so the choice is a parameter here.
-/

namespace Verif.BigDecimal

open Verif NumBigint

/-- `int * 10^(-scale)`; the scale is an `i64`. -/
structure Dec where
  int : Int
  scale : Int
  deriving DecidableEq, Repr

abbrev i64Min : Int := -9223372036854775808
abbrev i64Max : Int := 9223372036854775807
abbrev i128Min : Int := -170141183460469231731687303715884105728
abbrev i128Max : Int := 170141183460469231731687303715884105727

/-- The text up to the first character with the property, and what follows that character. -/
def splitFirst (p : Char → Bool) : Str → Option (Str × Str)
  | [] => none
  | c :: cs => if p c then some ([], cs) else (splitFirst p cs).map fun r => (c :: r.1, r.2)

/-- The digits of a number with at most one point, and how many are after it; underscores do not count. -/
def mantissa (base : Str) : Str × Nat :=
  match splitFirst (· == '.') base with
  | none => (base, 0)
  | some (lead, trail) => (lead ++ trail, (trail.filter (· != '_')).length)

/-- `BigDecimal::from_str` -/
def parse (s : Str) : Option Dec :=
  let be : Option (Str × Int) :=
    match splitFirst (fun c => c == 'e' || c == 'E') s with
    | none => some (s, 0)
    | some (base, e) => (Str.parseSigned i128Min i128Max e).map fun x => (base, x)
  be.bind fun (base, x) =>
    if base = [] then none
    else
      let scale : Int := (mantissa base).2 - x
      if i128Min ≤ scale ∧ scale ≤ i128Max ∧ i64Min ≤ scale ∧ scale ≤ i64Max then
        (parseBigInt (mantissa base).1).map fun v => ⟨v, scale⟩
      else none

/-- Sign of a number. -/
def showSign (v : Int) : Str := if v < 0 then ['-'] else []

/-- All digits, with a point if the scale is positive. -/
def showFull (d : Dec) : Str :=
  let ds := showBigUint d.int.natAbs
  if d.scale ≤ 0 then showSign d.int ++ ds ++ List.replicate d.scale.natAbs '0'
  else if d.scale.natAbs < ds.length then
    showSign d.int ++ ds.take (ds.length - d.scale.natAbs) ++ '.' :: ds.drop (ds.length - d.scale.natAbs)
  else showSign d.int ++ '0' :: '.' :: (List.replicate (d.scale.natAbs - ds.length) '0' ++ ds)

/-- `{:+}` of an integer -/
def showPlus (v : Int) : Str := if v < 0 then '-' :: Str.natStr v.natAbs else '+' :: Str.natStr v.natAbs

/-- One digit before the point, and an exponent. -/
def showExp (d : Dec) : Str :=
  let ds := showBigUint d.int.natAbs
  showSign d.int ++ ds.take 1 ++ (if ds.length = 1 then [] else '.' :: ds.drop 1) ++
    'E' :: showPlus (ds.length - 1 - d.scale)

/-- `Display`; `expo` says when an exponent is used. -/
def display (expo : Dec → Bool) (d : Dec) : Str := if expo d then showExp d else showFull d

/-- `Ord`: compare the integers after bringing them to the larger scale. -/
def cmp (a b : Dec) : Ordering :=
  if a.scale ≤ b.scale then compare (a.int * 10 ^ (b.scale - a.scale).toNat) b.int
  else compare a.int (b.int * 10 ^ (a.scale - b.scale).toNat)

end Verif.BigDecimal
