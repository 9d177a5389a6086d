import Mathlib.Data.Rat.Defs
import Verif.Spec.DateTime
import Verif.Spec.Validate

/-!
# Specification: the order of date-times and durations

Written from XML Schema part 2: date-times by their place on the time line (the formula of XSD 1.1, E.3.4), durations
by what they give when added to four reference dates (XSD 1.0, 3.2.6.2).
-/

namespace Verif.Spec

open Verif Verif.Model

/-- Number of days of a month. -/
def monthDays (y : Int) (m : Nat) : Nat :=
  if m = 2 then (if (y % 4 = 0 ∧ y % 100 ≠ 0) ∨ y % 400 = 0 then 29 else 28) else maxDay m

/-- Number of days in the years before `y`, from year 1 on. -/
def yearStart (y : Int) : Int := 365 * (y - 1) + (y - 1) / 4 - (y - 1) / 100 + (y - 1) / 400

/-- Number of the day on the time line. -/
def dayNumber (y : Int) (m d : Nat) : Int :=
  yearStart y + ((List.range (m - 1)).map fun k => (monthDays y (k + 1) : Int)).sum + d

/-- Place on the time line in seconds, fractions left out; `off` is the offset of the local time from UTC in seconds. -/
def timeline (y : Int) (m d hh mm ss : Nat) (off : Int) : Int :=
  86400 * dayNumber y m d + 3600 * hh + 60 * mm + ss - off

/-- Number of the first day of a month, months being counted from January of the year 0. -/
def monthStart (n : Int) : Int := dayNumber (n / 12) ((n % 12).toNat + 1) 1

/-- The value of a duration: months and seconds. -/
structure DurVal where
  months : Int
  secs : Rat
  deriving DecidableEq

/-- September 1696, February 1697, March 1903, July 1903. -/
def referenceMonths : List Int := [12 * 1696 + 8, 12 * 1697 + 1, 12 * 1903 + 2, 12 * 1903 + 6]

/-- The first day of the month with this duration added, in seconds on the time line. -/
def DurVal.after (p : DurVal) (ref : Int) : Rat := (86400 * monthStart (ref + p.months) : Int) + p.secs

/-- The order of durations: whatever the reference date. -/
def DurVal.Lt (p q : DurVal) : Prop := ∀ r ∈ referenceMonths, p.after r < q.after r

def DurVal.Eq (p q : DurVal) : Prop := ∀ r ∈ referenceMonths, p.after r = q.after r

/-! ## Bounds -/

/-- What a facet for a bound asks of a number, given which number a text denotes. -/
def Bounded {Q : Type} [LT Q] [LE Q] (den : List Char → Q → Prop) (q : Q) : FacetType → Prop
  | .maxExclusive b => ∃ x, den b x ∧ q < x
  | .maxInclusive b => ∃ x, den b x ∧ q ≤ x
  | .minExclusive b => ∃ x, den b x ∧ x < q
  | .minInclusive b => ∃ x, den b x ∧ x ≤ q
  | _ => True

/-- Facets for bounds with a legal literal, or without checks. -/
def LegalBound {Q : Type} (den : List Char → Q → Prop) : FacetType → Prop
  | .maxExclusive b | .maxInclusive b | .minExclusive b | .minInclusive b => QuoteSafe b ∧ ∃ x, den b x
  | .length _ | .maxLength _ | .minLength _ => False
  | _ => True

end Verif.Spec
