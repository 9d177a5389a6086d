import Verif.Rust.Str

/-!
# chrono `FixedOffset` (chrono 0.4.35, third party – modelled from its documentation)

A `FixedOffset` is a number of seconds east of UTC, strictly less than one day in absolute value.
-/

namespace Verif.Chrono

/-- `chrono::FixedOffset`: `local_minus_utc` in seconds. -/
abbrev FixedOffset := Int

/-- `FixedOffset::east_opt(secs)`: `Some` iff `-86_400 < secs < 86_400`. -/
def eastOpt (secs : Int) : Option FixedOffset :=
  if -86400 < secs ∧ secs < 86400 then some secs else none

/-- `FixedOffset::west_opt(secs)`. -/
def westOpt (secs : Int) : Option FixedOffset :=
  if -86400 < secs ∧ secs < 86400 then some (-secs) else none

/-- `impl Display for FixedOffset`: `+HH:MM`, or `+HH:MM:SS` when the seconds are not zero. -/
def showOffset (o : FixedOffset) : Str :=
  let sign : Char := if o < 0 then '-' else '+'
  let a := o.natAbs
  let sec := a % 60
  let mins := a / 60
  let base := sign :: (Str.fmtPadNat 2 (mins / 60) ++ ':' :: Str.fmtPadNat 2 (mins % 60))
  if sec = 0 then base else base ++ ':' :: Str.fmtPadNat 2 sec

end Verif.Chrono
