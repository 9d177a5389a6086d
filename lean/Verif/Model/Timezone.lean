import Verif.Ext.ChronoOffset

/-! # `xsd-types/src/types/utils.rs` -/

namespace Verif.Model

open Verif Chrono

/-- `parse_timezone` — /repo/xsd-types/src/types/utils.rs:4-30.  Error messages dropped.
The `unwrap`s on lines 17/18 and the slice on line 9 are kept as possible panics. -/
def parseTimezone (s : Str) : Res FixedOffset :=
  if s = ['Z'] then Res.unwrap (eastOpt 0)                                -- 5-7
  else
    (Str.sliceFrom s 1).bind fun r =>                                     -- 9
    match Str.splitOn ':' r with
    | [t0, t1] =>
      if Str.byteLen t0 ≠ 2 ∨ Str.byteLen t1 ≠ 2 then .err                -- 10-12
      else if ¬ (Str.allDigits t0 = true ∧ Str.allDigits t1 = true) then .err  -- 13-15
      else
        (Res.unwrap (Str.parseI32 t0)).bind fun hours =>                  -- 17
        (Res.unwrap (Str.parseI32 t1)).bind fun minutes =>                -- 18
        if hours > 14 ∨ (hours = 14 ∧ minutes ≠ 0) ∨ minutes ≥ 60 then .err  -- 20-22
        else
          let offsetSecs := 60 * (60 * hours + minutes)                   -- 24
          match s with                                                    -- 25-29
          | [] => .panic
          | '+' :: _ => Res.ofOption (eastOpt offsetSecs)
          | '-' :: _ => Res.ofOption (westOpt offsetSecs)
          | _ => .err
    | _ => .err                                                           -- 10 (tokens.len() != 2)

/-- `write!(f, "{}", tz)` for an optional timezone, as the `Display` impls of the date-like types do
(they have one `write!` per case; with `None` nothing is appended). -/
def showTz : Option FixedOffset → Str
  | some tz => showOffset tz
  | none => []

end Verif.Model
