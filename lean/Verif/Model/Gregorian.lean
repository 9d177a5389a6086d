import Verif.Model.Timezone

/-!
# Gregorian calendar fragments

`xsd-types/src/types/{gday,gmonth,gmonthday,gyear,gyearmonth}.rs`.
`i32` components are modelled as `Int`; where the code could overflow (`-self.value` on
`i32::MIN`) the outcome is an explicit panic (debug profile).
-/

namespace Verif.Model

open Verif Chrono

/-! ## gday.rs -/

/-- `struct GDay` — /repo/xsd-types/src/types/gday.rs:9-12 -/
structure GDay where
  value : Int
  timezone : Option FixedOffset
  deriving DecidableEq, Repr

namespace GDay

/-- `GDay::new` — gday.rs:15-20 -/
def new (day : Int) (tz : Option FixedOffset) : Res GDay :=
  if ¬ (1 ≤ day ∧ day ≤ 31) then .err else .ok { value := day, timezone := tz }

/-- `impl Default` — gday.rs:23-27 -/
def default : GDay := { value := 1, timezone := none }

/-- inner `parse_value` — gday.rs:33-42 -/
def parseValue (s : Str) : Res Int :=
  if Str.byteLen s ≠ 5 then .err
  else
    (Str.slice s 0 3).bind fun p =>
    if p ≠ ['-', '-', '-'] then .err
    else
      (Str.slice s 3 5).bind fun token =>
      if ¬ Str.allDigits token = true then .err
      else Res.ofOption (Str.parseI32 token)

/-- `GDay::from_str` — gday.rs:32-67 -/
def fromStr (s : Str) : Res GDay :=
  match Str.stripSuffix 'Z' s with
  | some s => (parseValue s).bind fun v => (Res.unwrap (eastOpt 0)).bind fun z => new v (some z)
  | none =>
    if Str.hasChar '+' s then
      if Str.countChar '+' s > 1 then .err
      else
        (Str.splitAtMatch '+' s 0).bind fun (valueToken, tzToken) =>
        (parseValue valueToken).bind fun v =>
        (parseTimezone tzToken).bind fun tz => new v (some tz)
    else if Str.countChar '-' s = 4 then
      (Str.splitAtMatch '-' s 3).bind fun (valueToken, tzToken) =>
      (parseValue valueToken).bind fun v =>
      (parseTimezone tzToken).bind fun tz => new v (some tz)
    else (parseValue s).bind fun v => new v none

/-- `impl Display` — gday.rs:70-77 -/
def display (g : GDay) : Str := ['-', '-', '-'] ++ Str.fmtPad 2 g.value ++ showTz g.timezone

end GDay

/-! ## gmonth.rs -/

/-- `struct GMonth` — /repo/xsd-types/src/types/gmonth.rs:9-12 -/
structure GMonth where
  value : Int
  timezone : Option FixedOffset
  deriving DecidableEq, Repr

namespace GMonth

/-- `GMonth::new` — gmonth.rs:15-20 -/
def new (month : Int) (tz : Option FixedOffset) : Res GMonth :=
  if ¬ (1 ≤ month ∧ month ≤ 12) then .err else .ok { value := month, timezone := tz }

/-- `impl Default` — gmonth.rs:23-27 -/
def default : GMonth := { value := 1, timezone := none }

/-- inner `parse_value` — gmonth.rs:33-42 -/
def parseValue (s : Str) : Res Int :=
  if Str.byteLen s ≠ 4 then .err
  else
    (Str.slice s 0 2).bind fun p =>
    if p ≠ ['-', '-'] then .err
    else
      (Str.slice s 2 4).bind fun token =>
      if ¬ Str.allDigits token = true then .err
      else Res.ofOption (Str.parseI32 token)

/-- `GMonth::from_str` — gmonth.rs:32-67 -/
def fromStr (s : Str) : Res GMonth :=
  match Str.stripSuffix 'Z' s with
  | some s => (parseValue s).bind fun v => (Res.unwrap (eastOpt 0)).bind fun z => new v (some z)
  | none =>
    if Str.hasChar '+' s then
      if Str.countChar '+' s > 1 then .err
      else
        (Str.splitAtMatch '+' s 0).bind fun (valueToken, tzToken) =>
        (parseValue valueToken).bind fun v =>
        (parseTimezone tzToken).bind fun tz => new v (some tz)
    else if Str.countChar '-' s = 3 then
      (Str.splitAtMatch '-' s 2).bind fun (valueToken, tzToken) =>
      (parseValue valueToken).bind fun v =>
      (parseTimezone tzToken).bind fun tz => new v (some tz)
    else (parseValue s).bind fun v => new v none

/-- `impl Display` — gmonth.rs:70-77 -/
def display (g : GMonth) : Str := ['-', '-'] ++ Str.fmtPad 2 g.value ++ showTz g.timezone

end GMonth

/-! ## gmonthday.rs -/

/-- `struct GMonthDay` — /repo/xsd-types/src/types/gmonthday.rs:9-13 -/
structure GMonthDay where
  month : Int
  day : Int
  timezone : Option FixedOffset
  deriving DecidableEq, Repr

namespace GMonthDay

/-- `MONTH_MAX_LEN` — gmonthday.rs:25 -/
def monthMaxLen : List Int := [31, 29, 31, 30, 31, 30, 31, 31, 30, 31, 30, 31]

/-- `GMonthDay::new` — gmonthday.rs:16-31.  The array access (line 26) is kept as a possible
panic. -/
def new (month day : Int) (tz : Option FixedOffset) : Res GMonthDay :=
  if ¬ (1 ≤ month ∧ month ≤ 12) then .err
  else if ¬ (1 ≤ day ∧ day ≤ 31) then .err
  else
    (Res.unwrap (monthMaxLen[(month - 1).toNat]?)).bind fun m =>
    if day > m then .err else .ok { month := month, day := day, timezone := tz }

/-- `gmonth` — gmonthday.rs:33-35 -/
def gmonth (g : GMonthDay) : GMonth := { value := g.month, timezone := g.timezone }

/-- `gday` — gmonthday.rs:37-39 -/
def gday (g : GMonthDay) : GDay := { value := g.day, timezone := g.timezone }

/-- `impl Default` — gmonthday.rs:42-46 -/
def default : GMonthDay := { month := 1, day := 1, timezone := none }

/-- inner `parse_value` — gmonthday.rs:52-70 -/
def parseValue (s : Str) : Res (Int × Int) :=
  if Str.byteLen s ≠ 7 then .err
  else
    (Str.slice s 0 2).bind fun p =>
    if p ≠ ['-', '-'] then .err
    else
      (Str.slice s 4 5).bind fun q =>
      if q ≠ ['-'] then .err
      else
        (Str.slice s 2 4).bind fun monthToken =>
        if ¬ Str.allDigits monthToken = true then .err
        else
          (Res.ofOption (Str.parseI32 monthToken)).bind fun month =>
          (Str.slice s 5 7).bind fun dayToken =>
          if ¬ Str.allDigits dayToken = true then .err
          else (Res.ofOption (Str.parseI32 dayToken)).bind fun day => .ok (month, day)

/-- `GMonthDay::from_str` — gmonthday.rs:51-99 -/
def fromStr (s : Str) : Res GMonthDay :=
  match Str.stripSuffix 'Z' s with
  | some s =>
    (parseValue s).bind fun (month, day) =>
    (Res.unwrap (eastOpt 0)).bind fun z => new month day (some z)
  | none =>
    if Str.hasChar '+' s then
      if Str.countChar '+' s > 1 then .err
      else
        (Str.splitAtMatch '+' s 0).bind fun (valueToken, tzToken) =>
        (parseValue valueToken).bind fun (month, day) =>
        (parseTimezone tzToken).bind fun tz => new month day (some tz)
    else if Str.countChar '-' s = 4 then
      (Str.splitAtMatch '-' s 3).bind fun (valueToken, tzToken) =>
      (parseValue valueToken).bind fun (month, day) =>
      (parseTimezone tzToken).bind fun tz => new month day (some tz)
    else (parseValue s).bind fun (month, day) => new month day none

/-- `impl Display` — gmonthday.rs:102-109 -/
def display (g : GMonthDay) : Str :=
  ['-', '-'] ++ Str.fmtPad 2 g.month ++ '-' :: Str.fmtPad 2 g.day ++ showTz g.timezone

end GMonthDay

/-! ## gyear.rs -/

/-- `struct GYear` — /repo/xsd-types/src/types/gyear.rs:9-12 -/
structure GYear where
  value : Int
  timezone : Option FixedOffset
  deriving DecidableEq, Repr

namespace GYear

/-- `GYear::new` — gyear.rs:15-20 -/
def new (year : Int) (tz : Option FixedOffset) : Res GYear :=
  if year = 0 then .err else .ok { value := year, timezone := tz }

/-- `impl Default` — gyear.rs:23-27 -/
def default : GYear := { value := 1, timezone := none }

/-- inner `parse_value` — gyear.rs:43-51 -/
def parseValue (s : Str) : Res Int :=
  if Str.byteLen s < 4 then .err
  else if ¬ Str.allDigits s = true then .err
  else Res.ofOption (Str.parseI32 s)

/-- `parse_str_positive` — gyear.rs:42-80 -/
def parseStrPositive (s : Str) : Res GYear :=
  match Str.stripSuffix 'Z' s with
  | some s => (parseValue s).bind fun v => (Res.unwrap (eastOpt 0)).bind fun z => new v (some z)
  | none =>
    if Str.hasChar '+' s then
      if Str.countChar '+' s > 1 then .err
      else
        (Str.splitAtMatch '+' s 0).bind fun (valueToken, tzToken) =>
        (parseValue valueToken).bind fun v =>
        (parseTimezone tzToken).bind fun tz => new v (some tz)
    else if Str.hasChar '-' s then
      if Str.countChar '-' s > 1 then .err
      else
        (Str.splitAtMatch '-' s 0).bind fun (valueToken, tzToken) =>
        (parseValue valueToken).bind fun v =>
        (parseTimezone tzToken).bind fun tz => new v (some tz)
    else (parseValue s).bind fun v => new v none

/-- `GYear::from_str` — gyear.rs:32-39.  `gyear.value *= -1` cannot overflow because the parsed
value is between 1 and `i32::MAX`. -/
def fromStr (s : Str) : Res GYear :=
  match Str.stripPrefix '-' s with
  | some s => (parseStrPositive s).bind fun g => .ok { g with value := g.value * -1 }
  | none => parseStrPositive s

/-- `impl Display` — gyear.rs:82-96.  `-self.value` panics on `i32::MIN` (debug profile). -/
def display (g : GYear) : Res Str :=
  if g.value > 0 then .ok (Str.fmtPad 4 g.value ++ showTz g.timezone)
  else if g.value = Str.i32Min then .panic
  else .ok ('-' :: Str.fmtPad 4 (-g.value) ++ showTz g.timezone)

end GYear

/-! ## gyearmonth.rs -/

/-- `struct GYearMonth` — /repo/xsd-types/src/types/gyearmonth.rs:9-13 -/
structure GYearMonth where
  year : Int
  month : Int
  timezone : Option FixedOffset
  deriving DecidableEq, Repr

namespace GYearMonth

/-- `GYearMonth::new` — gyearmonth.rs:16-26 -/
def new (year month : Int) (tz : Option FixedOffset) : Res GYearMonth :=
  if year = 0 then .err
  else if ¬ (1 ≤ month ∧ month ≤ 12) then .err
  else .ok { year := year, month := month, timezone := tz }

/-- `gyear` — gyearmonth.rs:28-30 -/
def gyear (g : GYearMonth) : GYear := { value := g.year, timezone := g.timezone }

/-- `gmonth` — gyearmonth.rs:32-34 -/
def gmonth (g : GYearMonth) : GMonth := { value := g.month, timezone := g.timezone }

/-- `impl Default` — gyearmonth.rs:37-41 -/
def default : GYearMonth := { year := 1, month := 1, timezone := none }

/-- inner `parse_value` — gyearmonth.rs:57-80.  `&s[idx + 1..]` is taken from the split at `idx`. -/
def parseValue (s : Str) : Res (Int × Int) :=
  if Str.countChar '-' s ≠ 1 then .err                                    -- 58-60
  else
    (Str.splitAtMatch '-' s 0).bind fun (yearToken, rest) =>              -- 62-63
    (Str.sliceFrom rest 1).bind fun monthToken =>                         -- 64
    if Str.byteLen yearToken < 4 ∨ Str.byteLen monthToken ≠ 2 then .err   -- 65-67
    else if ¬ Str.allDigits yearToken = true then .err                    -- 69-71
    else
      (Res.ofOption (Str.parseI32 yearToken)).bind fun year =>            -- 72
      if ¬ Str.allDigits monthToken = true then .err                      -- 74-76
      else (Res.ofOption (Str.parseI32 monthToken)).bind fun month => .ok (year, month)  -- 77-79

/-- `parse_str_positive` — gyearmonth.rs:56-109 -/
def parseStrPositive (s : Str) : Res GYearMonth :=
  match Str.stripSuffix 'Z' s with
  | some s =>
    (parseValue s).bind fun (year, month) =>
    (Res.unwrap (eastOpt 0)).bind fun z => new year month (some z)
  | none =>
    if Str.hasChar '+' s then
      if Str.countChar '+' s > 1 then .err
      else
        (Str.splitAtMatch '+' s 0).bind fun (valueToken, tzToken) =>
        (parseValue valueToken).bind fun (year, month) =>
        (parseTimezone tzToken).bind fun tz => new year month (some tz)
    else if Str.countChar '-' s = 2 then
      (Str.splitAtMatch '-' s 1).bind fun (valueToken, tzToken) =>
      (parseValue valueToken).bind fun (year, month) =>
      (parseTimezone tzToken).bind fun tz => new year month (some tz)
    else (parseValue s).bind fun (year, month) => new year month none

/-- `GYearMonth::from_str` — gyearmonth.rs:46-53 -/
def fromStr (s : Str) : Res GYearMonth :=
  match Str.stripPrefix '-' s with
  | some s => (parseStrPositive s).bind fun g => .ok { g with year := g.year * -1 }
  | none => parseStrPositive s

/-- `impl Display` — gyearmonth.rs:111-125.  `-self.year` panics on `i32::MIN` (debug profile). -/
def display (g : GYearMonth) : Res Str :=
  if g.year > 0 then
    .ok (Str.fmtPad 4 g.year ++ '-' :: Str.fmtPad 2 g.month ++ showTz g.timezone)
  else if g.year = Str.i32Min then .panic
  else .ok ('-' :: Str.fmtPad 4 (-g.year) ++ '-' :: Str.fmtPad 2 g.month ++ showTz g.timezone)

end GYearMonth

end Verif.Model
