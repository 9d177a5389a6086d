import Verif.Ext.ChronoDate
import Verif.Model.Timezone

/-! # `xsd-types/src/types/{date,time,datetime,datetimestamp}.rs`

`yr` is the range of years chrono supports (see `Chrono.YearRange`). -/

namespace Verif.Model

open Verif Chrono

/-! ## date.rs -/

/-- `struct Date` — /repo/xsd-types/src/types/date.rs:8-12 -/
structure Date where
  value : NaiveDate
  timezone : Option FixedOffset
  deriving DecidableEq, Repr

namespace Date

/-- `Date::from_chrono_naive_date` — date.rs:15-17 -/
def fromChrono (d : NaiveDate) : Date := { value := d, timezone := none }

/-- `Date::to_chrono_naive_date` — date.rs:19-21 -/
def toChrono (d : Date) : NaiveDate := d.value

/-- `impl Default` — date.rs:24-28 -/
def default (yr : YearRange) : Res Date :=
  (Res.unwrap (fromYmdOpt yr 1 1 1)).bind fun v => .ok { value := v, timezone := none }

/-- inner `parse_naive_date` — date.rs:34-36 -/
def parseNaive (yr : YearRange) (s : Str) : Res NaiveDate := Res.ofOption (parseYmd yr s)

/-- `Date::from_str` — date.rs:33-70 -/
def fromStr (yr : YearRange) (s : Str) : Res Date :=
  match Str.stripSuffix 'Z' s with                                              -- 38-43
  | some s => (parseNaive yr s).bind fun v =>
      (Res.unwrap (eastOpt 0)).bind fun z => .ok { value := v, timezone := some z }
  | none =>
    if Str.hasChar '+' s then                                                   -- 45
      if Str.countChar '+' s > 1 then .err                                      -- 46-48
      else
        (Str.splitAtMatch '+' s 0).bind fun p =>                                -- 50-52
        (parseNaive yr p.1).bind fun v =>
        (parseTimezone p.2).bind fun tz => .ok { value := v, timezone := some tz }
    else if Str.countChar '-' s = 3 then                                        -- 59
      (Str.splitAtMatch '-' s 2).bind fun p =>                                  -- 60-62
      (parseNaive yr p.1).bind fun v =>
      (parseTimezone p.2).bind fun tz => .ok { value := v, timezone := some tz }
    else (parseNaive yr s).bind fun v => .ok { value := v, timezone := none }   -- 69

/-- `impl Display` — date.rs:73-81 -/
def toStr (d : Date) : Str := fmtYmd d.value ++ showTz d.timezone

end Date

/-! ## time.rs -/

/-- `struct Time` — /repo/xsd-types/src/types/time.rs:8-12 -/
structure Time where
  value : NaiveTime
  timezone : Option FixedOffset
  deriving DecidableEq, Repr

namespace Time

/-- `Time::from_chrono_naive_time` — time.rs:15-17 -/
def fromChrono (t : NaiveTime) : Time := { value := t, timezone := none }

/-- `Time::to_chrono_naive_time` — time.rs:19-21 -/
def toChrono (t : Time) : NaiveTime := t.value

/-- `impl Default` — time.rs:24-28 -/
def default : Time := { value := ⟨0, 0, 0, 0⟩, timezone := none }

/-- inner `parse_naive_time` — time.rs:34-36 -/
def parseNaive (s : Str) : Res NaiveTime := Res.ofOption (parseHms s)

/-- `Time::from_str` — time.rs:33-74 -/
def fromStr (s : Str) : Res Time :=
  match Str.stripSuffix 'Z' s with                                              -- 38-43
  | some s => (parseNaive s).bind fun v =>
      (Res.unwrap (eastOpt 0)).bind fun z => .ok { value := v, timezone := some z }
  | none =>
    if Str.hasChar '+' s then                                                   -- 45
      if Str.countChar '+' s > 1 then .err                                      -- 46-48
      else
        (Str.splitAtMatch '+' s 0).bind fun p =>                                -- 50-52
        (parseNaive p.1).bind fun v =>
        (parseTimezone p.2).bind fun tz => .ok { value := v, timezone := some tz }
    else if Str.hasChar '-' s then                                              -- 59
      if Str.countChar '-' s > 1 then .err                                      -- 60-62
      else
        (Str.splitAtMatch '-' s 0).bind fun p =>                                -- 64-66
        (parseNaive p.1).bind fun v =>
        (parseTimezone p.2).bind fun tz => .ok { value := v, timezone := some tz }
    else (parseNaive s).bind fun v => .ok { value := v, timezone := none }      -- 73

/-- `impl Display` — time.rs:77-85 -/
def toStr (t : Time) : Str := fmtHms t.value ++ showTz t.timezone

end Time

/-! ## datetime.rs -/

/-- `struct DateTime` — /repo/xsd-types/src/types/datetime.rs:6-9.  The derived `PartialEq` compares
instants (chrono ignores the offset); the model's equality also distinguishes the offset. -/
structure DateTime where
  value : CDateTime
  deriving DecidableEq, Repr

namespace DateTime

/-- `DateTime::from_chrono_datetime` — datetime.rs:12-14 -/
def fromChrono (x : CDateTime) : DateTime := { value := x }

/-- `DateTime::to_chrono_datetime` — datetime.rs:16-18 -/
def toChrono (x : DateTime) : CDateTime := x.value

/-- `impl Default` — datetime.rs:21-25 -/
def default (yr : YearRange) : Res DateTime :=
  (Res.unwrap (parseRfc3339 yr "0001-01-01T00:00:00Z".toList)).bind fun v => .ok { value := v }

/-- `tz_provided` — datetime.rs:36 -/
def tzProvided (s : Str) : Bool :=
  s.getLast? == some 'Z' || Str.hasChar '+' s || Str.countChar '-' s == 3

/-- `DateTime::from_str` — datetime.rs:35-42 -/
def fromStr (yr : YearRange) (s : Str) : Res DateTime :=
  let s' := if tzProvided s then s else s ++ ['Z']
  match parseRfc3339 yr s' with
  | some v => .ok { value := v }
  | none => .err

/-- `impl Display` — datetime.rs:45-49 -/
def toStr (x : DateTime) : Str := toRfc3339 x.value

end DateTime

/-! ## datetimestamp.rs -/

/-- `struct DateTimeStamp` — /repo/xsd-types/src/types/datetimestamp.rs:9-12 -/
structure DateTimeStamp where
  value : DateTime
  deriving DecidableEq, Repr

namespace DateTimeStamp

/-- `DateTimeStamp::from_chrono_datetime` — datetimestamp.rs:15-17 -/
def fromChrono (x : CDateTime) : DateTimeStamp := { value := DateTime.fromChrono x }

/-- `DateTimeStamp::to_chrono_datetime` — datetimestamp.rs:19-21 -/
def toChrono (x : DateTimeStamp) : CDateTime := x.value.toChrono

/-- derived `Default` — datetimestamp.rs:9 -/
def default (yr : YearRange) : Res DateTimeStamp :=
  (DateTime.default yr).bind fun v => .ok { value := v }

/-- `DateTimeStamp::from_str` — datetimestamp.rs:27-32 -/
def fromStr (yr : YearRange) (s : Str) : Res DateTimeStamp :=
  match parseRfc3339 yr s with
  | some v => .ok (fromChrono v)
  | none => .err

/-- `impl Display` — datetimestamp.rs:35-39 -/
def toStr (x : DateTimeStamp) : Str := x.value.toStr

end DateTimeStamp

end Verif.Model
