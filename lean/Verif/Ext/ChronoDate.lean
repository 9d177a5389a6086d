import Verif.Ext.ChronoOffset

/-!
# chrono dates and times (chrono 0.4.35, third party – modelled from its documentation and source)

Only what `date.rs`, `time.rs`, `datetime.rs` and `datetimestamp.rs` call: `NaiveDate`/`NaiveTime`
`parse_from_str` and `format` with the two fixed formats `%Y-%m-%d` and `%H:%M:%S`, and
`DateTime::<FixedOffset>::{parse_from_rfc3339, to_rfc3339}`.  All `ParseError`s are one `none`.
-/

namespace Verif.Chrono

open Verif

/-- Years `NaiveDate` can represent: `lo..=hi` (`NaiveDate::MIN`/`MAX`).  Kept abstract; the actual
range of chrono 0.4.35 is `YearRange.chrono`. -/
structure YearRange where
  lo : Int
  hi : Int
  lo_le : lo ≤ 0
  le_hi : 9999 ≤ hi
  i32_lo : -2147483648 ≤ lo
  i32_hi : hi ≤ 2147483647

/-- chrono 0.4.35: `-262143..=262142`. -/
def YearRange.chrono : YearRange :=
  ⟨-262143, 262142, by decide, by decide, by decide, by decide⟩

/-- `chrono::NaiveDate` as its (year, month, day). -/
structure NaiveDate where
  year : Int
  month : Nat
  day : Nat
  deriving DecidableEq, Repr

/-- `chrono::NaiveTime`: hour, minute, second and nanoseconds; a leap second is second 59 with
`nano ≥ 1_000_000_000`. -/
structure NaiveTime where
  hour : Nat
  minute : Nat
  second : Nat
  nano : Nat
  deriving DecidableEq, Repr

/-- `chrono::DateTime<FixedOffset>`, as the local date and time together with the offset (chrono
stores the UTC date and time; the two views determine each other). -/
structure CDateTime where
  date : NaiveDate
  time : NaiveTime
  offset : FixedOffset
  deriving DecidableEq, Repr

/-- `i64::MAX` -/
def i64Max : Nat := 9223372036854775807

/-- `char::is_whitespace` (Unicode `White_Space`). -/
def isWhitespace (c : Char) : Bool :=
  let n := c.toNat
  (9 ≤ n && n ≤ 13) || n == 0x20 || n == 0x85 || n == 0xA0 || n == 0x1680 ||
  (0x2000 ≤ n && n ≤ 0x200A) || n == 0x2028 || n == 0x2029 || n == 0x202F || n == 0x205F || n == 0x3000

/-- `str::trim_start`. -/
def trimStart (s : Str) : Str := s.dropWhile isWhitespace

/-- Loop of `format::scan::number`: `i` characters consumed so far with value `n`. -/
def numberGo (min : Nat) (max : Option Nat) : Nat → Nat → Str → Option (Str × Nat)
  | _, n, [] => some ([], n)
  | i, n, c :: cs =>
    if max = some i then some (c :: cs, n)
    else if ¬ Str.isAsciiDigit c then
      if i < min then none else some (c :: cs, n)
    else
      let n' := 10 * n + (c.toNat - 48)
      if n' > i64Max then none else numberGo min max (i + 1) n' cs

/-- `format::scan::number(s, min, max)`; `max = none` stands for `usize::MAX`. -/
def number (s : Str) (min : Nat) (max : Option Nat) : Option (Str × Nat) :=
  if Str.byteLen s < min then none else numberGo min max 0 0 s

/-- `Item::Literal` / `scan::char`: consume one given character. -/
def lit (c : Char) : Str → Option Str
  | [] => none
  | d :: ds => if d = c then some ds else none

/-- Leap year of the proleptic Gregorian calendar. -/
def isLeap (y : Int) : Bool := y % 4 == 0 && (y % 100 != 0 || y % 400 == 0)

/-- Number of days of month `m` (1-based) of year `y`. -/
def daysInMonth (y : Int) (m : Nat) : Nat :=
  [31, if isLeap y then 29 else 28, 31, 30, 31, 30, 31, 31, 30, 31, 30, 31].getD (m - 1) 0

/-- `NaiveDate::from_ymd_opt`. -/
def fromYmdOpt (yr : YearRange) (y : Int) (m d : Nat) : Option NaiveDate :=
  if yr.lo ≤ y ∧ y ≤ yr.hi ∧ 1 ≤ m ∧ m ≤ 12 ∧ 1 ≤ d ∧ d ≤ daysInMonth y m then some ⟨y, m, d⟩ else none

/-- `%Y` in `format::parse`: with an explicit sign any number of digits, otherwise at most four. -/
def scanYear (s : Str) : Option (Str × Int) :=
  match s with
  | '-' :: r => (number r 1 none).map fun p => (p.1, -(p.2 : Int))
  | '+' :: r => (number r 1 none).map fun p => (p.1, (p.2 : Int))
  | r => (number r 1 (some 4)).map fun p => (p.1, (p.2 : Int))

/-- `NaiveDate::parse_from_str(s, "%Y-%m-%d")`: numeric items skip leading white space; nothing may
be left over. -/
def parseYmd (yr : YearRange) (s : Str) : Option NaiveDate :=
  (scanYear (trimStart s)).bind fun y =>
  (lit '-' y.1).bind fun s =>
  (number (trimStart s) 1 (some 2)).bind fun m =>
  (lit '-' m.1).bind fun s =>
  (number (trimStart s) 1 (some 2)).bind fun d =>
  if d.1 ≠ [] then none else fromYmdOpt yr y.2 m.2 d.2

/-- `Parsed::to_naive_time` with hour, minute, second and optional nanosecond given. -/
def toNaiveTime (h m s nano : Nat) : Option NaiveTime :=
  if h > 23 then none
  else if m > 59 then none
  else if s > 60 then none
  else if s = 60 then some ⟨h, m, 59, nano + 1000000000⟩
  else some ⟨h, m, s, nano⟩

/-- `NaiveTime::parse_from_str(s, "%H:%M:%S")`. -/
def parseHms (s : Str) : Option NaiveTime :=
  (number (trimStart s) 1 (some 2)).bind fun h =>
  (lit ':' h.1).bind fun s =>
  (number (trimStart s) 1 (some 2)).bind fun m =>
  (lit ':' m.1).bind fun s =>
  (number (trimStart s) 1 (some 2)).bind fun sec =>
  if sec.1 ≠ [] then none else toNaiveTime h.2 m.2 sec.2 0

/-- `%Y` (and the year of `to_rfc3339`): four digits in `0..=9999`, otherwise `{:+05}`. -/
def fmtYear (y : Int) : Str :=
  if 0 ≤ y ∧ y ≤ 9999 then Str.fmtPadNat 4 y.natAbs
  else (if y < 0 then '-' else '+') :: Str.fmtPadNat 4 y.natAbs

/-- `date.format("%Y-%m-%d")`. -/
def fmtYmd (d : NaiveDate) : Str :=
  fmtYear d.year ++ '-' :: (Str.fmtPadNat 2 d.month ++ '-' :: Str.fmtPadNat 2 d.day)

/-- `time.format("%H:%M:%S")`; the fraction is not printed, a leap second prints as `60`. -/
def fmtHms (t : NaiveTime) : Str :=
  Str.fmtPadNat 2 t.hour ++ ':' :: (Str.fmtPadNat 2 t.minute ++ ':' ::
    Str.fmtPadNat 2 (t.second + t.nano / 1000000000))

/-- `format::scan::nanosecond`: up to nine digits scaled to nanoseconds, further digits skipped. -/
def scanNano (s : Str) : Option (Str × Nat) :=
  (number s 1 (some 9)).map fun p =>
    let consumed := s.length - p.1.length
    (p.1.dropWhile Str.isAsciiDigit, p.2 * 10 ^ (9 - consumed))

/-- Two digits, as `timezone_offset` reads them. -/
def twoDigits : Str → Option (Str × Nat)
  | a :: b :: r =>
    if Str.isAsciiDigit a ∧ Str.isAsciiDigit b then
      some (r, (a.toNat - 48) * 10 + (b.toNat - 48))
    else none
  | _ => none

/-- `format::scan::timezone_offset` as called for RFC 3339 (`Z`/`z` allowed, minutes required,
U+2212 allowed), together with the range check which follows the call. -/
def scanOffset (s : Str) : Option (Str × Int) :=
  match s with
  | [] => none
  | c :: r =>
    if c = 'Z' ∨ c = 'z' then some (r, 0)
    else if c = '+' ∨ c = '-' ∨ c = '−' then
      (twoDigits r).bind fun h =>
      (lit ':' h.1).bind fun r =>
      (twoDigits r).bind fun m =>
      if m.2 ≥ 60 then none
      else
        let secs : Int := (h.2 : Int) * 3600 + (m.2 : Int) * 60
        if secs > (23 * 60 + 59) * 60 then none
        else some (m.1, if c = '+' then secs else -secs)
    else none

/-- Separator between date and time in `parse_rfc3339`. -/
def scanSep : Str → Option Str
  | [] => none
  | c :: r => if c = 't' ∨ c = 'T' ∨ c = ' ' then some r else none

/-- Optional fraction in `parse_rfc3339`. -/
def scanFrac : Str → Option (Str × Nat)
  | '.' :: r => scanNano r
  | r => some (r, 0)

/-- `format::parse::parse_rfc3339` followed by "nothing left" and `Parsed::to_datetime`. -/
def parseRfc3339 (yr : YearRange) (s : Str) : Option CDateTime :=
  (number s 4 (some 4)).bind fun y =>
  (lit '-' y.1).bind fun s =>
  (number s 2 (some 2)).bind fun m =>
  (lit '-' m.1).bind fun s =>
  (number s 2 (some 2)).bind fun d =>
  (scanSep d.1).bind fun s =>
  (number s 2 (some 2)).bind fun hh =>
  (lit ':' hh.1).bind fun s =>
  (number s 2 (some 2)).bind fun mm =>
  (lit ':' mm.1).bind fun s =>
  (number s 2 (some 2)).bind fun ss =>
  (scanFrac ss.1).bind fun nano =>
  (scanOffset nano.1).bind fun off =>
  if off.1 ≠ [] then none
  else
    (fromYmdOpt yr (y.2 : Int) m.2 d.2).bind fun date =>
    (toNaiveTime hh.2 mm.2 ss.2 nano.2).bind fun time =>
    (eastOpt off.2).map fun off => ⟨date, time, off⟩

/-- Fraction of `SecondsFormat::AutoSi`. -/
def fmtAutoSi (nano : Nat) : Str :=
  if nano = 0 then []
  else if nano % 1000000 = 0 then '.' :: Str.fmtPadNat 3 (nano / 1000000)
  else if nano % 1000 = 0 then '.' :: Str.fmtPadNat 6 (nano / 1000)
  else '.' :: Str.fmtPadNat 9 nano

/-- `OffsetFormat { precision: Minutes, colons: Colon, allow_zulu: false, padding: Zero }`: the
offset is rounded to the nearest minute. -/
def fmtOffsetMinutes (o : FixedOffset) : Str :=
  let minutes := (o.natAbs + 30) / 60
  (if o < 0 then '-' else '+') :: (Str.fmtPadNat 2 (minutes / 60) ++ ':' :: Str.fmtPadNat 2 (minutes % 60))

/-- `DateTime::to_rfc3339`. -/
def toRfc3339 (x : CDateTime) : Str :=
  let leap := x.time.nano ≥ 1000000000
  let sec := if leap then x.time.second + 1 else x.time.second
  let nano := if leap then x.time.nano - 1000000000 else x.time.nano
  fmtYear x.date.year ++ '-' :: (Str.fmtPadNat 2 x.date.month ++ '-' :: (Str.fmtPadNat 2 x.date.day ++
    'T' :: (Str.fmtPadNat 2 x.time.hour ++ ':' :: (Str.fmtPadNat 2 x.time.minute ++ ':' ::
      (Str.fmtPadNat 2 sec ++ (fmtAutoSi nano ++ fmtOffsetMinutes x.offset))))))

end Verif.Chrono
