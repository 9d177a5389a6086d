import Verif.Spec.Builtin

/-!
# Specification: the values of the Rust types, and those which have a literal

The fields of the types are public or the types have public constructors: a program can build more values than
`from_str` returns.
-/

namespace Verif.Spec

open Verif.Model

/-- The integer types of the language and their bounds. -/
def machineInts : List (String × Int × Int) :=
  [("i64", -9223372036854775808, 9223372036854775807), ("i32", -2147483648, 2147483647), ("i16", -32768, 32767),
   ("i8", -128, 127), ("u64", 0, 18446744073709551615), ("u32", 0, 4294967295), ("u16", 0, 65535), ("u8", 0, 255)]

/-- Offsets of chrono: less than a day either way. -/
def DayOffset (o : Int) : Prop := -86400 < o ∧ o < 86400

/-- Numbers of 32 bits. -/
def Fits32 (v : Int) : Prop := -2147483648 ≤ v ∧ v ≤ 2147483647

/-- Times of day of chrono; a leap second is the end of a minute. -/
def DayTime (t : Chrono.NaiveTime) : Prop :=
  t.hour < 24 ∧ t.minute < 60 ∧ t.second < 60 ∧ t.nano < 2000000000

/-- Values of the Rust types.  The seconds of a duration are a finite double. -/
inductive HasType : String → LibVal → Prop where
  | text {s} : HasType "String" (.text s)
  | bool {b} : HasType "bool" (.bool b)
  | machine {r lo hi v} : (r, lo, hi) ∈ machineInts → lo ≤ v → v ≤ hi → HasType r (.int v)
  | big {r v} : r ∈ ["xs::Integer", "xs::NonPositiveInteger", "xs::NegativeInteger"] → HasType r (.int v)
  | nat {r v} : r ∈ ["xs::NonNegativeInteger", "xs::PositiveInteger"] → 0 ≤ v → HasType r (.int v)
  | float {f} : HasType "f64" (.float f)
  | dec {d} : HasType "xs::Decimal" (.dec d)
  | date {v : Chrono.NaiveDate} {tz} : ValidDate v.year v.month v.day → (∀ o, tz = some o → DayOffset o) →
      HasType "xs::Date" (.date ⟨v, tz⟩)
  | time {v tz} : DayTime v → (∀ o, tz = some o → DayOffset o) → HasType "xs::Time" (.time ⟨v, tz⟩)
  | dateTime {v : Chrono.CDateTime} : ValidDate v.date.year v.date.month v.date.day → DayTime v.time →
      DayOffset v.offset → HasType "xs::DateTime" (.dateTime ⟨v⟩)
  | stamp {v : Chrono.CDateTime} : ValidDate v.date.year v.date.month v.date.day → DayTime v.time →
      DayOffset v.offset → HasType "xs::DateTimeStamp" (.stamp ⟨⟨v⟩⟩)
  | duration {d : Duration ℚ} : (0 ≤ d.seconds → Ieee.rnd d.seconds = d.seconds) → HasType "xs::Duration" (.duration d)
  | gDay {d tz} : Fits32 d → (∀ o, tz = some o → DayOffset o) → HasType "xs::GDay" (.gDay ⟨d, tz⟩)
  | gMonth {m tz} : Fits32 m → (∀ o, tz = some o → DayOffset o) → HasType "xs::GMonth" (.gMonth ⟨m, tz⟩)
  | gMonthDay {m d tz} : Fits32 m → Fits32 d → (∀ o, tz = some o → DayOffset o) →
      HasType "xs::GMonthDay" (.gMonthDay ⟨m, d, tz⟩)
  | gYear {y tz} : Fits32 y → (∀ o, tz = some o → DayOffset o) → HasType "xs::GYear" (.gYear ⟨y, tz⟩)
  | gYearMonth {y m tz} : Fits32 y → Fits32 m → (∀ o, tz = some o → DayOffset o) →
      HasType "xs::GYearMonth" (.gYearMonth ⟨y, m, tz⟩)

/-- Finite doubles are written as decimal numbers without exponent, with enough digits to tell them apart. -/
def Shows (sh : ℚ → List Char) : Prop :=
  ∀ q, 0 ≤ q → Ieee.rnd q = q → ∃ ds, Digits1 ds ∧
    ((sh q = dtext ds ∧ Ieee.rnd (decVal ds) = q) ∨
      ∃ fs, Digits1 fs ∧ sh q = dtext ds ++ '.' :: dtext fs ∧ Ieee.rnd (secondQ (decVal ds) fs) = q)

/-- The values written as literals of the built-in type which denote them. -/
def Proper (expo : BigDecimal.Dec → Bool) (n : String) : LibVal → Prop
  | .text _ | .bool _ => True
  | .int v => ∀ lo hi, (n, lo, hi) ∈ intTypes → (∀ b, lo = some b → b ≤ v) ∧ (∀ b, hi = some b → v ≤ b)
  | .dec d => expo d.val = false
  | .float .nan => True
  | .float (.inf _) => False
  | .float (.num _ m e) => n = "float" → Single (Ieee.rnd (m * 10 ^ e))
  | .date d => d.value.year ≤ 9999 ∧ XsdTz d.timezone
  | .time t => t.value.nano % 1000000000 = 0 ∧ t.value.second + t.value.nano / 1000000000 < 60 ∧ XsdTz t.timezone
  | .dateTime x | .stamp ⟨x⟩ => x.value.date.year ≤ 9999 ∧
      x.value.time.second + x.value.time.nano / 1000000000 < 60 ∧ XsdOffset x.value.offset
  | .duration d => 0 ≤ d.seconds
  | .gDay g => 1 ≤ g.value ∧ g.value ≤ 31 ∧ XsdTz g.timezone
  | .gMonth g => 1 ≤ g.value ∧ g.value ≤ 12 ∧ XsdTz g.timezone
  | .gMonthDay g => ValidMonthDay g.month g.day ∧ XsdTz g.timezone
  | .gYear g => g.value ≠ -2147483648 ∧ XsdTz g.timezone
  | .gYearMonth g => g.year ≠ -2147483648 ∧ 1 ≤ g.month ∧ g.month ≤ 12 ∧ XsdTz g.timezone

/-- The Rust type writes the value as a literal of the built-in type which denotes it. -/
def Writes (L : Lib) (n rust : String) (v : LibVal) : Prop :=
  ∃ s x, libToString L rust.toList v = some (.ok s) ∧ Literal n s x ∧ Carries v x

/-- Among the values written properly, those which are read back, for chrono dates from the year `lo` on: no dates before
it, no dates of years before zero unless with a timezone of Greenwich or east of it, no date-times of years before zero,
no year zero. -/
def Returns (lo : Int) : LibVal → Prop
  | .date d => lo ≤ d.value.year ∧ (0 ≤ d.value.year ∨ ∃ o, d.timezone = some o ∧ 0 ≤ o)
  | .dateTime x | .stamp ⟨x⟩ => 0 ≤ x.value.date.year
  | .gYear g => g.value ≠ 0
  | .gYearMonth g => g.year ≠ 0
  | _ => True

/-- What is written for the value is read as a value which is the same value of XML Schema. -/
def ReadsBack (L : Lib) (n rust : String) (v : LibVal) : Prop :=
  ∃ s f w x, libToString L rust.toList v = some (.ok s) ∧ libFromStr L rust.toList = some f ∧ f s = .ok w ∧
    Literal n s x ∧ Carries v x ∧ Carries w x

end Verif.Spec
