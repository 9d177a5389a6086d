import Verif.Spec.Decimal
import Verif.Spec.DateTime
import Verif.Spec.Serde
import Verif.Model.Builtin

/-!
# Specification: literals of the built-in types and the values they denote

Written from XML Schema 1.1 part 2, section 3.  The components of dates and durations are kept as written: no
normalisation to a time line.
-/

namespace Verif.Spec

open Verif.Model

/-- Numbers of the floating point types: a sign and a magnitude before rounding to the precision of the type. -/
inductive XFloat where
  | nan
  | inf (neg : Bool)
  | num (neg : Bool) (q : ℚ)

/-- Values of simple types. -/
inductive XVal where
  | text (s : List Char)
  | bool (b : Bool)
  | int (v : Int)
  | dec (q : ℚ)
  /-- the double nearest to a number -/
  | double (x : XFloat)
  /-- the single precision number nearest to a number -/
  | single (x : XFloat)
  | date (y : Int) (m d : Nat) (tz : Option Int)
  | time (h m : Nat) (s : ℚ) (tz : Option Int)
  | dateTime (y : Int) (m d hh mm : Nat) (s : ℚ) (tz : Option Int)
  | duration (neg : Bool) (y m d h n : Nat) (s : ℚ)
  | gDay (d : Int) (tz : Option Int)
  | gMonth (m : Int) (tz : Option Int)
  | gMonthDay (m d : Int) (tz : Option Int)
  | gYear (y : Int) (tz : Option Int)
  | gYearMonth (y m : Int) (tz : Option Int)
  | list (vs : List XVal)

/-- Optional exponent of a floating point literal. -/
inductive ExpText : List Char → Int → Prop where
  | none : ExpText [] 0
  | some {c ds} {sg : Sign} : c = 'e' ∨ c = 'E' → Digits1 ds → ExpText (c :: (sg.text ++ dtext ds)) (sg.apply (decVal ds))

/-- Floating point literals (3.3.4, 3.3.5). -/
inductive FloatText : List Char → XFloat → Prop where
  | nan : FloatText "NaN".toList .nan
  | inf {sg : Sign} : FloatText (sg.text ++ "INF".toList) (.inf (decide (sg = .minus)))
  | num {s t sg ds fs e} : XsdDec s sg ds fs → ExpText t e →
      FloatText (s ++ t) (.num (decide (sg = .minus)) (decQ (decVal (ds ++ fs)) fs.length * 10 ^ e))

/-- Years: an optional minus, four digits or more, more than four only without leading zero. -/
def XsdYear (neg : Bool) (s : List Char) (y : Int) : Prop :=
  ∃ ds, Digits ds ∧ 4 ≤ ds.length ∧ (4 < ds.length → ds.head? ≠ some 0) ∧
    s = durSign neg ++ dtext ds ∧ y = if neg then -(decVal ds : Int) else decVal ds

/-- Seconds with an optional fraction. -/
inductive SecondText : List Char → Nat → List Nat → Prop where
  | whole {n} : SecondText (two n) n []
  | fraction {n fs} : Digits1 fs → SecondText (two n ++ '.' :: dtext fs) n fs

/-- Seconds denoted. -/
def secondQ (n : Nat) (fs : List Nat) : ℚ := n + (decVal fs : ℚ) / 10 ^ fs.length

/-- Time of day; the end of the day may be written as hour 24. -/
def XsdTime (s : List Char) (h m n : Nat) (fs : List Nat) : Prop :=
  ∃ t, (h < 24 ∨ (h = 24 ∧ m = 0 ∧ n = 0 ∧ decVal fs = 0)) ∧ m < 60 ∧ n < 60 ∧ SecondText t n fs ∧
    s = two h ++ [':'] ++ two m ++ [':'] ++ t

/-- Calendar date with the text of its year. -/
def XsdDay (neg : Bool) (s : List Char) (y : Int) (m d : Nat) : Prop :=
  ∃ ys, XsdYear neg ys y ∧ ValidDate y m d ∧ s = ys ++ ['-'] ++ two m ++ ['-'] ++ two d

/-- White space of XML. -/
def XmlSpace (c : Char) : Prop := c = ' ' ∨ c = '\t' ∨ c = '\n' ∨ c = '\r'

/-- The types whose values are the texts themselves, or which the generated code keeps as texts. -/
def textTypes : List String :=
  ["string", "normalizedString", "token", "language", "Name", "NCName", "ENTITY", "ID", "IDREF", "NMTOKEN", "anyURI",
   "QName", "NOTATION", "hexBinary", "base64Binary", "anySimpleType"]

/-- The integer types and their bounds. -/
def intTypes : List (String × Option Int × Option Int) :=
  [("integer", none, none), ("nonNegativeInteger", some 0, none), ("positiveInteger", some 1, none),
   ("nonPositiveInteger", none, some 0), ("negativeInteger", none, some (-1)),
   ("long", some (-9223372036854775808), some 9223372036854775807), ("int", some (-2147483648), some 2147483647),
   ("short", some (-32768), some 32767), ("byte", some (-128), some 127),
   ("unsignedLong", some 0, some 18446744073709551615), ("unsignedInt", some 0, some 4294967295),
   ("unsignedShort", some 0, some 65535), ("unsignedByte", some 0, some 255)]

/-- `s` is a literal of the built-in type denoting the value. -/
inductive Literal : String → List Char → XVal → Prop where
  | text {n s} : n ∈ textTypes → Literal n s (.text s)
  | yes {s} : s = "true".toList ∨ s = "1".toList → Literal "boolean" s (.bool true)
  | no {s} : s = "false".toList ∨ s = "0".toList → Literal "boolean" s (.bool false)
  | int {n lo hi s sg v} : (n, lo, hi) ∈ intTypes → XsdInt s sg v → (∀ b, lo = some b → b ≤ v) →
      (∀ b, hi = some b → v ≤ b) → Literal n s (.int v)
  | dec {s sg ds fs} : XsdDec s sg ds fs → Literal "decimal" s (.dec (xsdDecVal sg ds fs))
  | double {s x} : FloatText s x → Literal "double" s (.double x)
  | float {s x} : FloatText s x → Literal "float" s (.single x)
  | date {s t neg y m d tz} : XsdDay neg s y m d → OptTz t tz → Literal "date" (s ++ t) (.date y m d tz)
  | time {s t h m n fs tz} : XsdTime s h m n fs → OptTz t tz → Literal "time" (s ++ t) (.time h m (secondQ n fs) tz)
  | dateTime {s u t neg y m d h mi n fs tz} : XsdDay neg s y m d → XsdTime u h mi n fs → OptTz t tz →
      Literal "dateTime" (s ++ ['T'] ++ u ++ t) (.dateTime y m d h mi (secondQ n fs) tz)
  | stamp {s u t neg y m d h mi n fs tz} : XsdDay neg s y m d → XsdTime u h mi n fs → TzText t tz →
      Literal "dateTimeStamp" (s ++ ['T'] ++ u ++ t) (.dateTime y m d h mi (secondQ n fs) (some tz))
  | duration {s x} : XsdDuration s x → Literal "duration" s (.duration x.neg (DurParts.val x.y) (DurParts.val x.m)
      (DurParts.val x.d) (DurParts.val x.h) (DurParts.val x.n)
      (match x.s with | none => 0 | some (ds, none) => secondQ (decVal ds) [] | some (ds, some fs) => secondQ (decVal ds) fs))
  | gDay {s d tz} : GDayText s d tz → Literal "gDay" s (.gDay d tz)
  | gMonth {s m tz} : GMonthText s m tz → Literal "gMonth" s (.gMonth m tz)
  | gMonthDay {s m d tz} : GMonthDayText s m d tz → Literal "gMonthDay" s (.gMonthDay m d tz)
  | gYear {s t neg y tz} : XsdYear neg s y → OptTz t tz → Literal "gYear" (s ++ t) (.gYear y tz)
  | gYearMonth {s t neg y tz} {m : Nat} : XsdYear neg s y → 1 ≤ m → m ≤ 12 → OptTz t tz →
      Literal "gYearMonth" (s ++ ['-'] ++ two m ++ t) (.gYearMonth y m tz)
  | list {n s ts} : n ∈ ["ENTITIES", "IDREFS", "NMTOKENS"] → Words s ts → (∀ c ∈ s, Space c → XmlSpace c) →
      Literal n s (.list (ts.map .text))

/-! ## Values of Rust types -/

/-- Numbers of single precision. -/
def Single (q : ℚ) : Prop := ∃ (m : Nat) (e : Int), m < 2 ^ 24 ∧ -149 ≤ e ∧ e ≤ 104 ∧ q = m * 2 ^ e

/-- The double is the one nearest to the number; it is given by some number it is nearest to. -/
inductive Nearest : F64 → XFloat → Prop where
  | nan : Nearest .nan .nan
  | inf {b} : Nearest (.inf b) (.inf b)
  | num {b} {m : Nat} {e : Int} {q : ℚ} : Ieee.rnd q = Ieee.rnd (m * 10 ^ e) → Nearest (.num b m e) (.num b q)

/-- The value of a Rust type is the XSD value.  A double is a number of single precision if rounding it once more
changes nothing; the seconds of a duration are a double, close to the number. -/
inductive Carries : LibVal → XVal → Prop where
  | text {s} : Carries (.text s) (.text s)
  | bool {b} : Carries (.bool b) (.bool b)
  | int {v} : Carries (.int v) (.int v)
  | dec {d : Decimal} {q} : decQ d.val.int d.val.scale = q → Carries (.dec d) (.dec q)
  | double {f x} : Nearest f x → Carries (.float f) (.double x)
  | single {f x} : Nearest f x → (∀ b q, x = .num b q → Single (Ieee.rnd q)) → Carries (.float f) (.single x)
  | date {y m d tz} : Carries (.date ⟨⟨y, m, d⟩, tz⟩) (.date y m d tz)
  | time {h m n nano : Nat} {tz} {q : ℚ} : q = n + (nano : ℚ) / 10 ^ 9 → Carries (.time ⟨⟨h, m, n, nano⟩, tz⟩) (.time h m q tz)
  | dateTime {y o : Int} {m d hh mm n nano : Nat} {q : ℚ} : q = n + (nano : ℚ) / 10 ^ 9 →
      Carries (.dateTime ⟨⟨⟨y, m, d⟩, ⟨hh, mm, n, nano⟩, o⟩⟩) (.dateTime y m d hh mm q (some o))
  | stamp {y o : Int} {m d hh mm n nano : Nat} {q : ℚ} : q = n + (nano : ℚ) / 10 ^ 9 →
      Carries (.stamp ⟨⟨⟨⟨y, m, d⟩, ⟨hh, mm, n, nano⟩, o⟩⟩⟩) (.dateTime y m d hh mm q (some o))
  | duration {neg y m d h n} {s q : ℚ} : |s - q| ≤ q / 2 ^ 50 →
      Carries (.duration ⟨neg, y, m, d, h, n, s⟩) (.duration neg y m d h n q)
  | gDay {d tz} : Carries (.gDay ⟨d, tz⟩) (.gDay d tz)
  | gMonth {m tz} : Carries (.gMonth ⟨m, tz⟩) (.gMonth m tz)
  | gMonthDay {m d tz} : Carries (.gMonthDay ⟨m, d, tz⟩) (.gMonthDay m d tz)
  | gYear {y tz} : Carries (.gYear ⟨y, tz⟩) (.gYear y tz)
  | gYearMonth {y m tz} : Carries (.gYearMonth ⟨y, m, tz⟩) (.gYearMonth y m tz)

/-- The Rust type reads the text as a value which is the XSD value. -/
def Reads (L : Lib) (rust : String) (s : List Char) (x : XVal) : Prop :=
  ∃ f v, libFromStr L rust.toList = some f ∧ f s = .ok v ∧ Carries v x

/-! ## Literals the program does not read -/

/-- Literals of a built-in type, and their values, which the generated code refuses or reads as another value, for
chrono dates from the year `lo` on. -/
inductive Lost (lo : Int) : String → List Char → XVal → Prop where
  /-- `1` and `0` for the truth values -/
  | digit {s x} : s = "1".toList ∨ s = "0".toList → Lost lo "boolean" s x
  /-- minus zero for a type without negative values -/
  | minus {n s x} : n ∈ ["nonNegativeInteger", "unsignedLong", "unsignedInt", "unsignedShort", "unsignedByte"] →
      s.head? = some '-' → Lost lo n s x
  /-- numbers whose nearest double has more than single precision -/
  | double {s b q} : ¬ Single (Ieee.rnd q) → Lost lo "float" s (.single (.num b q))
  /-- dates after the year 9999 -/
  | late {s y m d tz} : 9999 < y → Lost lo "date" s (.date y m d tz)
  /-- dates with a minus, without timezone or with one west of Greenwich -/
  | west {s x} : s.head? = some '-' → 'Z' ∉ s → '+' ∉ s → Lost lo "date" s x
  /-- dates before the calendar of chrono -/
  | early {s y m d tz} : y < lo → Lost lo "date" s (.date y m d tz)
  /-- times with a fraction of a second, and the end of the day -/
  | fraction {s x} : '.' ∈ s → Lost lo "time" s x
  | midnight {s m q tz} : Lost lo "time" s (.time 24 m q tz)
  /-- date-times with a minus or after the year 9999, at the end of a day, or more precise than a nanosecond -/
  | minusYear {n s x} : n = "dateTime" ∨ n = "dateTimeStamp" → s.head? = some '-' → Lost lo n s x
  | lateYear {n s y m d hh mm q tz} : n = "dateTime" ∨ n = "dateTimeStamp" → 9999 < y →
      Lost lo n s (.dateTime y m d hh mm q tz)
  | endOfDay {n s y m d mm q tz} : n = "dateTime" ∨ n = "dateTimeStamp" → Lost lo n s (.dateTime y m d 24 mm q tz)
  | precise {n s y m d hh mm tz} {q : ℚ} : n = "dateTime" ∨ n = "dateTimeStamp" → (∀ k : Nat, q * 10 ^ 9 ≠ k) →
      Lost lo n s (.dateTime y m d hh mm q tz)
  /-- date-times without timezone -/
  | zoneless {s y m d hh mm q} : Lost lo "dateTime" s (.dateTime y m d hh mm q none)
  /-- the year zero, and years beyond 32 bits -/
  | gYear {s y tz} : (y = 0 ∨ 2147483647 < |y|) → Lost lo "gYear" s (.gYear y tz)
  | gYearMonth {s y m tz} : (y = 0 ∨ 2147483647 < |y|) → Lost lo "gYearMonth" s (.gYearMonth y m tz)

/-- Literals with more than 2^63 fraction digits, or with numbers beyond 64 bits in durations. -/
def Huge (n : String) (s : List Char) : Prop :=
  (n = "decimal" ∧ ∃ sg ds fs, XsdDec s sg ds fs ∧ 2 ^ 63 ≤ fs.length) ∨
  (n = "duration" ∧ ∃ x, XsdDuration s x ∧ ¬ x.Fits)

end Verif.Spec
