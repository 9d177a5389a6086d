import Verif.Rust.Prim
import Verif.Model.Integers
import Verif.Model.Decimal
import Verif.Model.DateTime
import Verif.Model.Duration
import Verif.Model.Gregorian
import Verif.Model.Serde

/-!
# `FromStr` and `Display` of the Rust types which stand for the built-in types

The types named by `match_built_in_type` (/repo/xsd-parser/src/generator/utils.rs:21-96): those of the standard
library and those of the crate `xsd-types`, there under the alias `xs`.
-/

namespace Verif.Model

open Verif Chrono

/-- What the values depend on besides the text: printing of doubles, build profile, years of chrono, and the decimal
numbers which are printed with an exponent. -/
structure Lib where
  sh : Rat → Str
  profile : Profile
  years : YearRange
  expo : BigDecimal.Dec → Bool

/-- A value of one of these types. -/
inductive LibVal where
  | text (s : Str)
  | bool (b : Bool)
  | int (v : Int)
  | dec (d : Decimal)
  | float (f : F64)
  | date (d : Date)
  | time (t : Time)
  | dateTime (d : DateTime)
  | stamp (d : DateTimeStamp)
  | duration (d : Duration Rat)
  | gDay (g : GDay)
  | gMonth (g : GMonth)
  | gMonthDay (g : GMonthDay)
  | gYear (g : GYear)
  | gYearMonth (g : GYearMonth)

/-- Rust type and its `from_str`. -/
def libTable (L : Lib) : List (String × (Str → Res LibVal)) :=
  [("String", fun s => .ok (.text s)),
   ("bool", fun s => Res.map .bool (Res.ofOption (parseBool s))),
   ("i64", fun s => Res.map .int (Res.ofOption (Str.parseSigned (-9223372036854775808) 9223372036854775807 s))),
   ("i32", fun s => Res.map .int (Res.ofOption (Str.parseSigned (-2147483648) 2147483647 s))),
   ("i16", fun s => Res.map .int (Res.ofOption (Str.parseSigned (-32768) 32767 s))),
   ("i8", fun s => Res.map .int (Res.ofOption (Str.parseSigned (-128) 127 s))),
   ("u64", fun s => Res.map (fun n : Nat => .int n) (Res.ofOption (Str.parseUnsigned 18446744073709551615 s))),
   ("u32", fun s => Res.map (fun n : Nat => .int n) (Res.ofOption (Str.parseUnsigned 4294967295 s))),
   ("u16", fun s => Res.map (fun n : Nat => .int n) (Res.ofOption (Str.parseUnsigned 65535 s))),
   ("u8", fun s => Res.map (fun n : Nat => .int n) (Res.ofOption (Str.parseUnsigned 255 s))),
   ("f64", fun s => Res.map .float (Res.ofOption (parseF64 s))),
   ("xs::Integer", fun s => Res.map (fun i : Integer => .int i.val) (Integer.fromStr s)),
   ("xs::NonNegativeInteger", fun s => Res.map (fun i : NonNegativeInteger => .int i.val) (NonNegativeInteger.fromStr s)),
   ("xs::PositiveInteger", fun s => Res.map (fun i : PositiveInteger => .int i.val) (PositiveInteger.fromStr s)),
   ("xs::NonPositiveInteger", fun s => Res.map (fun i : NonPositiveInteger => .int i.val) (NonPositiveInteger.fromStr s)),
   ("xs::NegativeInteger", fun s => Res.map (fun i : NegativeInteger => .int i.val) (NegativeInteger.fromStr s)),
   ("xs::Decimal", fun s => Res.map .dec (Decimal.fromStr s)),
   ("xs::Date", fun s => Res.map .date (Date.fromStr L.years s)),
   ("xs::Time", fun s => Res.map .time (Time.fromStr s)),
   ("xs::DateTime", fun s => Res.map .dateTime (DateTime.fromStr L.years s)),
   ("xs::DateTimeStamp", fun s => Res.map .stamp (DateTimeStamp.fromStr L.years s)),
   ("xs::Duration", fun s => Res.map .duration (Duration.fromStr (Ieee.ops L.sh) L.profile s)),
   ("xs::GDay", fun s => Res.map .gDay (GDay.fromStr s)),
   ("xs::GMonth", fun s => Res.map .gMonth (GMonth.fromStr s)),
   ("xs::GMonthDay", fun s => Res.map .gMonthDay (GMonthDay.fromStr s)),
   ("xs::GYear", fun s => Res.map .gYear (GYear.fromStr s)),
   ("xs::GYearMonth", fun s => Res.map .gYearMonth (GYearMonth.fromStr s))]

/-- `<ty as FromStr>::from_str` -/
def libFromStr (L : Lib) (ty : Str) : Option (Str → Res LibVal) :=
  ((libTable L).find? fun r => r.1.toList = ty).map (·.2)

/-- Integer type and its `to_string`. -/
def intDisplays : List (String × (Int → Str)) :=
  [("i64", Str.intStr), ("i32", Str.intStr), ("i16", Str.intStr), ("i8", Str.intStr),
   ("u64", fun v => Str.natStr v.toNat), ("u32", fun v => Str.natStr v.toNat), ("u16", fun v => Str.natStr v.toNat),
   ("u8", fun v => Str.natStr v.toNat),
   ("xs::Integer", fun v => Integer.display ⟨v⟩),
   ("xs::NonNegativeInteger", fun v => NonNegativeInteger.display ⟨v.toNat⟩),
   ("xs::PositiveInteger", fun v => PositiveInteger.display ⟨v.toNat⟩),
   ("xs::NonPositiveInteger", fun v => NonPositiveInteger.display ⟨v⟩),
   ("xs::NegativeInteger", fun v => NegativeInteger.display ⟨v⟩)]

/-- The type of a value which is no integer, and its `to_string`. -/
def libDisplay (L : Lib) : LibVal → Option (String × Res Str)
  | .text s => some ("String", .ok s)
  | .bool b => some ("bool", .ok (showBool b))
  | .int _ => none
  | .dec d => some ("xs::Decimal", .ok (d.display L.expo))
  | .float f => some ("f64", .ok (showF64 L.sh f))
  | .date d => some ("xs::Date", .ok d.toStr)
  | .time t => some ("xs::Time", .ok t.toStr)
  | .dateTime d => some ("xs::DateTime", .ok d.toStr)
  | .stamp d => some ("xs::DateTimeStamp", .ok d.toStr)
  | .duration d => some ("xs::Duration", .ok (d.display (Ieee.ops L.sh)))
  | .gDay g => some ("xs::GDay", .ok g.display)
  | .gMonth g => some ("xs::GMonth", .ok g.display)
  | .gMonthDay g => some ("xs::GMonthDay", .ok g.display)
  | .gYear g => some ("xs::GYear", g.display)
  | .gYearMonth g => some ("xs::GYearMonth", g.display)

/-- `<ty as Display>::to_string`; nothing for values of other types. -/
def libToString (L : Lib) (ty : Str) (v : LibVal) : Option (Res Str) :=
  match v with
  | .int v => (intDisplays.find? fun r => r.1.toList = ty).map fun r => .ok (r.2 v)
  | v => (libDisplay L v).bind fun r => if r.1.toList = ty then some r.2 else none

end Verif.Model
