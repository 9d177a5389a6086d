import Verif.Model.Builtin

/-!
# `Default` of the Rust types which stand for the built-in types

Those of the crate `xsd-types` as written in their sources, cited at the definitions; those of the standard library
(`String`, `bool`, the machine numbers) as documented there.
-/

namespace Verif.Model

open Verif Chrono

/-- Rust type and its `default()`. -/
def defaultTable (L : Lib) : List (String × Res LibVal) :=
  [("String", .ok (.text [])), ("bool", .ok (.bool false)),
   ("i64", .ok (.int 0)), ("i32", .ok (.int 0)), ("i16", .ok (.int 0)), ("i8", .ok (.int 0)),
   ("u64", .ok (.int 0)), ("u32", .ok (.int 0)), ("u16", .ok (.int 0)), ("u8", .ok (.int 0)),
   ("f64", .ok (.float (.num false 0 0))),
   ("xs::Integer", .ok (.int Integer.default.val)),
   ("xs::NonNegativeInteger", .ok (.int NonNegativeInteger.default.val)),
   ("xs::PositiveInteger", .ok (.int PositiveInteger.default.val)),
   ("xs::NonPositiveInteger", .ok (.int NonPositiveInteger.default.val)),
   ("xs::NegativeInteger", .ok (.int NegativeInteger.default.val)),
   ("xs::Decimal", .ok (.dec Decimal.default)),
   ("xs::Date", (Date.default L.years).map .date),
   ("xs::Time", .ok (.time Time.default)),
   ("xs::DateTime", (DateTime.default L.years).map .dateTime),
   ("xs::DateTimeStamp", (DateTimeStamp.default L.years).map .stamp),
   ("xs::Duration", .ok (.duration (Duration.default (Ieee.ops L.sh)))),
   ("xs::GDay", .ok (.gDay GDay.default)), ("xs::GMonth", .ok (.gMonth GMonth.default)),
   ("xs::GMonthDay", .ok (.gMonthDay GMonthDay.default)),
   ("xs::GYear", .ok (.gYear GYear.default)), ("xs::GYearMonth", .ok (.gYearMonth GYearMonth.default))]

/-- `<ty as Default>::default()` -/
def libDefault (L : Lib) (ty : Str) : Option (Res LibVal) :=
  ((defaultTable L).find? fun r => r.1.toList = ty).map (·.2)

end Verif.Model
