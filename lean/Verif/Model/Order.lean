import Verif.Ext.ChronoOrder
import Verif.Model.DateTime
import Verif.Model.Decimal
import Verif.Model.Duration
import Verif.Model.Integers

/-!
# Model: the derived comparisons of `xsd-types`

`#[derive(PartialOrd)]` compares the fields in the order in which they are declared; the first pair which is not
equal decides.  `a < b` and `a <= b` of Rust ask whether `partial_cmp` is `Some(Less)` and `Some(Less | Equal)`.
The types `Date`, `Time`, `GDay`, `GMonth`, `GMonthDay`, `GYear` and `GYearMonth` derive no order
(date.rs:8, time.rs:8, gday.rs:8, gmonth.rs:8, gmonthday.rs:8, gyear.rs:8, gyearmonth.rs:8).
-/

namespace Verif.Model

open Verif

/-- One step of the derived `partial_cmp`: what follows counts if this field is equal. -/
def cmpThen (a rest : Option Ordering) : Option Ordering :=
  match a with
  | some .eq => rest
  | o => o

/-- `a < b` -/
def opLt (c : Option Ordering) : Bool :=
  match c with
  | some .lt => true
  | _ => false

/-- `a <= b` -/
def opLe (c : Option Ordering) : Bool :=
  match c with
  | some .lt => true
  | some .eq => true
  | _ => false

/-- `false < true` -/
def boolCmp : Bool → Bool → Ordering
  | false, true => .lt
  | true, false => .gt
  | _, _ => .eq

/-- derived `PartialOrd` of `Duration` — duration.rs:5-14; `fcmp` is `f64::partial_cmp` -/
def Duration.partialCmp {F : Type} (fcmp : F → F → Option Ordering) (a b : Duration F) : Option Ordering :=
  cmpThen (some (boolCmp a.isNegative b.isNegative)) <|
  cmpThen (some (compare a.years b.years)) <|
  cmpThen (some (compare a.months b.months)) <|
  cmpThen (some (compare a.days b.days)) <|
  cmpThen (some (compare a.hours b.hours)) <|
  cmpThen (some (compare a.minutes b.minutes)) <|
  cmpThen (fcmp a.seconds b.seconds) (some .eq)

/-- derived `PartialOrd` of `DateTime` — datetime.rs:6-9 -/
def DateTime.partialCmp (a b : DateTime) : Option Ordering := cmpThen (some (a.value.cmp b.value)) (some .eq)

/-- derived `PartialOrd` of `DateTimeStamp` — datetimestamp.rs:9-12 -/
def DateTimeStamp.partialCmp (a b : DateTimeStamp) : Option Ordering :=
  cmpThen (a.value.partialCmp b.value) (some .eq)

/-- derived `PartialOrd` of `Decimal` — decimal.rs:6-7 -/
def Decimal.partialCmp (a b : Decimal) : Option Ordering := cmpThen (some (BigDecimal.cmp a.val b.val)) (some .eq)

/-- derived `PartialOrd` of `Integer` — integer.rs:7-8 -/
def Integer.partialCmp (a b : Integer) : Option Ordering := cmpThen (some (compare a.val b.val)) (some .eq)

/-- derived `PartialOrd` of `NonNegativeInteger` — non_negative_integer.rs:7-8 -/
def NonNegativeInteger.partialCmp (a b : NonNegativeInteger) : Option Ordering :=
  cmpThen (some (compare a.val b.val)) (some .eq)

/-- derived `PartialOrd` of `PositiveInteger` — positive_integer.rs:7-8 -/
def PositiveInteger.partialCmp (a b : PositiveInteger) : Option Ordering :=
  cmpThen (some (compare a.val b.val)) (some .eq)

/-- derived `PartialOrd` of `NonPositiveInteger` — non_positive_integer.rs:7-8 -/
def NonPositiveInteger.partialCmp (a b : NonPositiveInteger) : Option Ordering :=
  cmpThen (some (compare a.val b.val)) (some .eq)

/-- derived `PartialOrd` of `NegativeInteger` — negative_integer.rs:7-8 -/
def NegativeInteger.partialCmp (a b : NegativeInteger) : Option Ordering :=
  cmpThen (some (compare a.val b.val)) (some .eq)

end Verif.Model
