import Verif.Ext.BigDecimal

/-! # `xsd-types/src/types/decimal.rs` -/

namespace Verif.Model

open Verif

/-- `struct Decimal(pub BigDecimal)` — decimal.rs:6-7 -/
structure Decimal where
  val : BigDecimal.Dec
  deriving DecidableEq, Repr

/-- `Decimal::from_str` — decimal.rs:22-24 -/
def Decimal.fromStr (s : Str) : Res Decimal := (Res.ofOption (BigDecimal.parse s)).bind fun v => .ok ⟨v⟩

/-- `Display for Decimal` — decimal.rs:28-30 -/
def Decimal.display (expo : BigDecimal.Dec → Bool) (d : Decimal) : Str := BigDecimal.display expo d.val

/-- `#[derive(Default)]` — decimal.rs:6 -/
def Decimal.default : Decimal := ⟨⟨0, 0⟩⟩

end Verif.Model
