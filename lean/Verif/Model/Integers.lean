import Verif.Ext.NumBigint

/-!
# `xsd-types/src/types/{integer,non_negative_integer,positive_integer,non_positive_integer,negative_integer}.rs`
-/

namespace Verif.Model

open Verif NumBigint

/-- `struct Integer(BigInt)` — integer.rs:8; `from_bigint` (lines 11-13) is its constructor and `to_bigint` (lines 17-19) its field. -/
structure Integer where
  val : Int
  deriving DecidableEq, Repr
/-- `struct NonNegativeInteger(BigUint)` — non_negative_integer.rs:8; `from_biguint` (lines 11-13) is its constructor and `to_biguint` (lines 17-19) its field. -/
structure NonNegativeInteger where
  val : Nat
  deriving DecidableEq, Repr
/-- `struct PositiveInteger(BigUint)` — positive_integer.rs:8; `from_biguint` (lines 11-13) is its constructor and `to_biguint` (lines 17-19) its field. -/
structure PositiveInteger where
  val : Nat
  deriving DecidableEq, Repr
/-- `struct NonPositiveInteger(BigInt)` — non_positive_integer.rs:8; `from_bigint` (lines 11-13) is its constructor and `to_bigint` (lines 17-19) its field. -/
structure NonPositiveInteger where
  val : Int
  deriving DecidableEq, Repr
/-- `struct NegativeInteger(BigInt)` — negative_integer.rs:8; `from_bigint` (lines 11-13) is its constructor and `to_bigint` (lines 17-19) its field. -/
structure NegativeInteger where
  val : Int
  deriving DecidableEq, Repr

/-- `Integer::from_str` — integer.rs:25-27 -/
def Integer.fromStr (s : Str) : Res Integer := (Res.ofOption (parseBigInt s)).bind fun v => .ok ⟨v⟩
/-- `Display for Integer` — integer.rs:31-33 -/
def Integer.display (i : Integer) : Str := showBigInt i.val
/-- `#[derive(Default)]` — integer.rs:7 (the default `BigInt` is 0) -/
def Integer.default : Integer := ⟨0⟩

/-- `NonNegativeInteger::from_str` — non_negative_integer.rs:25-32 (`value < 0` never holds for a
`BigUint`) -/
def NonNegativeInteger.fromStr (s : Str) : Res NonNegativeInteger :=
  (Res.ofOption (parseBigUint s)).bind fun v => if v < 0 then .err else .ok ⟨v⟩
/-- `Display` — non_negative_integer.rs:36-38 -/
def NonNegativeInteger.display (i : NonNegativeInteger) : Str := showBigUint i.val
/-- `#[derive(Default)]` — non_negative_integer.rs:7 -/
def NonNegativeInteger.default : NonNegativeInteger := ⟨0⟩

/-- `PositiveInteger::from_str` — positive_integer.rs:25-32 -/
def PositiveInteger.fromStr (s : Str) : Res PositiveInteger :=
  (Res.ofOption (parseBigUint s)).bind fun v => if v ≤ 0 then .err else .ok ⟨v⟩
/-- `Display` — positive_integer.rs:36-38 -/
def PositiveInteger.display (i : PositiveInteger) : Str := showBigUint i.val
/-- `#[derive(Default)]` — positive_integer.rs:7 -/
def PositiveInteger.default : PositiveInteger := ⟨0⟩

/-- `NonPositiveInteger::from_str` — non_positive_integer.rs:25-32 -/
def NonPositiveInteger.fromStr (s : Str) : Res NonPositiveInteger :=
  (Res.ofOption (parseBigInt s)).bind fun v => if v > 0 then .err else .ok ⟨v⟩
/-- `Display` — non_positive_integer.rs:36-38 -/
def NonPositiveInteger.display (i : NonPositiveInteger) : Str := showBigInt i.val
/-- `#[derive(Default)]` — non_positive_integer.rs:7 -/
def NonPositiveInteger.default : NonPositiveInteger := ⟨0⟩

/-- `NegativeInteger::from_str` — negative_integer.rs:25-32 -/
def NegativeInteger.fromStr (s : Str) : Res NegativeInteger :=
  (Res.ofOption (parseBigInt s)).bind fun v => if v ≥ 0 then .err else .ok ⟨v⟩
/-- `Display` — negative_integer.rs:36-38 -/
def NegativeInteger.display (i : NegativeInteger) : Str := showBigInt i.val
/-- `#[derive(Default)]` — negative_integer.rs:7 -/
def NegativeInteger.default : NegativeInteger := ⟨0⟩

end Verif.Model
