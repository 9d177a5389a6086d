import Verif.Rust.Str

/-!
# External: `num-bigint` 0.4.4, parsing and printing in radix 10

`BigUint` is `Nat`, `BigInt` is `Int`.  Trusted transcription (the crate is not in this sandbox).
-/

namespace Verif.NumBigint

open Verif

/-- `BigUint::from_str` (= `from_str_radix(s, 10)`): one leading `+` is dropped unless another
follows; then a non-empty text that does not start with `_`, of digits and ignored `_`. -/
def parseBigUint (s : Str) : Option Nat :=
  let s := match s with
    | '+' :: t => if t.head? = some '+' then s else t
    | _ => s
  if s = [] then none
  else if s.head? = some '_' then none
  else if s.all fun c => Str.isAsciiDigit c || c == '_' then
    some (Str.digitsVal (s.filter Str.isAsciiDigit))
  else none

/-- `BigInt::from_str`: a leading `-` is dropped unless a `+` follows. -/
def parseBigInt (s : Str) : Option Int :=
  match s with
  | '-' :: t => (parseBigUint (if t.head? = some '+' then s else t)).map fun n => -Int.ofNat n
  | _ => (parseBigUint s).map Int.ofNat

/-- `BigUint::to_str_radix(10)` -/
def showBigUint (n : Nat) : Str := Str.natStr n

/-- `BigInt::to_str_radix(10)` -/
def showBigInt (v : Int) : Str := Str.intStr v

end Verif.NumBigint
