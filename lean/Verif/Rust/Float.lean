import Verif.Rust.Str

/-!
# Machine arithmetic: overflow profiles and floating point operations
-/

namespace Verif

/-- Cargo build profile: integer overflow panics in `debug`, wraps around in `release`. -/
inductive Profile where
  | debug
  | release
  deriving DecidableEq, Repr

namespace U64

/-- `u64::MAX + 1`. -/
abbrev size : Nat := 18446744073709551616

/-- Result of a `u64` operation whose mathematical result is `n`. -/
def fit (p : Profile) (n : Nat) : Res Nat :=
  if n < size then .ok n
  else match p with
    | .debug => .panic
    | .release => .ok (n % size)

/-- `a * b` -/
def mul (p : Profile) (a b : Nat) : Res Nat := fit p (a * b)
/-- `a + b` -/
def add (p : Profile) (a b : Nat) : Res Nat := fit p (a + b)

end U64

/-- The `f64` operations used by the code.  The code is modelled for every implementation `F` of
these; `Ieee.ops` below instantiates them with correctly rounded binary64 arithmetic. -/
structure FloatOps (F : Type) where
  /-- `n as f64` for `n : u64` -/
  ofU64 : Nat → F
  /-- `a + b` -/
  add : F → F → F
  /-- `a - b` -/
  sub : F → F → F
  /-- `a * b` -/
  mul : F → F → F
  /-- `a / b` -/
  div : F → F → F
  /-- `0.0` -/
  zero : F
  /-- `1e9` -/
  e9 : F
  /-- `x > 0.0` -/
  gtZero : F → Bool
  /-- `x as u64` (truncating, saturating) -/
  toU64 : F → Nat
  /-- `x as u32` (truncating, saturating) -/
  toU32 : F → Nat
  /-- `format!("{}", x)` -/
  show' : F → Str

namespace Ieee

/-- Round the positive rational `a / b` to an integer, ties to even. -/
def roundEven (a b : Nat) : Nat :=
  let q := a / b
  let r := a % b
  if 2 * r < b then q
  else if b < 2 * r then q + 1
  else if q % 2 = 0 then q else q + 1

/-- Scale `a / b` by `2 ^ (-e)` as a pair of naturals. -/
def scale (a b : Nat) (e : Int) : Nat × Nat :=
  if e ≥ 0 then (a, b * 2 ^ e.toNat) else (a * 2 ^ (-e).toNat, b)

/-- Exponent `e` such that `2^52 ≤ (a/b) * 2^(-e) < 2^53` (for `a, b > 0`). -/
def expo (a b : Nat) : Int :=
  let e : Int := (Nat.log2 a : Int) - (Nat.log2 b : Int) - 52
  -- `a / b` lies in `[2^(la-lb-1), 2^(la-lb+1))`, so `e` is right or one too large
  let p := scale a b e
  if p.1 < 2 ^ 52 * p.2 then e - 1 else e

/-- Nearest binary64 value (ties to even) of a non-negative rational.  Simplification: the exponent
range is unbounded, so overflow to infinity and subnormal numbers are not modelled. -/
def rnd (x : Rat) : Rat :=
  if x ≤ 0 then 0
  else
    let a := x.num.toNat
    let b := x.den
    let e := expo a b
    let p := scale a b e
    let m := roundEven p.1 p.2
    if e ≥ 0 then ((m * 2 ^ e.toNat : Nat) : Rat) else mkRat m (2 ^ (-e).toNat)

/-- Correctly rounded arithmetic on non-negative finite values.  `show'` (shortest decimal) is a
parameter: the printing algorithm of the standard library is not modelled. -/
def ops (sh : Rat → Str) : FloatOps Rat where
  ofU64 n := rnd n
  add a b := rnd (a + b)
  sub a b := rnd (a - b)
  mul a b := rnd (a * b)
  div a b := rnd (a / b)
  zero := 0
  e9 := 1000000000
  gtZero x := decide (0 < x)
  toU64 x := min x.floor.toNat (U64.size - 1)
  toU32 x := min x.floor.toNat 4294967295
  show' := sh

end Ieee

/-- Exact rational arithmetic (no rounding), to state what the code computes up to rounding. -/
def exactOps (sh : Rat → Str) : FloatOps Rat where
  ofU64 n := n
  add a b := a + b
  sub a b := a - b
  mul a b := a * b
  div a b := a / b
  zero := 0
  e9 := 1000000000
  gtZero x := decide (0 < x)
  toU64 x := min x.floor.toNat (U64.size - 1)
  toU32 x := min x.floor.toNat 4294967295
  show' := sh

end Verif
