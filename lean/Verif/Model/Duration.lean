import Verif.Rust.Float

/-!
# `xsd-types/src/types/duration.rs`

`f64` is a parameter `F` with operations `FloatOps F`; `u64` arithmetic follows the build profile.
-/

namespace Verif.Model

open Verif

/-- `struct Duration` — /repo/xsd-types/src/types/duration.rs:6-16 -/
structure Duration (F : Type) where
  isNegative : Bool
  years : Nat
  months : Nat
  days : Nat
  hours : Nat
  minutes : Nat
  seconds : F
  deriving DecidableEq, Repr

namespace Duration

variable {F : Type}

/-- `#[derive(Default)]` — duration.rs:5 -/
def default (o : FloatOps F) : Duration F := ⟨false, 0, 0, 0, 0, 0, o.zero⟩

/-- `to_std_duration` — duration.rs:19-30: seconds and nanoseconds handed to
`std::time::Duration::new`. -/
def toStdDuration (o : FloatOps F) (p : Profile) (d : Duration F) : Res (Nat × Nat) :=
  if d.years > 0 ∨ d.months > 0 then .err
  else
    let secs := o.toU64 d.seconds                                              -- 23
    let nanos := o.toU32 (o.mul (o.sub d.seconds (o.ofU64 secs)) o.e9)         -- 25
    (U64.mul p 24 d.days).bind fun x =>                                        -- 26
    (U64.add p d.hours x).bind fun x =>
    (U64.mul p 60 x).bind fun x =>
    (U64.add p d.minutes x).bind fun x =>
    (U64.mul p 60 x).bind fun x =>
    (U64.add p secs x).bind fun secs => .ok (secs, nanos)                      -- 28

/-- `struct ParsingContext` — duration.rs:255-267 -/
structure Ctx where
  pFound : Bool
  tFound : Bool
  last : Int
  number : Nat
  numberEmpty : Bool
  dotFound : Bool
  numer : Nat
  denom : Nat
  deriving DecidableEq, Repr

/-- `ParsingContext::new` — duration.rs:270-283 -/
def Ctx.new : Ctx := ⟨false, false, 0, 0, true, false, 0, 1⟩

/-- `fill_component` — duration.rs:44-72; returns the new context, the caller stores
`context.number` in the component. -/
def fillComponent (c : Ctx) (idx : Int) : Res Ctx :=
  if c.numberEmpty then .err                                                   -- 51-56
  else if c.dotFound then .err                                                 -- 58-60
  else if c.last ≥ idx then .err                                               -- 62-64
  else .ok { c with last := idx, number := 0, numberEmpty := true }            -- 67-71

/-- `fill_seconds` — duration.rs:74-96 -/
def fillSeconds (o : FloatOps F) (c : Ctx) : Res (F × Ctx) :=
  if c.numberEmpty then .err                                                   -- 78-80
  else if c.dotFound = true ∧ c.denom = 1 then .err                            -- 82-84
  else if c.last ≥ 6 then .err                                                 -- 86-88
  else .ok (o.add (o.ofU64 c.number) (o.div (o.ofU64 c.numer) (o.ofU64 c.denom)),  -- 90
      { c with last := 6, number := 0, numberEmpty := true })                  -- 91-93

/-- `digit.to_digit(10)` of an ASCII digit. -/
def digitVal (c : Char) : Nat := c.toNat - 48

/-- One iteration of the loop — duration.rs:105-191 -/
def step (o : FloatOps F) (p : Profile) (i : Nat) (st : Duration F × Ctx) (ch : Char) :
    Res (Duration F × Ctx) :=
  let d := st.1
  let c := st.2
  if ch = '-' then                                                             -- 107-113
    if i = 0 then .ok ({ d with isNegative := true }, c) else .err
  else if ch = 'P' then                                                        -- 114-120
    if i = 0 ∨ (i = 1 ∧ d.isNegative = true) then .ok (d, { c with pFound := true }) else .err
  else if ch = 'T' then                                                        -- 121-132
    if c.tFound then .err
    else if c.number > 0 then .err
    else .ok (d, { c with tFound := true, last := 3 })
  else if ch = 'Y' then                                                        -- 135-137
    (fillComponent c 1).bind fun c' => .ok ({ d with years := c.number }, c')
  else if ch = 'M' then                                                        -- 138-144
    if c.tFound then (fillComponent c 5).bind fun c' => .ok ({ d with minutes := c.number }, c')
    else (fillComponent c 2).bind fun c' => .ok ({ d with months := c.number }, c')
  else if ch = 'D' then                                                        -- 145-147
    (fillComponent c 3).bind fun c' => .ok ({ d with days := c.number }, c')
  else if ch = 'H' then                                                        -- 148-153
    if ¬ c.tFound = true then .err
    else (fillComponent c 4).bind fun c' => .ok ({ d with hours := c.number }, c')
  else if ch = 'S' then                                                        -- 154-159
    if ¬ c.tFound = true then .err
    else (fillSeconds o c).bind fun (s, c') => .ok ({ d with seconds := s }, c')
  else if ch = '.' then                                                        -- 162-172
    if c.dotFound then .err
    else if c.numberEmpty then .err
    else .ok (d, { c with dotFound := true })
  else if ¬ Str.isAsciiDigit ch = true then .err                               -- 173-176
  else if c.dotFound then                                                      -- 178-182
    (U64.mul p c.numer 10).bind fun n =>
    (U64.add p n (digitVal ch)).bind fun n =>
    (U64.mul p c.denom 10).bind fun m => .ok (d, { c with numer := n, denom := m })
  else                                                                         -- 183-188
    (U64.mul p c.number 10).bind fun n =>
    (U64.add p n (digitVal ch)).bind fun n =>
    .ok (d, { c with number := n, numberEmpty := false })

/-- The loop `for (i, c) in s.chars().enumerate()` — duration.rs:105 -/
def loop (o : FloatOps F) (p : Profile) : Nat → Duration F × Ctx → Str → Res (Duration F × Ctx)
  | _, st, [] => .ok st
  | i, st, ch :: cs => (step o p i st ch).bind fun st => loop o p (i + 1) st cs

/-- The checks after the loop — duration.rs:193-209 -/
def finish (st : Duration F × Ctx) : Res (Duration F) :=
  let c := st.2
  if c.number > 0 then .err
  else if ¬ c.pFound = true then .err
  else if c.last = 0 then .err
  else if c.last ≤ 3 ∧ c.tFound = true then .err
  else .ok st.1

/-- `Duration::from_str` — duration.rs:43-210 -/
def fromStr (o : FloatOps F) (p : Profile) (s : Str) : Res (Duration F) :=
  if s = [] then .ok (default o)                                               -- 101-103
  else (loop o p 0 (default o, Ctx.new) s).bind finish

/-- `impl Display` — duration.rs:213-253 -/
def display (o : FloatOps F) (d : Duration F) : Str :=
  let s : Str := if d.isNegative then ['-', 'P'] else ['P']
  let dateStr : Str :=
    (if d.years > 0 then Str.natStr d.years ++ ['Y'] else []) ++
    (if d.months > 0 then Str.natStr d.months ++ ['M'] else []) ++
    (if d.days > 0 then Str.natStr d.days ++ ['D'] else [])
  let timeStr : Str :=
    (if d.hours > 0 then Str.natStr d.hours ++ ['H'] else []) ++
    (if d.minutes > 0 then Str.natStr d.minutes ++ ['M'] else []) ++
    (if o.gtZero d.seconds then o.show' d.seconds ++ ['S'] else [])
  if timeStr = [] then
    if dateStr = [] then s ++ ['0', 'Y'] else s ++ dateStr
  else s ++ dateStr ++ 'T' :: timeStr

end Duration
end Verif.Model
