import Verif.Rust.Res

/-!
# Rust strings

`&str`/`String` are modelled as lists of Unicode scalar values (`Char`), together with the UTF-8
byte length of each character, so that byte-indexed slicing can hit or miss a character boundary
exactly as in Rust.
-/

namespace Verif

/-- A Rust string: its sequence of `char`s. -/
abbrev Str := List Char

namespace Str

/-- `str::len()`: number of UTF-8 bytes. -/
def byteLen : Str → Nat
  | [] => 0
  | c :: cs => c.utf8Size + byteLen cs

/-- `s.split_at(n)` / the two halves `(&s[..n], &s[n..])`; `none` when `n` is past the end or not on
a character boundary (Rust panics in these cases). -/
def splitByte : Str → Nat → Option (Str × Str)
  | s, 0 => some ([], s)
  | [], _ + 1 => none
  | c :: cs, n + 1 =>
    if c.utf8Size ≤ n + 1 then
      (splitByte cs (n + 1 - c.utf8Size)).map fun p => (c :: p.1, p.2)
    else none

/-- `&s[..n]` -/
def sliceTo (s : Str) (n : Nat) : Res Str := Res.unwrap ((splitByte s n).map (·.1))

/-- `&s[n..]` -/
def sliceFrom (s : Str) (n : Nat) : Res Str := Res.unwrap ((splitByte s n).map (·.2))

/-- `&s[a..b]` (only used with `a ≤ b`): Rust requires both ends to be in range and on character
boundaries. -/
def slice (s : Str) (a b : Nat) : Res Str :=
  (sliceTo s b).bind fun p => sliceFrom p a

/-- `s.strip_suffix(c)` for a character `c`. -/
def stripSuffix (c : Char) (s : Str) : Option Str :=
  if s.getLast? = some c then some s.dropLast else none

/-- `s.strip_prefix(c)` for a character `c`. -/
def stripPrefix (c : Char) : Str → Option Str
  | [] => none
  | d :: ds => if d = c then some ds else none

/-- `s.contains(c)`. -/
def hasChar (c : Char) (s : Str) : Bool := s.any (· == c)

/-- `s.matches(c).count()`. -/
def countChar (c : Char) (s : Str) : Nat := s.countP (· == c)

/-- `s.match_indices(c).collect::<Vec<_>>()[k].0`: byte offset of the `k`-th (0-based) occurrence;
indexing past the end of the vector panics. -/
def matchIndex (c : Char) : Str → Nat → Option Nat
  | [], _ => none
  | d :: ds, k =>
    if d = c then
      match k with
      | 0 => some 0
      | k + 1 => (matchIndex c ds k).map (· + d.utf8Size)
    else (matchIndex c ds k).map (· + d.utf8Size)

/-- The idiom `let idx = s.match_indices(c).collect::<Vec<_>>()[k].0; (&s[..idx], &s[idx..])`. -/
def splitAtMatch (c : Char) (s : Str) (k : Nat) : Res (Str × Str) :=
  (Res.unwrap (matchIndex c s k)).bind fun i => Res.unwrap (splitByte s i)

/-- `s.split(c).collect::<Vec<_>>()` for a character `c`: always at least one piece. -/
def splitOn (c : Char) : Str → List Str
  | [] => [[]]
  | d :: ds =>
    if d = c then [] :: splitOn c ds
    else
      match splitOn c ds with
      | [] => [[d]]
      | p :: ps => (d :: p) :: ps

/-- `char::is_ascii_digit`. -/
def isAsciiDigit (c : Char) : Bool := '0' ≤ c && c ≤ '9'

/-- `s.chars().all(|c| c.is_ascii_digit())`. -/
def allDigits (s : Str) : Bool := s.all isAsciiDigit

/-- Value of a string of decimal digits, most significant first. -/
def digitsVal (s : Str) : Nat := Nat.ofDigitChars 10 s 0

/-- Digits part of integer parsing: `None` on the empty string or on a non-digit. -/
def parseDigits (s : Str) : Option Nat :=
  if s = [] then none else if allDigits s then some (digitsVal s) else none

/-- `s.parse::<iN>()` for a signed type with range `lo..=hi` (std `from_str_radix(10)`): optional
single leading `+`/`-`, at least one digit, error on overflow. -/
def parseSigned (lo hi : Int) (s : Str) : Option Int :=
  let r : Option Int :=
    match s with
    | '-' :: ds => (parseDigits ds).map fun n => -Int.ofNat n
    | '+' :: ds => (parseDigits ds).map Int.ofNat
    | ds => (parseDigits ds).map Int.ofNat
  r.bind fun v => if lo ≤ v ∧ v ≤ hi then some v else none

/-- `s.parse::<uN>()` for an unsigned type with maximum `hi`: optional leading `+`. -/
def parseUnsigned (hi : Nat) (s : Str) : Option Nat :=
  let r : Option Nat :=
    match s with
    | '+' :: ds => parseDigits ds
    | ds => parseDigits ds
  r.bind fun v => if v ≤ hi then some v else none

/-- `i32::MIN`. -/
abbrev i32Min : Int := -2147483648
/-- `i32::MAX`. -/
abbrev i32Max : Int := 2147483647

/-- `s.parse::<i32>()`. -/
def parseI32 (s : Str) : Option Int := parseSigned i32Min i32Max s

/-- `n.to_string()` for an unsigned integer. -/
def natStr (n : Nat) : Str := Nat.toDigits 10 n

/-- Left-pad with `'0'` up to `w` characters. -/
def padZeros (w : Nat) (s : Str) : Str := List.replicate (w - s.length) '0' ++ s

/-- `format!("{:0w}", n)` for a non-negative integer. -/
def fmtPadNat (w : Nat) (n : Nat) : Str := padZeros w (natStr n)

/-- `format!("{:0w}", v)` for a signed integer: sign first, then zeros, total width `w`. -/
def fmtPad (w : Nat) (v : Int) : Str :=
  if v < 0 then '-' :: padZeros (w - 1) (natStr v.natAbs) else fmtPadNat w v.natAbs

/-- `v.to_string()` for a signed integer. -/
def intStr (v : Int) : Str := if v < 0 then '-' :: natStr v.natAbs else natStr v.natAbs

/-- All characters are ASCII. -/
def isAscii (s : Str) : Bool := s.all fun c => c.toNat < 128

end Str
end Verif
