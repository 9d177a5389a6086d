/-!
# Specification: XSD lexical spaces of the date-like types

Independent of the model: plain text shapes built from decimal digits.
Texts are lists of Unicode characters.
-/

namespace Verif.Spec

/-- Decimal digit character of `n < 10`. -/
def digit (n : Nat) : Char := Char.ofNat (48 + n)

/-- Exactly two digits. -/
def two (n : Nat) : List Char := [digit (n / 10), digit (n % 10)]

/-- The text `t` denotes the XSD timezone of `off` seconds east of UTC:
`Z`, or a sign, two-digit hours, a colon, two-digit minutes, at most 14:00. -/
inductive TzText : List Char → Int → Prop where
  | zulu : TzText ['Z'] 0
  | east (h m : Nat) : m < 60 → 60 * h + m ≤ 14 * 60 →
      TzText ('+' :: (two h ++ ':' :: two m)) (3600 * h + 60 * m)
  | west (h m : Nat) : m < 60 → 60 * h + m ≤ 14 * 60 →
      TzText ('-' :: (two h ++ ':' :: two m)) (-(3600 * h + 60 * m))

/-- Optional timezone suffix. -/
inductive OptTz : List Char → Option Int → Prop where
  | none : OptTz [] none
  | some {t off} : TzText t off → OptTz t (some off)

/-- Offsets expressible in XSD: whole minutes, at most 14 hours either way. -/
def XsdOffset (off : Int) : Prop := off % 60 = 0 ∧ -50400 ≤ off ∧ off ≤ 50400

/-- Optional XSD offset. -/
def XsdTz : Option Int → Prop
  | none => True
  | some off => XsdOffset off

/-- Value of a digit sequence read left to right. -/
def decVal (ds : List Nat) : Nat := ds.foldl (fun acc d => 10 * acc + d) 0

/-- The text `y` is a sequence of at least four decimal digits with value `n`. -/
def YearDigits (y : List Char) (n : Nat) : Prop :=
  ∃ ds : List Nat, (∀ d ∈ ds, d < 10) ∧ 4 ≤ ds.length ∧ y = ds.map digit ∧ n = decVal ds

/-- gDay: `---DD` with optional timezone. -/
def GDayText (s : List Char) (day : Int) (tz : Option Int) : Prop :=
  ∃ (d : Nat) (t : List Char), 1 ≤ d ∧ d ≤ 31 ∧ day = d ∧
    s = ['-', '-', '-'] ++ two d ++ t ∧ OptTz t tz

/-- gMonth: `--MM` with optional timezone. -/
def GMonthText (s : List Char) (month : Int) (tz : Option Int) : Prop :=
  ∃ (m : Nat) (t : List Char), 1 ≤ m ∧ m ≤ 12 ∧ month = m ∧
    s = ['-', '-'] ++ two m ++ t ∧ OptTz t tz

/-- Longest length of each month (February may have 29 days). -/
def maxDay (m : Nat) : Nat :=
  if m = 2 then 29 else if m = 4 ∨ m = 6 ∨ m = 9 ∨ m = 11 then 30 else 31

/-- Valid month/day pair in some year. -/
def ValidMonthDay (month day : Int) : Prop :=
  ∃ m d : Nat, month = m ∧ day = d ∧ 1 ≤ m ∧ m ≤ 12 ∧ 1 ≤ d ∧ d ≤ maxDay m

/-- gMonthDay: `--MM-DD` with optional timezone. -/
def GMonthDayText (s : List Char) (month day : Int) (tz : Option Int) : Prop :=
  ∃ (m d : Nat) (t : List Char), 1 ≤ m ∧ m ≤ 12 ∧ 1 ≤ d ∧ d ≤ maxDay m ∧ month = m ∧ day = d ∧
    s = ['-', '-'] ++ two m ++ ['-'] ++ two d ++ t ∧ OptTz t tz

/-- Optional minus sign: the sign text and the factor it denotes. -/
inductive SignText : List Char → Int → Prop where
  | pos : SignText [] 1
  | neg : SignText ['-'] (-1)

/-- gYear (32-bit): optional minus, at least four digits, not zero, optional timezone. -/
def GYearText (s : List Char) (year : Int) (tz : Option Int) : Prop :=
  ∃ (sg y t : List Char) (k : Int) (n : Nat), SignText sg k ∧ YearDigits y n ∧
    1 ≤ n ∧ n ≤ 2147483647 ∧ year = k * n ∧ s = sg ++ y ++ t ∧ OptTz t tz

/-- gYearMonth (32-bit year). -/
def GYearMonthText (s : List Char) (year month : Int) (tz : Option Int) : Prop :=
  ∃ (sg y t : List Char) (k : Int) (n m : Nat), SignText sg k ∧ YearDigits y n ∧
    1 ≤ n ∧ n ≤ 2147483647 ∧ 1 ≤ m ∧ m ≤ 12 ∧ year = k * n ∧ month = m ∧
    s = sg ++ y ++ ['-'] ++ two m ++ t ∧ OptTz t tz

/-- Number of UTF-8 bytes of a text. -/
def utf8Bytes (s : List Char) : Nat := (s.map Char.utf8Size).sum

/-- Byte offset `n` is a character boundary of `s`. -/
def Boundary (s : List Char) (n : Nat) : Prop := ∃ a b, s = a ++ b ∧ utf8Bytes a = n

/-- `body` is what remains of `s` once a trailing timezone designator is cut off, where the body is
expected to contain `k` dashes: cut a final `Z`; otherwise cut from the only `+`; otherwise, when
there are exactly `k + 1` dashes, cut from the last one; otherwise there is no designator. -/
def ValuePart (k : Nat) (s body : List Char) : Prop :=
  s = body ++ ['Z'] ∨
  (s.getLast? ≠ some 'Z' ∧
    ((∃ u, s = body ++ '+' :: u ∧ s.count '+' = 1) ∨
     ('+' ∉ s ∧ s.count '-' = k + 1 ∧ ∃ u, s = body ++ '-' :: u ∧ '-' ∉ u) ∨
     ('+' ∉ s ∧ s.count '-' ≠ k + 1 ∧ s = body)))

end Verif.Spec
