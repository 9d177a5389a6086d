import Verif.Spec.Lexical
import Verif.Spec.Duration
import Verif.Spec.Integers

/-!
# Specification: dates, times of day, date-times

The proleptic Gregorian calendar and the accepted texts, independent of the model.
-/

namespace Verif.Spec

/-- Leap year of the proleptic Gregorian calendar. -/
def LeapYear (y : Int) : Prop := (y % 4 = 0 ∧ y % 100 ≠ 0) ∨ y % 400 = 0

/-- The calendar date exists. -/
def ValidDate (y : Int) (m d : Nat) : Prop :=
  1 ≤ m ∧ m ≤ 12 ∧ 1 ≤ d ∧ d ≤ maxDay m ∧ (m = 2 ∧ d = 29 → LeapYear y)

/-- Exactly four digits. -/
def four (n : Nat) : List Char := two (n / 100) ++ two (n % 100)

/-- Unicode `White_Space`, by code point. -/
def Space (c : Char) : Prop :=
  (9 ≤ c.toNat ∧ c.toNat ≤ 13) ∨ (0x2000 ≤ c.toNat ∧ c.toNat ≤ 0x200A) ∨
  c.toNat ∈ [0x20, 0x85, 0xA0, 0x1680, 0x2028, 0x2029, 0x202F, 0x205F, 0x3000]

/-- A possibly empty run of white space. -/
def Spaces (w : List Char) : Prop := ∀ c ∈ w, Space c

/-- One or two digits. -/
def Digits12 (ds : List Nat) : Prop := Digits ds ∧ (ds.length = 1 ∨ ds.length = 2)

/-- A year as chrono's `%Y` reads it: at most four digits, or an explicit sign and any digits. -/
inductive YearText : Sign → List Char → Int → Prop where
  | none (ds : List Nat) : Digits1 ds → ds.length ≤ 4 → YearText .none (dtext ds) (decVal ds)
  | plus (ds : List Nat) : Digits1 ds → YearText .plus ('+' :: dtext ds) (decVal ds)
  | minus (ds : List Nat) : Digits1 ds → YearText .minus ('-' :: dtext ds) (-(decVal ds : Int))

/-- `%Y-%m-%d` as chrono reads it: white space is allowed before each number. -/
def DateBody (sg : Sign) (s : List Char) (y : Int) (m d : Nat) : Prop :=
  ∃ (w1 yt w2 : List Char) (ms : List Nat) (w3 : List Char) (ds : List Nat),
    Spaces w1 ∧ YearText sg yt y ∧ Spaces w2 ∧ Digits12 ms ∧ Spaces w3 ∧ Digits12 ds ∧
    m = decVal ms ∧ d = decVal ds ∧
    s = w1 ++ yt ++ ['-'] ++ w2 ++ dtext ms ++ ['-'] ++ w3 ++ dtext ds

/-- When a signed year is not mistaken for a timezone: a `+` year needs a `Z`, a `-` year needs a
`Z` or an offset with `+`. -/
def SignOk : Sign → List Char → Prop
  | .none, _ => True
  | .plus, t => t = ['Z']
  | .minus, t => t = ['Z'] ∨ ∃ u, t = '+' :: u

/-- XSD date with a four-digit year. -/
def XsdDateText (s : List Char) (y m d : Nat) (tz : Option Int) : Prop :=
  ∃ t, y < 10000 ∧ ValidDate y m d ∧ OptTz t tz ∧ s = four y ++ ['-'] ++ two m ++ ['-'] ++ two d ++ t

/-- `%H:%M:%S` as chrono reads it. -/
def TimeBody (s : List Char) (h m sec : Nat) : Prop :=
  ∃ (w1 : List Char) (hs : List Nat) (w2 : List Char) (ms : List Nat) (w3 : List Char) (ss : List Nat),
    Spaces w1 ∧ Digits12 hs ∧ Spaces w2 ∧ Digits12 ms ∧ Spaces w3 ∧ Digits12 ss ∧
    h = decVal hs ∧ m = decVal ms ∧ sec = decVal ss ∧
    s = w1 ++ dtext hs ++ [':'] ++ w2 ++ dtext ms ++ [':'] ++ w3 ++ dtext ss

/-- Nanoseconds denoted by fraction digits: the first nine count, missing ones are zero. -/
def nanoOf (ds : List Nat) : Nat := decVal ((ds ++ List.replicate 9 0).take 9)

/-- Optional fraction of a second. -/
inductive FracText : List Char → Nat → Prop where
  | none : FracText [] 0
  | some (ds : List Nat) : Digits1 ds → FracText ('.' :: dtext ds) (nanoOf ds)

/-- `YYYY-MM-DDThh:mm:ss` with optional fraction; `sep` is the character between date and time. -/
def DateTimeBody (s : List Char) (sep : Char) (y m d hh mm ss nano : Nat) : Prop :=
  ∃ f, y < 10000 ∧ ValidDate y m d ∧ hh < 24 ∧ mm < 60 ∧ ss ≤ 60 ∧ FracText f nano ∧
    s = four y ++ ['-'] ++ two m ++ ['-'] ++ two d ++ [sep] ++
      two hh ++ [':'] ++ two mm ++ [':'] ++ two ss ++ f

/-- Separators RFC 3339 parsing tolerates. -/
def SepOk (c : Char) : Prop := c = 'T' ∨ c = 't' ∨ c = ' '

/-- `±hh:mm` below 24 hours with the given sign character. -/
inductive OffText : Char → List Char → Int → Prop where
  | east (h m : Nat) : h < 24 → m < 60 → OffText '+' ('+' :: (two h ++ [':'] ++ two m)) (3600 * h + 60 * m)
  | west (c : Char) (h m : Nat) : c = '-' ∨ c = '−' → h < 24 → m < 60 →
      OffText c (c :: (two h ++ [':'] ++ two m)) (-(3600 * h + 60 * m))

/-- Offset designator of RFC 3339 as chrono reads it. -/
inductive RfcTz : List Char → Int → Prop where
  | zulu : RfcTz ['Z'] 0
  | zuluLower : RfcTz ['z'] 0
  | off {c t o} : OffText c t o → RfcTz t o

/-- Offset designator of `DateTime`: absent means UTC. -/
inductive DtTz : List Char → Int → Prop where
  | none : DtTz [] 0
  | zulu : DtTz ['Z'] 0
  | off {c t o} : c = '+' ∨ c = '-' → OffText c t o → DtTz t o

end Verif.Spec
