import Verif.Rust.Str

/-!
# Character classes of Rust's `char`

`char::is_alphanumeric`, `is_numeric`, `is_lowercase` and `is_uppercase` are defined by the Unicode
tables compiled into std.  The tables themselves are not modelled: a `UnicodeTable` is *any* choice of
the four predicates which agrees with ASCII on ASCII characters and where numeric characters are
alphanumeric.  Every theorem about names is for every table.
-/

namespace Verif

/-- `char::is_ascii_uppercase` -/
def asciiUpper (c : Char) : Bool := 'A' ≤ c && c ≤ 'Z'
/-- `char::is_ascii_lowercase` -/
def asciiLower (c : Char) : Bool := 'a' ≤ c && c ≤ 'z'
/-- `char::is_ascii_alphanumeric` -/
def asciiAlnum (c : Char) : Bool := Str.isAsciiDigit c || asciiUpper c || asciiLower c
/-- `char::to_ascii_lowercase` -/
def toAsciiLower (c : Char) : Char := if asciiUpper c then Char.ofNat (c.toNat + 32) else c
/-- `char::to_ascii_uppercase` -/
def toAsciiUpper (c : Char) : Char := if asciiLower c then Char.ofNat (c.toNat - 32) else c

/-- The Unicode predicates of std. -/
structure UnicodeTable where
  /-- `char::is_alphanumeric` -/
  isAlphanumeric : Char → Bool
  /-- `char::is_numeric` -/
  isNumeric : Char → Bool
  /-- `char::is_lowercase` -/
  isLowercase : Char → Bool
  /-- `char::is_uppercase` -/
  isUppercase : Char → Bool
  alnum_ascii : ∀ c, c.toNat < 128 → isAlphanumeric c = asciiAlnum c
  numeric_ascii : ∀ c, c.toNat < 128 → isNumeric c = Str.isAsciiDigit c
  lower_ascii : ∀ c, c.toNat < 128 → isLowercase c = asciiLower c
  upper_ascii : ∀ c, c.toNat < 128 → isUppercase c = asciiUpper c
  numeric_alnum : ∀ c, isNumeric c = true → isAlphanumeric c = true

/-- A table for computing examples: ASCII only. -/
def UnicodeTable.ascii : UnicodeTable where
  isAlphanumeric := asciiAlnum
  isNumeric := Str.isAsciiDigit
  isLowercase := asciiLower
  isUppercase := asciiUpper
  alnum_ascii _ _ := rfl
  numeric_ascii _ _ := rfl
  lower_ascii _ _ := rfl
  upper_ascii _ _ := rfl
  numeric_alnum c h := by simp [asciiAlnum, h]

/-- A table for computing examples: besides ASCII, the Latin-1 letters, with their case. -/
def UnicodeTable.latin1 : UnicodeTable where
  isAlphanumeric c := asciiAlnum c || (192 ≤ c.toNat && c.toNat ≤ 255 && c.toNat ≠ 215 && c.toNat ≠ 247)
  isNumeric := Str.isAsciiDigit
  isLowercase c := asciiLower c || (223 ≤ c.toNat && c.toNat ≤ 255 && c.toNat ≠ 247)
  isUppercase c := asciiUpper c || (192 ≤ c.toNat && c.toNat ≤ 222 && c.toNat ≠ 215)
  alnum_ascii c h := by
    have : ¬ 192 ≤ c.toNat := by omega
    simp [this]
  numeric_ascii _ _ := rfl
  lower_ascii c h := by
    have : ¬ 223 ≤ c.toNat := by omega
    simp [this]
  upper_ascii c h := by
    have : ¬ 192 ≤ c.toNat := by omega
    simp [this]
  numeric_alnum c h := by simp [asciiAlnum, h]

end Verif
