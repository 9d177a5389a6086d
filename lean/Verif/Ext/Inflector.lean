import Verif.Rust.Unicode

/-!
# The `Inflector` crate 0.11.4 (`to_snake_case`, `to_pascal_case`)

Written from the published source of the crate (`src/cases/case/mod.rs`, functions
`to_case_snake_like` and `to_case_camel_like`); it is a dependency, not part of /repo
(/repo/xsd-parser/Cargo.toml names it).  Checked against the expectations of the unit tests at
/repo/xsd-parser/src/generator/default.rs:127-179.
-/

namespace Verif.Inflector

variable (U : UnicodeTable)

/-- `s.trim_end_matches(|c| !c.is_alphanumeric())` -/
def trimRight (s : Str) : Str := (s.reverse.dropWhile fun c => !U.isAlphanumeric c).reverse

/-- `next_or_previous_char_is_lowercase(s, i)`: `i` is a *byte* offset, but used to count `char`s. -/
def nextOrPrevLower (s : Str) (i : Nat) : Bool :=
  U.isLowercase (s[i + 1]?.getD 'A') || U.isLowercase (s[i - 1]?.getD 'A')

/-- The loop of `to_case_snake_like(s, "_", "lower")`: `i` is the byte offset of the first remaining
character, `first` the variable `first_character`. -/
def snakeGo (s : Str) : Nat → Bool → Str → Str
  | _, _, [] => []
  | i, first, c :: cs =>
    if !U.isAlphanumeric c then
      if first then snakeGo s (i + c.utf8Size) first cs
      else '_' :: snakeGo s (i + c.utf8Size) true cs
    else if !first && (c == toAsciiUpper c) && nextOrPrevLower U s i then
      '_' :: toAsciiLower c :: snakeGo s (i + c.utf8Size) false cs
    else toAsciiLower c :: snakeGo s (i + c.utf8Size) false cs

/-- `to_snake_case` -/
def toSnakeCase (s : Str) : Str := snakeGo U s 0 true (trimRight U s)

/-- The loop of `to_case_camel_like` for `to_pascal_case` (no separator, not inverted): variables
`found_real_char`, `new_word`, `last_char`. -/
def pascalGo : Bool → Bool → Char → Str → Str
  | _, _, _, [] => []
  | found, newWord, last, c :: cs =>
    if !U.isAlphanumeric c && found then pascalGo found true last cs
    else if !found && !U.isAlphanumeric c then pascalGo found newWord last cs
    else if U.isNumeric c then c :: pascalGo true true last cs
    else if newWord || (U.isLowercase last && U.isUppercase c && last != ' ') then
      toAsciiUpper c :: pascalGo true false last cs
    else toAsciiLower c :: pascalGo true newWord c cs

/-- `to_pascal_case` -/
def toPascalCase (s : Str) : Str := pascalGo U false true ' ' (trimRight U s)

end Verif.Inflector
