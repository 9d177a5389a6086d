import Verif.Spec.Serde
import Verif.Rust.Unicode

/-! # Specification: names, types and comments of generated code -/

namespace Verif.Spec

/-! ## The table of built-in types (README.md:13-57) -/

/-- XSD type, Rust type, as published; the types of the `xsd-types` crate are referred to through the
module alias `xs`. -/
def readmeTable : List (String × String) :=
  [("hexBinary", "String"), ("base64Binary", "String"), ("boolean", "bool"),
   ("integer", "xs::Integer"), ("nonNegativeInteger", "xs::NonNegativeInteger"),
   ("positiveInteger", "xs::PositiveInteger"), ("nonPositiveInteger", "xs::NonPositiveInteger"),
   ("negativeInteger", "xs::NegativeInteger"),
   ("long", "i64"), ("int", "i32"), ("short", "i16"), ("byte", "i8"),
   ("unsignedLong", "u64"), ("unsignedInt", "u32"), ("unsignedShort", "u16"), ("unsignedByte", "u8"),
   ("decimal", "xs::Decimal"), ("double", "f64"), ("float", "f64"),
   ("date", "xs::Date"), ("time", "xs::Time"), ("dateTime", "xs::DateTime"),
   ("dateTimeStamp", "xs::DateTimeStamp"), ("duration", "xs::Duration"),
   ("gDay", "xs::GDay"), ("gMonth", "xs::GMonth"), ("gMonthDay", "xs::GMonthDay"),
   ("gYear", "xs::GYear"), ("gYearMonth", "xs::GYearMonth"),
   ("string", "String"), ("normalizedString", "String"), ("token", "String"), ("language", "String"),
   ("Name", "String"), ("NCName", "String"), ("ENTITY", "String"), ("ID", "String"), ("IDREF", "String"),
   ("NMTOKEN", "String"), ("anyURI", "String"), ("QName", "String"), ("NOTATION", "String"),
   ("ENTITIES", "Vec<String>"), ("IDREFS", "Vec<String>"), ("NMTOKENS", "Vec<String>")]

/-- The one row which the program has and the README does not. -/
def undocumentedTable : List (String × String) := [("anySimpleType", "String")]

/-- The built-in type names of XML Schema 1.1 part 2 (section 3, figure 3), and `anyType`. -/
def xsdBuiltIns : List String :=
  ["anyType", "anySimpleType", "anyAtomicType", "string", "boolean", "decimal", "float", "double",
   "duration", "dateTime", "time", "date", "gYearMonth", "gYear", "gMonthDay", "gDay", "gMonth",
   "hexBinary", "base64Binary", "anyURI", "QName", "NOTATION", "normalizedString", "token", "language",
   "NMTOKEN", "NMTOKENS", "Name", "NCName", "ID", "IDREF", "IDREFS", "ENTITY", "ENTITIES", "integer",
   "nonPositiveInteger", "negativeInteger", "long", "int", "short", "byte", "nonNegativeInteger",
   "unsignedLong", "unsignedInt", "unsignedShort", "unsignedByte", "positiveInteger",
   "yearMonthDuration", "dayTimeDuration", "dateTimeStamp"]

/-- `t` is the reference to the name `n` under an optional prefix. -/
inductive Ref : Option (List Char) → List Char → List Char → Prop where
  | bare {n} : ':' ∉ n → Ref none n n
  | prefixed {p n} : ':' ∉ p → Ref (some p) n (p ++ ':' :: n)

/-! ## Identifiers -/

/-- Strict and reserved keywords of Rust 2021 (The Rust Reference, "Keywords"). -/
def rustKeywords : List String :=
  ["as", "break", "const", "continue", "crate", "else", "enum", "extern", "false", "fn", "for", "if",
   "impl", "in", "let", "loop", "match", "mod", "move", "mut", "pub", "ref", "return", "self", "Self",
   "static", "struct", "super", "trait", "true", "type", "unsafe", "use", "where", "while", "async",
   "await", "dyn", "abstract", "become", "box", "do", "final", "macro", "override", "priv", "typeof",
   "unsized", "virtual", "yield", "try"]

/-- An ASCII Rust identifier: a letter or underscore, then letters, digits and underscores, not the
single underscore and not a keyword. -/
def LegalIdent (s : List Char) : Prop :=
  (∃ c cs, s = c :: cs ∧ (asciiUpper c ∨ asciiLower c ∨ c = '_') ∧
    (∀ d ∈ cs, asciiAlnum d ∨ d = '_') ∧ s ≠ ['_']) ∧ ∀ k ∈ rustKeywords, s ≠ k.toList

/-- Non-empty words joined by single underscores. -/
def Snake (p : Char → Prop) (s : List Char) : Prop :=
  ∃ w ws, s = w ++ ws.flatMap ('_' :: ·) ∧ ∀ v ∈ w :: ws, v ≠ [] ∧ ∀ c ∈ v, p c

/-- What is left of a name when case and punctuation are ignored: its alphanumeric characters (by the
predicate `p`), in lower case. -/
def skeleton (p : Char → Bool) (s : List Char) : List Char := (s.filter p).map toAsciiLower

/-- The part of a reference after its last colon. -/
def AfterLastColon (s t : List Char) : Prop := ':' ∉ t ∧ (s = t ∨ ∃ p, s = p ++ ':' :: t)

/-! ## Comments -/

/-- A comment line of generated code holding these words. -/
def commentLine (indent : Nat) (ws : List (List Char)) : List Char :=
  List.replicate indent ' ' ++ ['/', '/'] ++ ws.flatMap (' ' :: ·)

/-- Number of bytes of such a line. -/
def bytes (s : List Char) : Nat := (s.map Char.utf8Size).sum

/-- A line of documentation which is left out: no word, or a single word of one byte. -/
def Dropped (l : List Char) : Prop := Words l [] ∨ ∃ c, c.utf8Size = 1 ∧ Words l [[c]]

/-- `gs` are the words of a line wrapped greedily: all words are kept in order, every line after the
first has a word, a line is longer than the limit only if it has a single word, and the first word of
a line would not have fitted on the line before. -/
def Wrapped (maxLen indent : Nat) (ws : List (List Char)) (gs : List (List (List Char))) : Prop :=
  gs ≠ [] ∧ gs.flatten = ws ∧ (∀ g ∈ gs.tail, g ≠ []) ∧
  (∀ g ∈ gs, bytes (commentLine indent g) ≤ maxLen ∨ g.length ≤ 1) ∧
  ∀ a g w g' b, gs = a ++ g :: (w :: g') :: b → maxLen ≤ bytes (commentLine indent g) + bytes w

end Verif.Spec
