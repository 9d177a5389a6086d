import Verif.Spec.GenNames

/-!
# Specification: the syntax of Rust

The part of The Rust Reference, "Lexical structure", "Items", "Statements and expressions" and "Type system", which
generated code is written in.  A text which has a derivation here has one in the Reference; the converse does not hold
(identifiers are ASCII, there are no block or documentation comments, a function has statements of two kinds, and so on).
-/

namespace Verif.Spec.Syn

/-! ## Tokens -/

inductive Tok where
  /-- An identifier or keyword. -/
  | word (w : List Char)
  /-- Digits. -/
  | num (w : List Char)
  /-- A string literal, as it stands between the quotes. -/
  | str (w : List Char)
  /-- Punctuation. -/
  | op (w : List Char)
  deriving DecidableEq, Repr

def digit (c : Char) : Bool := '0' ≤ c && c ≤ '9'

/-- Characters of identifiers and numbers. -/
def wordChar (c : Char) : Bool := asciiAlnum c || c == '_'

/-- Punctuation of two characters.  `>>`, `<<`, `&&` and `||` are not taken together here: where types are expected, the
Reference takes them apart again. -/
def doubles : List (List Char) :=
  ["::", "->", "=>", "==", "!=", "<=", ">=", "..", "+=", "-=", "*=", "/=", "%=", "^=", "&=", "|="].map String.toList

def singles : List Char :=
  ['#', '[', ']', '(', ')', '{', '}', '<', '>', '=', ',', ';', ':', '.', '&', '!', '*', '-', '+', '/', '|', '%', '^', '@', '?', '$', '~']

/-- The text between the quotes of a string literal: no quotes and no line feeds, and backslashes only in escapes. -/
inductive Quoted : List Char → Prop where
  | nil : Quoted []
  | char {c s} : c ≠ '"' → c ≠ '\\' → c ≠ '\n' → Quoted s → Quoted (c :: s)
  | esc {c s} : c ∈ ['n', 'r', 't', '\\', '0', '\'', '"'] → Quoted s → Quoted ('\\' :: c :: s)

/-- The tokens of a text, each as long as possible; white space and comments are left out. -/
inductive Lexed : List Char → List Tok → Prop where
  | nil : Lexed [] []
  | space {c s ts} : c = ' ' ∨ c = '\n' → Lexed s ts → Lexed (c :: s) ts
  /-- Not a documentation comment: those begin with `//!` or with three slashes and something else than a slash. -/
  | comment {l s ts} : '\n' ∉ l → l.head? ≠ some '!' → (l.head? = some '/' → l[1]? = some '/') →
      Lexed s ts → Lexed ('/' :: '/' :: l ++ '\n' :: s) ts
  | word {c w s ts} : wordChar c = true → digit c = false → (∀ d ∈ w, wordChar d = true) →
      (∀ d, s.head? = some d → wordChar d = false ∧ d ≠ '"' ∧ d ≠ '\'' ∧ d ≠ '#') → Lexed s ts →
      Lexed (c :: w ++ s) (.word (c :: w) :: ts)
  | num {w s ts} : w ≠ [] → (∀ d ∈ w, digit d = true) → (∀ d, s.head? = some d → wordChar d = false) →
      (∀ d, s[0]? = some '.' → s[1]? = some d → digit d = false) → Lexed s ts →
      Lexed (w ++ s) (.num w :: ts)
  | str {w s ts} : Quoted w → (∀ d, s.head? = some d → wordChar d = false) → Lexed s ts →
      Lexed ('"' :: w ++ '"' :: s) (.str w :: ts)
  | double {a b s ts} : [a, b] ∈ doubles → Lexed s ts → Lexed (a :: b :: s) (.op [a, b] :: ts)
  | single {a s ts} : a ∈ singles → (∀ b, s.head? = some b → [a, b] ∉ doubles ∧ (a = '/' → b ≠ '/' ∧ b ≠ '*')) → Lexed s ts →
      Lexed (a :: s) (.op [a] :: ts)

abbrev kw (s : String) : Tok := .word s.toList
abbrev pt (s : String) : Tok := .op s.toList

/-- With commas between them. -/
def commas : List (List Tok) → List Tok
  | [] => []
  | a :: as => a ++ as.flatMap (pt "," :: ·)

/-! ## Paths and types -/

/-- `a::b::c` -/
inductive Path : List Tok → Prop where
  | one {n} : LegalIdent n → Path [.word n]
  | keyword {s} : s ∈ ["self", "Self", "super", "crate"] → Path [kw s]
  | more {p n} : Path p → LegalIdent n → Path (p ++ [pt "::", .word n])

inductive Ty : List Tok → Prop where
  | unit : Ty [pt "(", pt ")"]
  | path {p} : Path p → Ty p
  | generic {p} {as : List (List Tok)} : Path p → as ≠ [] → (∀ a ∈ as, Ty a) → Ty (p ++ pt "<" :: commas as ++ [pt ">"])

/-! ## Attributes -/

inductive Meta : List Tok → Prop where
  | path {p} : Path p → Meta p
  | value {p v} : Path p → Meta (p ++ [pt "=", .str v])
  | list {p} {as : List (List Tok)} : Path p → (∀ a ∈ as, Meta a) → Meta (p ++ pt "(" :: commas as ++ [pt ")"])

/-- `#[…]` -/
inductive Attr : List Tok → Prop where
  | mk {m} : Meta m → Attr (pt "#" :: pt "[" :: m ++ [pt "]"])

/-- One after the other. -/
inductive Many (P : List Tok → Prop) : List Tok → Prop where
  | nil : Many P []
  | cons {a b} : P a → Many P b → Many P (a ++ b)

/-! ## Expressions and statements -/

/-- Expressions without operators. -/
inductive Operand : List Tok → Prop where
  | unit : Operand [pt "(", pt ")"]
  | num {w} : Operand [.num w]
  | str {w} : Operand [.str w]
  | path {p} : Path p → Operand p
  | call {p} {as : List (List Tok)} : Path p → (∀ a ∈ as, Operand a) → Operand (p ++ pt "(" :: commas as ++ [pt ")"])
  | macro {p} {as : List (List Tok)} : Path p → (∀ a ∈ as, Operand a) → Operand (p ++ pt "!" :: pt "(" :: commas as ++ [pt ")"])
  | field {e w} : Operand e → Operand (e ++ [pt ".", .num w])
  | method {e n} {as : List (List Tok)} : Operand e → LegalIdent n → (∀ a ∈ as, Operand a) →
      Operand (e ++ pt "." :: .word n :: pt "(" :: commas as ++ [pt ")"])
  | methodAt {e n t} {as : List (List Tok)} : Operand e → LegalIdent n → Ty t → (∀ a ∈ as, Operand a) →
      Operand (e ++ pt "." :: .word n :: pt "::" :: pt "<" :: t ++ pt ">" :: pt "(" :: commas as ++ [pt ")"])

/-- A comparison. -/
inductive Cond : List Tok → Prop where
  | mk {a o b} : Operand a → o ∈ ["==", "!=", "<", ">", "<=", ">="] → Operand b → Cond (a ++ pt o :: b)

inductive Stmt : List Tok → Prop where
  | ret {e} : Operand e → Stmt (kw "return" :: e ++ [pt ";"])
  | cond {as c b} : Many Attr as → Cond c → Many Stmt b → Stmt (as ++ kw "if" :: c ++ pt "{" :: b ++ [pt "}"])

/-! ## Items -/

/-- `pub n: T,` -/
inductive Field : List Tok → Prop where
  | mk {as n t} : Many Attr as → LegalIdent n → Ty t → Field (as ++ kw "pub" :: .word n :: pt ":" :: t ++ [pt ","])

/-- `N,` or `N(T),` -/
inductive Variant : List Tok → Prop where
  | bare {as n} : Many Attr as → LegalIdent n → Variant (as ++ .word n :: [pt ","])
  | with {as n t} : Many Attr as → LegalIdent n → Ty t → Variant (as ++ .word n :: pt "(" :: t ++ [pt ")", pt ","])

/-- A function without parameters, or with `&self` only, and an expression as its last part. -/
inductive Func : List Tok → Prop where
  | mk {n ps t b e} : LegalIdent n → ps = [] ∨ ps = [pt "&", kw "self"] → Ty t → Many Stmt b → Operand e →
      Func (kw "fn" :: .word n :: pt "(" :: ps ++ pt ")" :: pt "->" :: t ++ pt "{" :: b ++ e ++ [pt "}"])

inductive Item : List Tok → Prop where
  | struct {as n fs} : Many Attr as → LegalIdent n → Many Field fs →
      Item (as ++ kw "pub" :: kw "struct" :: .word n :: pt "{" :: fs ++ [pt "}"])
  | tuple {as n t} : Many Attr as → LegalIdent n → Ty t →
      Item (as ++ kw "pub" :: kw "struct" :: .word n :: pt "(" :: kw "pub" :: t ++ [pt ")", pt ";"])
  | enum {as n vs} : Many Attr as → LegalIdent n → Many Variant vs →
      Item (as ++ kw "pub" :: kw "enum" :: .word n :: pt "{" :: vs ++ [pt "}"])
  | type {n t} : LegalIdent n → Ty t → Item (kw "pub" :: kw "type" :: .word n :: pt "=" :: t ++ [pt ";"])
  | impl {p t fs} : Path p → Ty t → Many Func fs → Item (kw "impl" :: p ++ kw "for" :: t ++ pt "{" :: fs ++ [pt "}"])
  | use {p} : Path p → Item (kw "use" :: p ++ [pt "::", pt "*", pt ";"])
  | mod {n is} : LegalIdent n → Many Item is → Item (kw "pub" :: kw "mod" :: .word n :: pt "{" :: is ++ [pt "}"])

/-- The text is a sequence of items. -/
def IsRust (t : List Char) : Prop := ∃ ts, Lexed t ts ∧ Many Item ts

end Verif.Spec.Syn
