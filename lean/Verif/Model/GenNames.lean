import Verif.Ext.Inflector
import Verif.Model.Serde

/-!
# Model of `xsd-parser/src/generator/utils.rs` and `generator/default.rs`
-/

namespace Verif.Model

/-- `roxmltree::Namespace`: optional prefix and URI. -/
structure Namespace where
  name : Option Str
  uri : Str
  deriving DecidableEq, Repr

/-- `parser/types.rs:149-156` -/
inductive TypeModifier where
  | none | array | option | recursive | empty
  deriving DecidableEq, Repr

/-! ## utils.rs -/

/-- `" ".repeat(n)` -/
def spaces (n : Nat) : Str := List.replicate n ' '

/-- The loop of `split_comment_line` (utils.rs:8-17); `cur` is `current_line_length`, the result is the
text appended to `splitted`. -/
def splitCommentGo (maxLen indent : Nat) : Nat → List Str → Str
  | _, [] => []
  | cur, w :: ws =>
    if cur + Str.byteLen w < maxLen then ' ' :: w ++ splitCommentGo maxLen indent (cur + (1 + Str.byteLen w)) ws
    else '\n' :: spaces indent ++ "// ".toList ++ w ++ splitCommentGo maxLen indent (indent + 3 + Str.byteLen w) ws

/-- utils.rs:3-19 -/
def splitCommentLine (s : Str) (maxLen indent : Nat) : Str :=
  spaces indent ++ "//".toList ++ splitCommentGo maxLen indent (indent + 2) (splitWhitespace s) ++ ['\n']

/-- utils.rs:116-121 (`find(':')`, then the two sides). -/
def splitName : Str → Option Str × Str
  | [] => (none, [])
  | c :: cs =>
    if c = ':' then (some [], cs)
    else
      match splitName cs with
      | (some p, n) => (some (c :: p), n)
      | (none, n) => (none, c :: n)

/-- The `match name` of utils.rs:27-89; `""` when there is no row. -/
def builtInRow (name : Str) : Str :=
  if name = "hexBinary".toList then "String".toList
  else if name = "base64Binary".toList then "String".toList
  else if name = "boolean".toList then "bool".toList
  else if name = "integer".toList then "xs::Integer".toList
  else if name = "nonNegativeInteger".toList then "xs::NonNegativeInteger".toList
  else if name = "positiveInteger".toList then "xs::PositiveInteger".toList
  else if name = "nonPositiveInteger".toList then "xs::NonPositiveInteger".toList
  else if name = "negativeInteger".toList then "xs::NegativeInteger".toList
  else if name = "long".toList then "i64".toList
  else if name = "int".toList then "i32".toList
  else if name = "short".toList then "i16".toList
  else if name = "byte".toList then "i8".toList
  else if name = "unsignedLong".toList then "u64".toList
  else if name = "unsignedInt".toList then "u32".toList
  else if name = "unsignedShort".toList then "u16".toList
  else if name = "unsignedByte".toList then "u8".toList
  else if name = "decimal".toList then "xs::Decimal".toList
  else if name = "double".toList then "f64".toList
  else if name = "float".toList then "f64".toList
  else if name = "date".toList then "xs::Date".toList
  else if name = "time".toList then "xs::Time".toList
  else if name = "dateTime".toList then "xs::DateTime".toList
  else if name = "dateTimeStamp".toList then "xs::DateTimeStamp".toList
  else if name = "duration".toList then "xs::Duration".toList
  else if name = "gDay".toList then "xs::GDay".toList
  else if name = "gMonth".toList then "xs::GMonth".toList
  else if name = "gMonthDay".toList then "xs::GMonthDay".toList
  else if name = "gYear".toList then "xs::GYear".toList
  else if name = "gYearMonth".toList then "xs::GYearMonth".toList
  else if name = "string".toList then "String".toList
  else if name = "normalizedString".toList then "String".toList
  else if name = "token".toList then "String".toList
  else if name = "language".toList then "String".toList
  else if name = "Name".toList then "String".toList
  else if name = "NCName".toList then "String".toList
  else if name = "ENTITY".toList then "String".toList
  else if name = "ID".toList then "String".toList
  else if name = "IDREF".toList then "String".toList
  else if name = "NMTOKEN".toList then "String".toList
  else if name = "anyURI".toList then "String".toList
  else if name = "QName".toList then "String".toList
  else if name = "NOTATION".toList then "String".toList
  else if name = "anySimpleType".toList then "String".toList
  else if name = "ENTITIES".toList then "Vec<String>".toList
  else if name = "IDREFS".toList then "Vec<String>".toList
  else if name = "NMTOKENS".toList then "Vec<String>".toList
  else []

/-- `ns.as_ref().and_then(|ns| ns.name())` -/
def nsPrefix (ns : Option Namespace) : Option Str := ns.bind (·.name)

/-- utils.rs:21-96 -/
def matchBuiltInType (typeName : Str) (xsdNs : Option Namespace) : Option Str :=
  let (pre, name) := splitName typeName
  if nsPrefix xsdNs ≠ pre then none
  else if builtInRow name = [] then none else some (builtInRow name)

/-- utils.rs:123-181 -/
def rsKeywords : List Str :=
  ["abstract".toList, "alignof".toList, "as".toList, "async".toList, "await".toList, "become".toList,
   "box".toList, "break".toList, "const".toList, "continue".toList, "crate".toList, "do".toList,
   "dyn".toList, "else".toList, "enum".toList, "extern crate".toList, "extern".toList, "false".toList,
   "final".toList, "fn".toList, "for".toList, "if let".toList, "if".toList, "impl".toList, "in".toList,
   "let".toList, "loop".toList, "macro".toList, "match".toList, "mod".toList, "move".toList,
   "mut".toList, "offsetof".toList, "override".toList, "priv".toList, "proc".toList, "pub".toList,
   "pure".toList, "ref".toList, "return".toList, "Self".toList, "self".toList, "sizeof".toList,
   "static".toList, "struct".toList, "super".toList, "trait".toList, "true".toList, "type".toList,
   "typeof".toList, "unsafe".toList, "unsized".toList, "use".toList, "virtual".toList, "where".toList,
   "while".toList, "yield".toList]

/-- utils.rs:98-106 -/
def sanitize (U : UnicodeTable) : Str → Str
  | [] => []
  | c :: cs => if U.isNumeric c || rsKeywords.contains (c :: cs) then '_' :: c :: cs else c :: cs

/-- `c.is_ascii()` -/
def charAscii (c : Char) : Bool := c.toNat < 128

/-- utils.rs:108-114 -/
def filterTypeName (U : UnicodeTable) (name : Str) : Str :=
  name.filter fun c => (U.isAlphanumeric c || c == '_') && charAscii c && !Chrono.isWhitespace c

/-! ## default.rs -/

/-- `strip_suffix('\r')` or the line itself. -/
def dropCr (l : Str) : Str := (Str.stripSuffix '\r' l).getD l

/-- `str::lines()`: the pieces between line feeds, each without one trailing carriage return if it was
ended by a line feed, without an empty last piece. -/
def strLines : Str → List Str
  | s => go [] s
where
  /-- `acc` is the current line, reversed. -/
  go (acc : Str) : Str → List Str
  | [] => if acc = [] then [] else [acc.reverse]
  | c :: cs => if c = '\n' then dropCr acc.reverse :: go [] cs else go (c :: acc) cs

/-- `str::trim()` -/
def strTrim (s : Str) : Str :=
  ((s.dropWhile Chrono.isWhitespace).reverse.dropWhile Chrono.isWhitespace).reverse

/-- default.rs:11-18 -/
def defaultFormatComment (doc : Option Str) (maxLen indent : Nat) : Str :=
  ((((strLines (doc.getD [])).map strTrim).filter fun s => decide (1 < Str.byteLen s)).map fun s =>
    splitCommentLine s maxLen indent).foldl (fun x y => x ++ y) []

/-- `name.split(':').last().unwrap()` (`split` always yields a piece). -/
def lastSegment (name : Str) : Str := ((Str.splitOn ':' name).getLast?).getD []

/-- default.rs:20-22 -/
def defaultFormatName (U : UnicodeTable) (name : Str) : Str :=
  sanitize U (Inflector.toSnakeCase U (lastSegment name))

/-- default.rs:24-45 -/
def defaultFormatType (U : UnicodeTable) (typeName : Str) (targetNs : Option Namespace) : Str :=
  let (pre, name) := splitName typeName
  let optionTns := nsPrefix targetNs
  let pascalized := filterTypeName U (Inflector.toPascalCase U name)
  let qname := fun (p : Str) => p ++ "::".toList ++ pascalized
  let res :=
    match pre, optionTns with
    | some ns, some tns => if ns = tns then pascalized else qname ns
    | some ns, none => qname ns
    | _, _ => pascalized
  sanitize U res

/-- One iteration of default.rs:57-63. -/
def applyModifier (result : Str) : TypeModifier → Str
  | .array => "Vec<".toList ++ result ++ ">".toList
  | .option => "Option<".toList ++ result ++ ">".toList
  | _ => result

/-- default.rs:47-65 -/
def defaultModifyType (typeName : Str) (ms : List TypeModifier) : Str :=
  if ms.contains .empty then "()".toList
  else if ms.contains .recursive then "Vec<".toList ++ typeName ++ ">".toList
  else ms.foldl applyModifier typeName

/-- default.rs:67-78 -/
def yaserdeForAttribute (name indent : Str) : Str :=
  match splitName name with
  | (some p, n) =>
    indent ++ "#[yaserde(attribute, prefix = \"".toList ++ p ++ "\", rename = \"".toList ++ n ++ "\")]\n".toList
  | (none, _) => indent ++ "#[yaserde(attribute, rename = \"".toList ++ name ++ "\")]\n".toList

/-- default.rs:80-97 -/
def yaserdeForElement (name : Str) (targetNs : Option Namespace) (indent : Str) : Str :=
  let (pre, fieldName) :=
    match splitName name with
    | (some p, n) => (some p, n)
    | (none, _) => (nsPrefix targetNs, name)
  match pre with
  | some p =>
    indent ++ "#[yaserde(prefix = \"".toList ++ p ++ "\", rename = \"".toList ++ fieldName ++ "\")]\n".toList
  | none => indent ++ "#[yaserde(rename = \"".toList ++ fieldName ++ "\")]\n".toList

/-- default.rs:99-101 -/
def yaserdeForFlattenElement (indent : Str) : Str := indent ++ "#[yaserde(flatten)]\n".toList

/-! ## base.rs -/

/-- base.rs:23-28 -/
def formatTypeName (U : UnicodeTable) (targetNs xsdNs : Option Namespace) (typeName : Str) : Str :=
  match matchBuiltInType typeName xsdNs with
  | some t => t
  | none => defaultFormatType U typeName targetNs

section Checks
-- the expectations of default.rs:127-179
private abbrev A := UnicodeTable.ascii
example : defaultFormatName A "Struct".toList = "_struct".toList := by decide
example : defaultFormatName A "StructName".toList = "struct_name".toList := by decide
example : defaultFormatName A "0fst".toList = "_0fst".toList := by decide
example : defaultFormatName A "xop:Include".toList = "include".toList := by decide
example : defaultFormatType A "Ty-Name".toList none = "TyName".toList := by decide
example : defaultFormatType A "tt:TyName".toList none = "tt::TyName".toList := by decide
example : defaultFormatType A "0type_name".toList none = "_0TypeName".toList := by decide
example : defaultFormatType A "tt:0_type-Name".toList (some ⟨some "tt".toList, []⟩) = "_0TypeName".toList := by decide
example : defaultFormatType A "tt:IANA_IfTypes ".toList (some ⟨some "tt".toList, []⟩) = "IanaIfTypes".toList := by decide
example : defaultFormatType A "http://www.w3.org/2005/08/addressing/reply".toList (some ⟨some "tt".toList, []⟩) =
    "http::WwwW3Org200508AddressingReply".toList := by decide
example : defaultFormatComment (some "
        Line of documentation!
        New line of documentation with len>30 symbols!


        And new line after empty lines".toList) 30 2 = "  // Line of documentation!
  // New line of documentation
  // with len>30 symbols!
  // And new line after empty
  // lines
".toList := by decide +kernel
end Checks

end Verif.Model
