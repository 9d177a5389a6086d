import Verif.Spec.GenNames
import Verif.Model.Entities

/-!
# Specification: the text of generated code

Nothing here refers to the model of the generator, only to the entities it is given.  The text is read
back: by a scanner for brackets, strings and comments of Rust, and by a reader which goes line by line.
-/

namespace Verif.Spec

open Verif.Model

/-! ## Which entities are generated, in the order of the text -/

mutual
/-- An entity and the entities defined inside it. -/
def generated : RsEntity → List RsEntity
  | .struct (.mk n c fs a ss) => .struct (.mk n c fs a ss) :: (generatedList ss ++ generatedFields fs)
  | .tupleStruct (.mk n c t ss m f) => .tupleStruct (.mk n c t ss m f) :: generatedList ss
  | .enum (.mk n cs c t ss s) => .enum (.mk n cs c t ss s) :: generatedList ss
  | e => [e]
def generatedList : List RsEntity → List RsEntity
  | [] => []
  | e :: es => generated e ++ generatedList es
/-- The entities defined inside the fields of a struct. -/
def generatedFields : List StructField → List RsEntity
  | [] => []
  | .mk _ _ _ ss _ _ :: fs => generatedList ss ++ generatedFields fs
end

/-! ## Brackets, strings and comments -/

/-- Where in a Rust text we are. -/
inductive LexMode where
  | code | slash | comment | str | esc
  deriving DecidableEq, Repr

/-- One character; the stack has the closing brackets which are awaited. `none`: not balanced, or a
construct which this scanner does not know (character literals, block comments). -/
def lexCode (stk : List Char) (c : Char) : Option (LexMode × List Char) :=
  if c = '"' then some (.str, stk)
  else if c = '/' then some (.slash, stk)
  else if c = '\'' then none
  else if c = '(' then some (.code, ')' :: stk)
  else if c = '[' then some (.code, ']' :: stk)
  else if c = '{' then some (.code, '}' :: stk)
  else if c = ')' ∨ c = ']' ∨ c = '}' then
    match stk with
    | d :: ds => if d = c then some (.code, ds) else none
    | [] => none
  else some (.code, stk)

def lexStep : LexMode × List Char → Char → Option (LexMode × List Char)
  | (.code, stk), c => lexCode stk c
  | (.slash, stk), c => if c = '/' then some (.comment, stk) else if c = '*' then none else lexCode stk c
  | (.comment, stk), c => if c = '\n' then some (.code, stk) else some (.comment, stk)
  | (.str, stk), c =>
    if c = '"' then some (.code, stk) else if c = '\\' then some (.esc, stk) else some (.str, stk)
  | (.esc, stk), _ => some (.str, stk)

def lexRun : LexMode × List Char → List Char → Option (LexMode × List Char)
  | s, [] => some s
  | s, c :: cs => (lexStep s c).bind fun s' => lexRun s' cs

/-- The text is complete: all brackets are closed in order, all strings and comments ended. -/
def LexComplete (t : List Char) : Prop := lexRun (.code, []) t = some (.code, [])

/-! ## Schema texts which can be copied into Rust texts -/

/-- Can be put between quotes, on one line. -/
def QuoteSafe (s : List Char) : Prop := ∀ c ∈ s, c ≠ '"' ∧ c ≠ '\\' ∧ c ≠ '\n'

/-- No character which is not part of an XML name (blanks, quotes, brackets and the like). -/
def codeUnsafe : List Char :=
  [' ', '\n', '"', '\'', '\\', '/', '(', ')', '[', ']', '{', '}', '<', '>', ',', ';']

/-- The prefix of the reference, if any, has no such character. -/
def PrefixSafe (t : List Char) : Prop := ∀ p n, Ref (some p) n t → ∀ c ∈ p, c ∉ codeUnsafe

def facetBound : FacetType → Option (List Char)
  | .maxExclusive v => some v
  | .maxInclusive v => some v
  | .minExclusive v => some v
  | .minInclusive v => some v
  | _ => none

def FieldSafe (f : StructField) : Prop := QuoteSafe f.name ∧ PrefixSafe f.typeName

def CaseSafe (c : EnumCase) : Prop := QuoteSafe c.name ∧ ∀ t, c.typeName = some t → PrefixSafe t

/-- The strings of the entity itself (not of the entities inside it) which come from the schema and are
copied. -/
def SafeTexts : RsEntity → Prop
  | .struct s => PrefixSafe s.name ∧ ∀ f ∈ s.fields, FieldSafe f
  | .tupleStruct t => PrefixSafe t.name ∧ PrefixSafe t.typeName ∧
      ∀ f ∈ t.facets, ∀ v, facetBound f.facetType = some v → QuoteSafe v
  | .enum e => PrefixSafe e.name ∧ PrefixSafe e.typeName ∧ ∀ c ∈ e.cases, CaseSafe c
  | .structField f => FieldSafe f
  | .enumCase c => CaseSafe c
  | .alias a => PrefixSafe a.name ∧ PrefixSafe a.original
  | .import i => '\n' ∉ i.location ∧ '\n' ∉ i.name

def SafeNamespace (ns : Option Namespace) : Prop :=
  ∀ n, ns = some n → QuoteSafe n.uri ∧ ∀ p, n.name = some p → QuoteSafe p

/-! ## Reading definitions -/

inductive DefKind where
  | struct | enum | mod | type
  deriving DecidableEq, Repr

/-- `s` without the prefix `p`. -/
def afterPrefix : List Char → List Char → Option (List Char)
  | [], s => some s
  | p :: ps, c :: cs => if p = c then afterPrefix ps cs else none
  | _ :: _, [] => none

/-- Leading spaces, and `use super::*;` at the start, are left out. -/
def trimLine (l : List Char) : List Char :=
  let s := l.dropWhile (· = ' ')
  ((afterPrefix "use super::*;".toList s).getD s).dropWhile (· = ' ')

/-- The definition which a line starts. -/
def readHead (l : List Char) : Option (DefKind × List Char) :=
  match afterPrefix "pub struct ".toList l with
  | some r => some (.struct, r.takeWhile (· ≠ ' '))
  | none =>
    match afterPrefix "pub enum ".toList l with
    | some r => some (.enum, r.takeWhile (· ≠ ' '))
    | none =>
      match afterPrefix "pub mod ".toList l with
      | some r => some (.mod, r.takeWhile (· ≠ ' '))
      | none =>
        match afterPrefix "pub type ".toList l with
        | some r => some (.type, r.takeWhile (· ≠ ' '))
        | none => none

def isCommentLine (l : List Char) : Bool := (afterPrefix "//".toList l).isSome

def lastIsOpen (l : List Char) : Bool := (l.reverse.dropWhile (· = ' ')).head? = some '{'

/-- The blocks which are open: the name for a module. -/
abbrev Blocks := List (Option (List Char))

/-- The name of a block which starts with such a definition, if it is a module. -/
def blockName : Option (DefKind × List Char) → Option (List Char)
  | some (.mod, n) => some n
  | _ => none

/-- One line: a line ending in `{` opens a block, a line starting with `}` closes one. -/
def lineStack (stk : Blocks) (line : List Char) : Blocks :=
  let l := trimLine line
  if isCommentLine l then stk
  else if l.head? = some '}' then stk.tail
  else if lastIsOpen l then blockName (readHead l) :: stk
  else stk

/-- Names of the enclosing modules, outermost first. -/
def modPath (stk : Blocks) : List (List Char) := (stk.filterMap id).reverse

def defAt (path : List (List Char)) : Option (DefKind × List Char) → List (List (List Char) × DefKind × List Char)
  | some (k, n) => [(path, k, n)]
  | none => []

/-- The definition on a line, with the path of its module. -/
def lineDef (stk : Blocks) (line : List Char) : List (List (List Char) × DefKind × List Char) :=
  let l := trimLine line
  if isCommentLine l then []
  else defAt (modPath stk) (readHead l)

def readDefs : Blocks → List (List Char) → List (List (List Char) × DefKind × List Char)
  | _, [] => []
  | stk, l :: ls => lineDef stk l ++ readDefs (lineStack stk l) ls

def stackAfter : Blocks → List (List Char) → Blocks
  | stk, [] => stk
  | stk, l :: ls => stackAfter (lineStack stk l) ls

/-- The lines of a text. -/
def Lines (t : List Char) (ls : List (List Char)) : Prop :=
  List.intercalate ['\n'] ls = t ∧ ls ≠ [] ∧ ∀ l ∈ ls, '\n' ∉ l

/-- The definitions in the text are `ds`, with their module paths, in order; and all blocks are closed. -/
def HasDefs (t : List Char) (ds : List (List (List Char) × DefKind × List Char)) : Prop :=
  ∃ ls, Lines t ls ∧ readDefs [] ls = ds ∧ stackAfter [] ls = []

/-! ## Which definitions are expected -/

/-- Entities which are definitions of their own. -/
def IsItem : RsEntity → Prop
  | .structField _ => False
  | .enumCase _ => False
  | _ => True

/-- Something is defined inside the struct. -/
def hasInner (fs : List StructField) (ss : List RsEntity) : Bool :=
  !ss.isEmpty || fs.any fun f => !f.subtypes.isEmpty

mutual
/-- The definitions for an entity inside the module `path`, given the names of types (`tn`) and modules
(`mn`) and which aliases are documented. -/
def defsOf (tn mn : List Char → List Char) (doc : Option (List Char) → Bool) (path : List (List Char)) :
    RsEntity → List (List (List Char) × DefKind × List Char)
  | .struct (.mk n _ fs _ ss) =>
    (path, .struct, tn n) ::
      (if hasInner fs ss then
        (path, .mod, mn n) :: (defsList tn mn doc (path ++ [mn n]) ss ++ defsFields tn mn doc (path ++ [mn n]) fs)
      else [])
  | .tupleStruct (.mk n _ _ ss _ _) => (path, .struct, tn n) :: defsList tn mn doc path ss
  | .enum (.mk n _ _ _ ss _) => (path, .enum, tn n) :: defsList tn mn doc path ss
  | .alias (.mk n _ c _) => if doc c then [(path, .type, tn n)] else []
  | _ => []
def defsList (tn mn : List Char → List Char) (doc : Option (List Char) → Bool) (path : List (List Char)) :
    List RsEntity → List (List (List Char) × DefKind × List Char)
  | [] => []
  | e :: es => defsOf tn mn doc path e ++ defsList tn mn doc path es
def defsFields (tn mn : List Char → List Char) (doc : Option (List Char) → Bool) (path : List (List Char)) :
    List StructField → List (List (List Char) × DefKind × List Char)
  | [] => []
  | .mk _ _ _ ss _ _ :: fs => defsList tn mn doc path ss ++ defsFields tn mn doc path fs
end

/-! ## Reading the fields of a struct and the cases of an enum -/

/-- The attribute line before a field or case, its name, its type. -/
structure Member where
  attr : Option (List Char)
  name : List Char
  type : Option (List Char)
  deriving DecidableEq, Repr

/-- A line of the body of a struct. -/
def readFieldLines : Option (List Char) → List (List Char) → List Member
  | _, [] => []
  | attr, l :: ls =>
    let s := l.dropWhile (· = ' ')
    if isCommentLine s then readFieldLines attr ls
    else if s.head? = some '#' then readFieldLines (some s) ls
    else
      match afterPrefix "pub ".toList s with
      | some r => ⟨attr, r.takeWhile (· ≠ ':'), some ((r.dropWhile (· ≠ ':')).drop 2).dropLast⟩ ::
          readFieldLines none ls
      | none => readFieldLines attr ls

/-- A line of the body of an enum. -/
def readCaseLines : Option (List Char) → List (List Char) → List Member
  | _, [] => []
  | attr, l :: ls =>
    let s := l.dropWhile (· = ' ')
    if isCommentLine s then readCaseLines attr ls
    else if s.head? = some '#' then readCaseLines (some s) ls
    else if s = [] then readCaseLines attr ls
    else
      let name := s.takeWhile fun c => c ≠ '(' ∧ c ≠ ','
      let rest := (s.drop name.length).dropLast
      ⟨attr, name, if rest = [] then none else some (rest.drop 1).dropLast⟩ :: readCaseLines none ls

/-- An attribute of the serialization macros: words and `key = "value"` items. -/
def yaserdeAttr (words : List (List Char)) (kvs : List (List Char × List Char)) : List Char :=
  "#[yaserde(".toList ++
    List.intercalate ", ".toList
      (words ++ kvs.map fun kv => kv.1 ++ " = \"".toList ++ kv.2 ++ "\"".toList) ++ ")]".toList

/-- The attribute for a name of the schema: its prefix (`dflt` when it has none) and its local name. -/
def nameAttr (words : List (List Char)) (dflt : Option (List Char)) (o : Option (List Char)) (n : List Char) :
    List Char :=
  yaserdeAttr words
    (((o.or dflt).map fun p => ("prefix".toList, p)).toList ++ [("rename".toList, n)])

/-- The lines of the block which the first line starting with `head` opens. -/
def bodyOf (head : List Char) (ls : List (List Char)) : List (List Char) :=
  match ls.dropWhile fun l => (afterPrefix head l).isNone with
  | [] => []
  | l :: rest => if l = head then rest.takeWhile (· ≠ ['}']) else []

/-- How names are written: types (`type`), fields and modules (`name`), variants (`case`), and the
wrappers around a type (`wrap`). -/
structure Naming where
  type : List Char → List Char
  name : List Char → List Char
  case : List Char → List Char
  wrap : List Char → List TypeModifier → List Char

/-- The field as it has to be written; `pfx` is the prefix of the target namespace and `modName` the module
with the types defined inside the struct. -/
def FieldMember (N : Naming) (pfx : Option (List Char)) (modName : List Char) (f : StructField) (m : Member) : Prop :=
  m.name = N.name f.name ∧
  m.type = some (N.wrap
    (N.type (if f.subtypes.isEmpty then f.typeName else modName ++ "::".toList ++ f.typeName)) f.typeModifiers) ∧
  match f.source with
  | .attribute => ∃ o n, Ref o n f.name ∧ m.attr = some (nameAttr ["attribute".toList] none o n)
  | .element => ∃ o n, Ref o n f.name ∧ m.attr = some (nameAttr [] pfx o n)
  | .choice => m.attr = some (yaserdeAttr ["flatten".toList] [])
  | _ => m.attr = none

/-- The case as it has to be written: it is renamed unless its name stands for itself. -/
def CaseMember (N : Naming) (c : EnumCase) (m : Member) : Prop :=
  m.name = N.case c.name ∧
  m.type = c.typeName.map (fun t => N.wrap (N.type t) c.typeModifiers) ∧
  ∃ o n, Ref o n c.name ∧
    m.attr = if c.source = .union ∨ (o = none ∧ n = N.case c.name) then none else some (nameAttr [] none o n)

end Verif.Spec
