import Verif.Spec.Validate
import Verif.Spec.Fields

/-!
# Specification: the items of the generated code

A reader for the text of a file which finds everything that is defined there, on every level: where it is, the
attributes before it, its first line and the lines of its block. And what has to be found for the entities of a file.
-/

namespace Verif.Spec

open Verif Verif.Model

/-! ## Reading -/

/-- A definition or implementation in the text. -/
structure Item where
  /-- the modules around it -/
  path : List (List Char)
  /-- the attributes before it -/
  attrs : List (List Char)
  head : List Char
  /-- the lines of its block, without indentation and empty lines; for a module only `use super::*;`, if it is the first -/
  body : List (List Char)
  deriving DecidableEq, Repr

def dropSpaces (l : List Char) : List Char := l.dropWhile (· = ' ')

/-- What a line does to the number of open blocks inside a block; `none`: it is the end of the block. -/
def depthAfter (d : Nat) (l : List Char) : Option Nat :=
  if isCommentLine l then some d
  else if l.head? = some '}' then (match d with | 0 => none | d + 1 => some d)
  else if lastIsOpen l then some (d + 1)
  else some d

/-- The lines to the end of the block. -/
def blockLines : Nat → List (List Char) → List (List Char)
  | _, [] => []
  | d, l :: ls =>
    match depthAfter d (dropSpaces l) with
    | none => []
    | some d' => (if dropSpaces l = [] then [] else [dropSpaces l]) ++ blockLines d' ls

/-- The attributes which are waiting for their item. -/
def attrsAfter (as : List (List Char)) (line : List Char) : List (List Char) :=
  let l := trimLine line
  if isCommentLine l ∨ l = [] then as
  else if l.head? = some '#' then as ++ [l]
  else []

/-- The first of the lines with something on it starts with `use super::*;`. -/
def usesSuper (ls : List (List Char)) : Bool :=
  match (ls.map dropSpaces).filter (· ≠ []) with
  | [] => false
  | l :: _ => (afterPrefix "use super::*;".toList l).isSome

/-- The item which starts on a line; `ls` are the lines after it. Outside the blocks of items, every line starts one
which is not empty, a comment, an attribute or the end of a module. -/
def lineItem (stk : Blocks) (as : List (List Char)) (line : List Char) (ls : List (List Char)) : List Item :=
  let l := trimLine line
  if stk.head? = some none ∨ isCommentLine l ∨ l = [] ∨ l.head? = some '#' ∨ l.head? = some '}' then []
  else
    match readHead l with
    | some (.mod, _) => [⟨modPath stk, as, l, if usesSuper ls then ["use super::*;".toList] else []⟩]
    | _ => [⟨modPath stk, as, l, if lastIsOpen l then blockLines 0 ls else []⟩]

def readItems : Blocks → List (List Char) → List (List Char) → List Item
  | _, _, [] => []
  | stk, as, l :: ls => lineItem stk as l ls ++ readItems (lineStack stk l) (attrsAfter as l) ls

/-- The items in the text, in order. -/
def HasItems (t : List Char) (is : List Item) : Prop :=
  ∃ ls, Lines t ls ∧ readItems [] [] ls = is

/-! ## What is expected -/

/-- What an item is there for. -/
inductive Origin where
  /-- the definition for the entity itself -/
  | entity (e : RsEntity)
  /-- the module with what is defined inside the struct -/
  | inner (struct : List Char)
  /-- `Validate` for a type: it wraps a type, and the facets have to be met -/
  | validate (name wrapped : List Char) (ms : List TypeModifier) (facets : List Facet)
  /-- `Default` for an enum -/
  | default (name : List Char)

/-- Inside the module `m`. -/
def inside {α : Type} (m : List Char) (x : List (List Char) × α) : List (List Char) × α := (m :: x.1, x.2)

mutual
/-- The items for an entity, each with its path; `mn` are the names of modules, `doc` tells which aliases are documented. -/
def originsOf (mn : List Char → List Char) (doc : Option (List Char) → Bool) :
    RsEntity → List (List (List Char) × Origin)
  | .struct (.mk n c fs ag ss) =>
    ([], .entity (.struct (.mk n c fs ag ss))) :: ([], .validate n [] [] []) ::
      (if hasInner fs ss then
        ([], .inner n) :: ((originsList mn doc ss ++ originsFields mn doc fs).map (inside (mn n)))
      else [])
  | .tupleStruct (.mk n c t ss ms fs) =>
    ([], .entity (.tupleStruct (.mk n c t ss ms fs))) :: (originsList mn doc ss ++ [([], .validate n t ms fs)])
  | .enum (.mk n cs c t ss src) =>
    ([], .entity (.enum (.mk n cs c t ss src))) :: ([], .default n) :: ([], .validate n [] [] []) :: originsList mn doc ss
  | .alias (.mk n o c ss) => if doc c then [([], .entity (.alias (.mk n o c ss)))] else []
  | _ => []
def originsList (mn : List Char → List Char) (doc : Option (List Char) → Bool) :
    List RsEntity → List (List (List Char) × Origin)
  | [] => []
  | e :: es => originsOf mn doc e ++ originsList mn doc es
def originsFields (mn : List Char → List Char) (doc : Option (List Char) → Bool) :
    List StructField → List (List (List Char) × Origin)
  | [] => []
  | .mk _ _ _ ss _ _ :: fs => originsList mn doc ss ++ originsFields mn doc fs
end

/-- The attribute which tells the namespace. -/
def nsAttr : Option Namespace → List Char
  | none => yaserdeAttr [] []
  | some ⟨none, uri⟩ => yaserdeAttr [] [("namespace".toList, uri)]
  | some ⟨some p, uri⟩ => yaserdeAttr [] [("prefix".toList, p), ("namespace".toList, p ++ ": ".toList ++ uri)]

/-- The checks do what the facets ask for. -/
def Enforces (facets : List Facet) (cs : List Cond) : Prop :=
  ∀ (V : Type) (S : Values V), S.Linear →
    (∀ f ∈ facets, ∀ v, facetBound f.facetType = some v → S.parse v ≠ none) → ∀ v : V,
    ((∀ f ∈ facets, Meets S v f.facetType) → runChecks S v cs = .ok ()) ∧
    (¬ (∀ f ∈ facets, Meets S v f.facetType) → runChecks S v cs = .err)

def facetLength : FacetType → Option (List Char)
  | .length t => some t
  | .maxLength t => some t
  | .minLength t => some t
  | _ => none

/-- There are checks for exactly the bounds and for exactly the lengths which can be missed. -/
def CheckedBy (facets : List Facet) (cs : List Cond) : Prop :=
  (∀ b, (∃ op ty, .value op b ty ∈ cs) ↔ ∃ f ∈ facets, facetBound f.facetType = some b) ∧
  ∀ n, (∃ op, .length op n ∈ cs) ↔
    ∃ f ∈ facets, ∃ t, facetLength f.facetType = some t ∧ U32Text t n ∧ ¬ Unchecked f.facetType

/-- The item which implements `Validate` with these checks. -/
def ValidateItem (name : List Char) (cs : List Cond) (i : Item) : Prop :=
  i.attrs = [] ∧
  ((cs = [] ∧ i.head = "impl Validate for ".toList ++ (name ++ " {}".toList) ∧ i.body = []) ∨
   (cs ≠ [] ∧ i.head = "impl Validate for ".toList ++ (name ++ " {".toList) ∧
     ∃ (t : List Char) (ls : List (List Char)), Checks cs t ∧ t = ls.flatMap ('\n' :: ·) ∧ (∀ l ∈ ls, '\n' ∉ l) ∧
       i.body = "fn validate(&self) -> Result<(), String> { ".toList :: (ls.map dropSpaces ++ ["Ok(())".toList, "}".toList])))

/-- The item for an entity. -/
def EntityItem (N : Naming) (ns : Option Namespace) : RsEntity → Item → Prop
  | .struct (.mk n _ fs _ _), i =>
    i.attrs = ["#[derive(Default, Clone, PartialEq, Debug, YaSerialize, YaDeserialize)]".toList, nsAttr ns] ∧
    List.Forall₂ (FieldMember N (nsPrefix ns) (N.name n)) (written fs) (readFieldLines none i.body) ∧
    i.head = "pub struct ".toList ++ (N.type n ++ (if written fs = [] then " {}".toList else " {".toList))
  | .tupleStruct (.mk n _ t _ ms _), i =>
    i.attrs = ["#[derive(Default, Clone, PartialEq, Debug, UtilsTupleIo, UtilsDefaultSerde)]".toList] ∧
    i.head = "pub struct ".toList ++ (N.type n ++ (" (pub ".toList ++ (N.wrap (N.type t) ms ++ ");".toList))) ∧ i.body = []
  | .enum (.mk n cs _ t _ src), i =>
    i.attrs = (if src = .union then ["#[derive(PartialEq, Debug, UtilsUnionSerDe)]".toList]
      else ["#[derive(PartialEq, Debug, Clone, YaSerialize, YaDeserialize)]".toList ++ nsAttr ns]) ∧
    i.head = "pub enum ".toList ++ (N.type n ++ " {".toList) ∧
    ∃ ms, List.Forall₂ (CaseMember N) cs ms ∧
      readCaseLines none i.body = ms ++ [⟨none, "__Unknown__".toList, some (N.type t)⟩]
  | .alias (.mk n o _ _), i =>
    i.attrs = [] ∧ i.head = "pub type ".toList ++ (N.type n ++ (" = ".toList ++ (N.type o ++ ";".toList))) ∧ i.body = []
  | _, _ => False

/-- The item is what its origin asks for. -/
def ItemFor (N : Naming) (ns : Option Namespace) (x : List (List Char) × Origin) (i : Item) : Prop :=
  i.path = x.1 ∧
  match x.2 with
  | .entity e => EntityItem N ns e i
  | .inner n => i.attrs = [] ∧ i.head = "pub mod ".toList ++ (N.name n ++ " {".toList) ∧ i.body = ["use super::*;".toList]
  | .validate n t ms fs => ∃ cs, Enforces fs cs ∧ ValidateItem (N.type n) cs i ∧
      (∀ c ∈ cs, ∀ op l ty, c = .value op l ty → ty = N.wrap (N.type t) ms) ∧ CheckedBy fs cs
  | .default n => i.attrs = [] ∧ i.head = "impl Default for ".toList ++ (N.type n ++ " {".toList) ∧
      i.body = ["fn default() -> ".toList ++ (N.type n ++ " {".toList), "Self::__Unknown__(\"No valid variants\".into())".toList,
        "}".toList]

end Verif.Spec
