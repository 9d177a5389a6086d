import Verif.Spec.Schema
import Verif.Spec.Generator
import Verif.Spec.GenNames
import Verif.Spec.Validate

/-!
# Specification: whole documents
-/

namespace Verif.Spec

open Verif Verif.RoXml Verif.Model

/-- `n` is an element of the schema `root`; what is inside annotations does not count. -/
inductive PartOf (root : Node) : Node → Prop where
  | root : PartOf root root
  | child {n c} : PartOf root n → c ∈ members n → PartOf root c

/-- The texts of a schema which are copied into strings and comments of the code, or used as prefixes, contain nothing
that could end these. -/
structure CopySafe (root : Node) : Prop where
  names : ∀ n a v, PartOf root n → a ∈ ["name", "ref"] → n.attr a.toList = some v → QuoteSafe v ∧ PrefixSafe v
  types : ∀ n a v, PartOf root n → a ∈ ["type", "base", "itemType"] → n.attr a.toList = some v → PrefixSafe v
  memberTypes : ∀ n v ws w, PartOf root n → n.attr "memberTypes".toList = some v → SpaceSeparated v ws → w ∈ ws →
    QuoteSafe w ∧ PrefixSafe w
  bounds : ∀ n v, PartOf root n →
    n.tag ∈ ["minInclusive", "minExclusive", "maxInclusive", "maxExclusive"].map String.toList →
    n.attr "value".toList = some v → QuoteSafe v
  imports : ∀ n a v, PartOf root n → a ∈ ["namespace", "schemaLocation"] → n.attr a.toList = some v → '\n' ∉ v
  namespaces : ∀ ns ∈ root.namespaces, QuoteSafe ns.uri ∧ ∀ p, ns.name = some p → QuoteSafe p

/-! ## The definitions at the top level -/

/-- What the proofs need of the grammar of schemas: which elements can be inside which, annotations aside. -/
def grammarRows : List (String × List String) :=
  [("schema", ["include", "import", "redefine", "simpleType", "complexType", "group", "attributeGroup", "element",
      "attribute", "notation"]),
   ("simpleType", ["restriction", "list", "union"]), ("union", ["simpleType"]),
   ("simpleContent", ["extension", "restriction"]), ("complexContent", ["extension", "restriction"])]

/-- The elements of a schema are where the grammar allows them. -/
structure Grammatical (root : Node) : Prop where
  schema : root.tag = "schema".toList
  rows : ∀ r ∈ grammarRows, ∀ n c, PartOf root n → n.tag = r.1.toList → c ∈ members n → c.tag ∈ r.2.map String.toList

/-- A kind of definition and a name. -/
abbrev Def := DefKind × List Char

mutual
/-- The simple type `n` with these ancestors becomes a definition of the kind `k`, called `own` unless a name is given,
and beside it `ds`. -/
inductive SimpleShape (U : UnicodeTable) : List Node → Node → DefKind → List Char → List Def → Prop where
  /-- a restriction to values which can be variants -/
  | enumeration {above n r fs owner} : (members n).getLast? = some r → r.tag = "restriction".toList →
      FacetsOf r.tag r.children fs → enumValues fs ≠ [] → (∀ v ∈ enumValues fs, SimpleValue U v.1) →
      OwnerName (n :: above) owner → SimpleShape U above n .enum (owner ++ "Enum".toList) []
  /-- any other restriction -/
  | wrapper {above n r fs} : (members n).getLast? = some r → r.tag = "restriction".toList →
      FacetsOf r.tag r.children fs → (enumValues fs = [] ∨ ∃ v ∈ enumValues fs, ¬ SimpleValue U v.1) →
      SimpleShape U above n .struct [] []
  /-- a list of a type with a name -/
  | list {above n r t} : (members n).getLast? = some r → r.tag = "list".toList → r.attr "itemType".toList = some t →
      SimpleShape U above n .struct [] []
  /-- a list of an inline type which is an enum -/
  | listOfEnum {above n r c nm ds} : (members n).getLast? = some r → r.tag = "list".toList →
      r.attr "itemType".toList = none → (withTags r ["simpleType"]).head? = some c →
      SimpleShape U (r :: n :: above) c .enum nm ds → SimpleShape U above n .struct [] ((.enum, nm) :: ds)
  /-- a list of another inline type, which is not defined by itself -/
  | listOfStruct {above n r c nm ds} : (members n).getLast? = some r → r.tag = "list".toList →
      r.attr "itemType".toList = none → (withTags r ["simpleType"]).head? = some c →
      SimpleShape U (r :: n :: above) c .struct nm ds → SimpleShape U above n .struct [] ds
  /-- a union -/
  | union {above n r ds} : (members n).getLast? = some r → r.tag = "union".toList →
      UnionShape U (r :: n :: above) 0 (withTags r ["simpleType"]) ds → SimpleShape U above n .enum [] ds
/-- The definitions for the inline types of a union, from the `i`-th on. -/
inductive UnionShape (U : UnicodeTable) : List Node → Nat → List Node → List Def → Prop where
  | nil {above i} : UnionShape U above i [] []
  | cons {above i c cs k nm ds es} : SimpleShape U above c k nm ds → UnionShape U above (i + 1) cs es →
      UnionShape U above i (c :: cs) ((k, "EnumCaseType_".toList ++ numeral i) :: (ds ++ es))
end

/-- The content of the complex type is a choice with something in it. -/
def ChoiceContent (n : Node) : Prop :=
  ∃ c, (withTags n contentTags).getLast? = some c ∧ c.tag = "choice".toList ∧ c.children.filter Node.isElement ≠ []

/-- There is something to be written as a comment. -/
def Documented (d : Option (List Char)) : Prop := ∃ s ls l, d = some s ∧ Lines s ls ∧ l ∈ ls ∧ ¬ Dropped l

/-- The type inside a global declaration. -/
def inlineType (c : Node) : Option Node :=
  (withTags c (if c.tag = "element".toList then ["simpleType", "complexType"] else ["simpleType"])).getLast?

/-- The definitions at the top level for a child of the schema element. -/
inductive GlobalDefs (U : UnicodeTable) (root c : Node) : List Def → Prop where
  | complexType {nm} : c.tag = "complexType".toList → c.attr "name".toList = some nm → ¬ ChoiceContent c →
      GlobalDefs U root c [(.struct, nm)]
  | choiceType {nm} : c.tag = "complexType".toList → c.attr "name".toList = some nm → ChoiceContent c →
      GlobalDefs U root c [(.enum, nm ++ "Choice".toList), (.struct, nm)]
  | simpleType {nm k own ds} : c.tag = "simpleType".toList → c.attr "name".toList = some nm →
      SimpleShape U [root] c k own ds → GlobalDefs U root c ((k, nm) :: ds)
  /-- a declaration with a type: only its comment makes a type definition of it -/
  | typed {nm t} : c.tag ∈ ["element", "attribute"].map String.toList →
      (c.tag = "attribute".toList → c.attr "ref".toList = none) → c.attr "name".toList = some nm →
      c.attr "type".toList = some t → Documented (docOf c) → GlobalDefs U root c [(.type, nm)]
  | typedSilent {nm t} : c.tag ∈ ["element", "attribute"].map String.toList →
      (c.tag = "attribute".toList → c.attr "ref".toList = none) → c.attr "name".toList = some nm →
      c.attr "type".toList = some t → ¬ Documented (docOf c) → GlobalDefs U root c []
  | inlineSimple {nm t k own ds} : c.tag ∈ ["element", "attribute"].map String.toList →
      (c.tag = "attribute".toList → c.attr "ref".toList = none) → c.attr "name".toList = some nm →
      c.attr "type".toList = none → inlineType c = some t → t.tag = "simpleType".toList →
      SimpleShape U [c, root] t k own ds → GlobalDefs U root c ((k, nm) :: ds)
  | inlineComplex {nm t} : c.tag = "element".toList → c.attr "name".toList = some nm →
      c.attr "type".toList = none → inlineType c = some t → t.tag = "complexType".toList → ¬ ChoiceContent t →
      GlobalDefs U root c [(.struct, nm)]
  | inlineChoice {nm t} : c.tag = "element".toList → c.attr "name".toList = some nm →
      c.attr "type".toList = none → inlineType c = some t → t.tag = "complexType".toList → ChoiceContent t →
      GlobalDefs U root c [(.enum, nm), (.struct, nm)]
  | empty {nm} : c.tag ∈ ["element", "attribute"].map String.toList →
      (c.tag = "attribute".toList → c.attr "ref".toList = none) → c.attr "name".toList = some nm →
      c.attr "type".toList = none → inlineType c = none → GlobalDefs U root c [(.struct, nm)]
  /-- a reference instead of an attribute (no schema has this) -/
  | reference {r} : c.tag = "attribute".toList → c.attr "ref".toList = some r → Documented (docOf c) →
      GlobalDefs U root c [(.type, r)]
  | referenceSilent {r} : c.tag = "attribute".toList → c.attr "ref".toList = some r → ¬ Documented (docOf c) →
      GlobalDefs U root c []
  | import : c.tag ∈ ["import", "include"].map String.toList → GlobalDefs U root c []

/-- The definitions, modules aside, which are not inside a module. -/
def topLevel (ds : List (List (List Char) × DefKind × List Char)) : List Def :=
  ds.filterMap fun d => if d.1 = [] ∧ d.2.1 ≠ .mod then some d.2 else none

/-! ## References -/

/-- Each prefix is declared once, as in every well-formed document. -/
def UniquePrefixes (root : Node) : Prop := ∀ a ∈ root.namespaces, ∀ b ∈ root.namespaces, a.name = b.name → a = b

/-- According to the declared prefixes, `r` stands for `nm` in the target namespace `uri`. -/
def Denotes (root : Node) (uri nm r : List Char) : Prop :=
  root.attr "targetNamespace".toList = some uri ∧ ∃ a ∈ root.namespaces, a.uri = uri ∧ Ref a.name nm r

/-- A type which is referred to by `type`, `base` and the like, or an element referred to by `ref`; elements with a `type`
are excluded. -/
def Referable (c : Node) : Prop :=
  c.tag = "complexType".toList ∨ c.tag = "simpleType".toList ∨
    (c.tag = "element".toList ∧ c.attr "type".toList = none)

/-- The global simple type `c` is called `nm` and is defined by `r`. -/
def SimpleDecl (root c : Node) (nm : List Char) (r : Node) : Prop :=
  c ∈ globals root ∧ c.tag = "simpleType".toList ∧ c.attr "name".toList = some nm ∧ (members c).getLast? = some r

/-! ## Supported schemas -/

/-- Which elements can be inside which, as far as they are supported; what is inside other elements does not matter. -/
def supportedRows : List (String × List String) :=
  [("schema", ["include", "import", "simpleType", "complexType", "attributeGroup", "element", "attribute"]),
   ("simpleType", ["restriction", "list", "union"]), ("union", ["simpleType"]),
   ("complexType", ["attribute", "anyAttribute", "attributeGroup", "sequence", "all", "choice", "complexContent",
      "simpleContent"]),
   ("sequence", ["element", "any", "choice"]), ("all", ["element", "any", "choice"]),
   ("simpleContent", ["extension"]), ("complexContent", ["extension", "restriction"]),
   ("extension", ["attribute", "anyAttribute", "attributeGroup", "sequence", "all", "choice"]),
   ("restriction", facetTags.map (·.1) ++ ["whiteSpace", "attribute", "anyAttribute", "attributeGroup", "sequence", "all",
      "choice"])]

/-- The element has one of these tags. -/
def Is (n : Node) (tags : List String) : Prop := n.tag ∈ tags.map String.toList

/-- The element has this attribute. -/
def Has (n : Node) (a : String) : Prop := ∃ v, n.attr a.toList = some v

/-- The element `e`, at whatever depth inside `c`, is declared by an `element`. -/
def LocalElement (c e : Node) : Prop := Is e ["element"] ∧ ∃ p, PartOf c p ∧ e ∈ members p

/-- Schemas without the features that the program does not know. -/
structure Supported (root : Node) : Prop where
  schema : Is root ["schema"]
  rows : ∀ r ∈ supportedRows, ∀ n c, PartOf root n → Is n [r.1] → c ∈ members n → Is c r.2
  /-- what is global has a name -/
  named : ∀ n c, PartOf root n → Is n ["schema"] → c ∈ members n →
    Is c ["simpleType", "complexType", "attributeGroup", "element", "attribute"] → Has c "name"
  /-- inline simple types have none -/
  anonymous : ∀ n c, PartOf root n → ¬ Is n ["schema"] → c ∈ members n → Is c ["simpleType"] → ¬ Has c "name"
  /-- the elements of a sequence have a type -/
  typed : ∀ n c, PartOf root n → Is n ["sequence", "all"] → c ∈ members n → Is c ["element"] →
    Has c "type" ∨ Has c "ref" ∨ withTags c ["simpleType", "complexType"] ≠ []
  attributes : ∀ n, PartOf root n → Is n ["attribute"] →
    (Has n "name" ∨ Has n "ref") ∧ ∀ v, n.attr "use".toList = some v → v ∈ ["optional", "prohibited", "required"].map String.toList
  groups : ∀ n c, PartOf root n → ¬ Is n ["schema"] → c ∈ members n → Is c ["attributeGroup"] → Has c "ref"
  derived : ∀ n, PartOf root n → Is n ["extension", "restriction"] → Has n "base"
  lists : ∀ n, PartOf root n → Is n ["list"] → Has n "itemType" ∨ withTags n ["simpleType"] ≠ []
  full : ∀ n, PartOf root n → Is n ["simpleType", "simpleContent", "complexContent"] → members n ≠ []
  facets : ∀ n, PartOf root n → Is n (facetTags.map (·.1)) → Has n "value"
  whiteSpace : ∀ n, PartOf root n → Is n ["whiteSpace"] → ∃ v ∈ ["preserve", "replace", "collapse"], n.attr "value".toList = some v.toList
  lengths : ∀ n v, PartOf root n → Is n ["length", "minLength", "maxLength"] → n.attr "value".toList = some v →
    ∃ k, U32Text v k
  /-- this name is used internally -/
  reserved : ∀ n a, PartOf root n → a ∈ ["name", "ref"] → n.attr a.toList ≠ some "__base__".toList
  /-- the type of an element inside a declaration is not derived from a type with the name of this declaration -/
  acyclic : ∀ c nm e x b, c ∈ members root → c.attr "name".toList = some nm → LocalElement c e → PartOf e x →
    x.attr "base".toList = some b → ¬ AfterLastColon b nm

end Verif.Spec
