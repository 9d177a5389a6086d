import Verif.Ext.RoXml
import Verif.Model.Parser
import Verif.Spec.Integers
import Mathlib.Data.List.Forall2

/-!
# Specification: what the elements of a schema are
-/

namespace Verif.Spec

open Verif Verif.RoXml Verif.Model

/-- Tags which say what an element is. -/
def plainTags : List (String × ElementType) :=
  [("all", .all), ("annotation", .annotation), ("any", .any), ("anyAttribute", .anyAttribute),
   ("appInfo", .appInfo), ("attribute", .attribute), ("attributeGroup", .attributeGroup), ("choice", .choice),
   ("complexContent", .complexContent), ("complexType", .complexType), ("documentation", .documentation),
   ("element", .element), ("field", .field), ("group", .group), ("import", .import), ("include", .include),
   ("key", .key), ("keyRef", .keyRef), ("list", .list), ("notation", .notation), ("redefine", .redefine),
   ("schema", .schema), ("selector", .selector), ("sequence", .sequence), ("simpleContent", .simpleContent),
   ("simpleType", .simpleType), ("union", .union), ("unique", .unique)]

/-- Facets with an arbitrary value. -/
def facetTags : List (String × (List Char → FacetType)) :=
  [("enumeration", .enumeration), ("fractionDigits", .fractionDigits), ("length", .length),
   ("maxExclusive", .maxExclusive), ("maxInclusive", .maxInclusive), ("maxLength", .maxLength),
   ("minExclusive", .minExclusive), ("minInclusive", .minInclusive), ("minLength", .minLength),
   ("pattern", .pattern), ("totalDigits", .totalDigits)]

/-- The values of the facet `whiteSpace`. -/
def whiteSpaceValues : List (String × WhiteSpace) :=
  [("preserve", .preserve), ("replace", .replace), ("collapse", .collapse)]

/-- What extensions are, by the tag of the parent. -/
def extensionTags : List (String × ExtensionType) :=
  [("complexContent", .complexContent), ("simpleContent", .simpleContent)]

/-- What restrictions are, by the tag of the parent. -/
def restrictionTags : List (String × RestrictionType) :=
  [("complexContent", .complexContent), ("simpleContent", .simpleContent), ("simpleType", .simpleType)]

/-- The tags known to the parser. -/
def knownTags : List String :=
  plainTags.map (·.1) ++ facetTags.map (·.1) ++ ["whiteSpace", "extension", "restriction"]

/-- The element `n` with a parent of tag `p` is a `t`. -/
inductive KindOf (p : Option (List Char)) (n : Node) : ElementType → Prop where
  | plain {s t} : (s, t) ∈ plainTags → n.tag = s.toList → KindOf p n t
  | facet {s f v} : (s, f) ∈ facetTags → n.tag = s.toList → n.attr "value".toList = some v → KindOf p n (.facet (f v))
  | whiteSpace {s w} : n.tag = "whiteSpace".toList → (s, w) ∈ whiteSpaceValues →
      n.attr "value".toList = some s.toList → KindOf p n (.facet (.whiteSpace w))
  | extension {s e} : n.tag = "extension".toList → (s, e) ∈ extensionTags → p = some s.toList →
      KindOf p n (.extension e)
  | restriction {s r} : n.tag = "restriction".toList → (s, r) ∈ restrictionTags → p = some s.toList →
      KindOf p n (.restriction r)
  | misplacedExtension : n.tag = "extension".toList → (∀ e ∈ extensionTags, p ≠ some e.1.toList) → KindOf p n .xsdError
  | misplacedRestriction : n.tag = "restriction".toList → (∀ e ∈ restrictionTags, p ≠ some e.1.toList) →
      KindOf p n .xsdError
  | unknown : (∀ s ∈ knownTags, n.tag ≠ s.toList) → KindOf p n (.unknownElement n.tag)

/-- The children with one of the given tags. -/
def withTags (n : Node) (ts : List String) : List Node :=
  n.children.filter fun c => ts.any fun t => c.tag = t.toList

/-- The child elements other than annotations. -/
def members (n : Node) : List Node :=
  n.children.filter fun c => c.isElement && c.tag ≠ "annotation".toList

/-- The global declarations of a schema except attribute groups. -/
def globals (n : Node) : List Node := (members n).filter fun c => c.tag ≠ "attributeGroup".toList

/-- Each facet among the children has the value it needs. -/
def Readable (n : Node) : Prop := ∀ c ∈ n.children, ∃ t, KindOf (some n.tag) c t

/-- The name of the nearest ancestor with a name; there are substitutes if the schema or the root is reached. -/
inductive OwnerName : List Node → List Char → Prop where
  | root : OwnerName [] "UnsupportedName".toList
  | schema {p above} : p.tag = "schema".toList → OwnerName (p :: above) "SchemaElement".toList
  | named {p above s} : p.tag ≠ "schema".toList → p.attr "name".toList = some s → OwnerName (p :: above) s
  | up {p above s} : p.tag ≠ "schema".toList → p.attr "name".toList = none → OwnerName above s →
      OwnerName (p :: above) s

/-- The documentation of an element: the text in front of the first element in the first `documentation` of its
first `annotation`. -/
def docOf (n : Node) : Option (List Char) := do
  let a ← n.children.find? fun c => c.tag = "annotation".toList
  let d ← a.children.find? fun c => c.tag = "documentation".toList
  match d.children with
  | .text s :: _ => some s
  | _ => none

/-! ## Occurrences -/

/-- `s` is a number which fits into 64 bits. -/
def U64Text (s : List Char) (n : Nat) : Prop := ∃ sg, sg ≠ .minus ∧ XsdInt s sg n ∧ n ≤ 18446744073709551615

/-- The least number of occurrences; 1 if it is not given. -/
inductive MinOf (n : Node) : Nat → Prop where
  | default : n.attr "minOccurs".toList = none → MinOf n 1
  | given {s k} : n.attr "minOccurs".toList = some s → U64Text s k → MinOf n k

/-- The greatest number of occurrences (`none`: no limit); 1 if it is not given. -/
inductive MaxOf (n : Node) : Option Nat → Prop where
  | default : n.attr "maxOccurs".toList = none → MaxOf n (some 1)
  | given {s k} : n.attr "maxOccurs".toList = some s → U64Text s k → MaxOf n (some k)
  | unbounded : n.attr "maxOccurs".toList = some "unbounded".toList → MaxOf n none

/-- `k` occurrences are legal. -/
def LegalCount (lo : Nat) (hi : Option Nat) (k : Nat) : Prop := lo ≤ k ∧ ∀ h ∈ hi, k ≤ h

/-- A field with this wrapper can hold `k` values. -/
def Holds : TypeModifier → Nat → Prop
  | .none, k => k = 1
  | .option, k => k ≤ 1
  | .array, _ => True
  | .empty, k => k = 0
  | .recursive, k => k = 1

/-! ## Attributes, elements -/

/-- What `use` says about a field. -/
inductive UseOf (n : Node) : TypeModifier → Prop where
  | default : n.attr "use".toList = none → UseOf n .option
  | optional : n.attr "use".toList = some "optional".toList → UseOf n .option
  | required : n.attr "use".toList = some "required".toList → UseOf n .none
  | prohibited : n.attr "use".toList = some "prohibited".toList → UseOf n .empty

/-- The field for a local attribute; an attribute without a type has the type `String`. -/
inductive AttributeField (n : Node) : StructField → Prop where
  | named {nm m} : n.attr "name".toList = some nm → UseOf n m →
      AttributeField n (.mk nm (((n.attr "type".toList).or (n.attr "ref".toList)).getD "String".toList) (docOf n) []
        .attribute [m])
  | ref {r m} : n.attr "name".toList = none → n.attr "ref".toList = some r → UseOf n m →
      AttributeField n (.mk r ((n.attr "type".toList).getD r) (docOf n) [] .attribute [m])

/-- Boxed if the name of the type ends with the name of the owner. -/
inductive Boxed (owner type : List Char) (ms : List TypeModifier) : List TypeModifier → Prop where
  | yes {pre} : type = pre ++ owner → Boxed owner type ms (ms ++ [.recursive])
  | no : (∀ pre, type ≠ pre ++ owner) → Boxed owner type ms ms

/-- `minOccurs` as it is read: 1 if it is missing or not a number. -/
inductive MinRead (n : Node) : Nat → Prop where
  | missing : n.attr "minOccurs".toList = none → MinRead n 1
  | number {s k} : n.attr "minOccurs".toList = some s → U64Text s k → MinRead n k
  | unreadable {s} : n.attr "minOccurs".toList = some s → (∀ k, ¬ U64Text s k) → MinRead n 1

/-- `maxOccurs` as it is read. -/
inductive MaxRead (n : Node) : MaxOccurs → Prop where
  | missing : n.attr "maxOccurs".toList = none → MaxRead n .none
  | number {s k} : n.attr "maxOccurs".toList = some s → U64Text s k → MaxRead n (.bounded k)
  | unbounded : n.attr "maxOccurs".toList = some "unbounded".toList → MaxRead n .unbounded
  | unreadable {s} : n.attr "maxOccurs".toList = some s → s ≠ "unbounded".toList → (∀ k, ¬ U64Text s k) →
      MaxRead n .none

/-- The wrapper for an element with these occurrences. -/
inductive WrapperFor : Nat → MaxOccurs → TypeModifier → Prop where
  | many {lo hi} : 2 ≤ lo → WrapperFor lo hi .array
  | unbounded {lo} : WrapperFor lo .unbounded .array
  | bounded {lo k} : 2 ≤ k → WrapperFor lo (.bounded k) .array
  | optional : WrapperFor 0 .none .option
  | single : WrapperFor 1 .none .none
  | atMostOne {lo k} : lo ≤ 1 → k ≤ 1 → WrapperFor lo (.bounded k) .none

/-- The wrapper of an element. -/
def WrapperOf (n : Node) (m : TypeModifier) : Prop := ∃ lo hi, MinRead n lo ∧ MaxRead n hi ∧ WrapperFor lo hi m

/-- The entity with another name. -/
inductive Renamed (nm : List Char) : RsEntity → RsEntity → Prop where
  | struct {n c f a s} : Renamed nm (.struct (.mk n c f a s)) (.struct (.mk nm c f a s))
  | tupleStruct {n c t s m f} : Renamed nm (.tupleStruct (.mk n c t s m f)) (.tupleStruct (.mk nm c t s m f))
  | enum {n cs c t s src} : Renamed nm (.enum (.mk n cs c t s src)) (.enum (.mk nm cs c t s src))
  | enumCase {n c v t m s} : Renamed nm (.enumCase ⟨n, c, v, t, m, s⟩) (.enumCase ⟨nm, c, v, t, m, s⟩)
  | alias {n o c s} : Renamed nm (.alias (.mk n o c s)) (.alias (.mk nm o c s))
  | structField {n t c s src m} : Renamed nm (.structField (.mk n t c s src m)) (.structField (.mk nm t c s src m))
  | import {n l c} : Renamed nm (.import ⟨n, l, c⟩) (.import ⟨nm, l, c⟩)

/-- No facet. -/
def NotFacet (n : Node) : Prop := n.tag ≠ "whiteSpace".toList ∧ ∀ f ∈ facetTags, n.tag ≠ f.1.toList

/-- An element is declared under a name, or is a reference. -/
def ElementForm (c : Node) : Prop :=
  (∃ n, c.attr "name".toList = some n ∧ c.attr "ref".toList = none) ∨
  (∃ r, c.attr "ref".toList = some r ∧ c.attr "name".toList = none ∧ c.attr "type".toList = none)

/-- The variant for an element of a choice. -/
inductive ChoiceCase (c : Node) : EnumCase → Prop where
  | ref {r m} : c.attr "ref".toList = some r → WrapperOf c m → ChoiceCase c ⟨r, docOf c, [], some r, [m], .choice⟩
  | named {n m} : c.attr "ref".toList = none → c.attr "name".toList = some n → WrapperOf c m →
      ChoiceCase c ⟨n, docOf c, [], c.attr "type".toList, [m], .choice⟩

/-- The field `f` for the member `c` of a sequence which belongs to the type `owner`; `Inline t e` says that the
inline type `t` is the entity `e`. -/
inductive MemberField (Inline : Node → RsEntity → Prop) (owner : List Char) (c : Node) : StructField → Prop where
  /-- an element with a type -/
  | typed {n t m ms} : c.tag = "element".toList →
      c.attr "name".toList = some n → c.attr "type".toList = some t → WrapperOf c m → Boxed owner t [m] ms →
      MemberField Inline owner c (.mk n t (docOf c) [] .element ms)
  /-- a reference to an element -/
  | ref {r m ms} : c.tag = "element".toList → c.attr "name".toList = none →
      c.attr "ref".toList = some r → WrapperOf c m → Boxed owner r [m] ms →
      MemberField Inline owner c (.mk r r (docOf c) [] .element ms)
  /-- an element with an inline type -/
  | inline {n t e e' m ms} : c.tag = "element".toList → Readable c → c.attr "name".toList = some n →
      c.attr "type".toList = none →
      (withTags c ["simpleType", "complexType"]).getLast? = some t → Inline t e →
      Renamed (n ++ "Type".toList) e e' → WrapperOf c m → Boxed owner (n ++ "Type".toList) [m] ms →
      MemberField Inline owner c (.mk n (n ++ "Type".toList) (docOf c) [e'] .element ms)
  /-- a wildcard, for which no code is generated -/
  | any {ms} : c.tag = "any".toList → Boxed owner "String".toList [.empty] ms →
      MemberField Inline owner c (.mk "any".toList "String".toList (docOf c) [] .element ms)
  /-- a choice, which becomes an enum -/
  | choice {cases} : c.tag = "choice".toList → Readable c → List.Forall₂ ChoiceCase (withTags c ["element"]) cases →
      MemberField Inline owner c
        (.mk (owner ++ "Choice".toList) (owner ++ "Choice".toList) none
          [.enum (.mk (owner ++ "Choice".toList) cases none "String".toList [] .choice)] .element [])

/-- What the grammar of schemas admits in a sequence. -/
def SequenceMember (c : Node) : Prop :=
  c.tag ∈ ["group", "sequence", "any"].map String.toList ∨
  (c.tag = "element".toList ∧ ElementForm c) ∨
  (c.tag = "choice".toList ∧ ∀ x ∈ withTags c ["element"], ElementForm x)

/-! ## Simple types -/

/-- The child elements which are facets, with the facets. -/
inductive FacetsOf (p : List Char) : List Node → List Facet → Prop where
  | nil : FacetsOf p [] []
  | facet {c cs f fs} : KindOf (some p) c (.facet f) → FacetsOf p cs fs → FacetsOf p (c :: cs) (⟨f, docOf c⟩ :: fs)
  | skip {c t cs fs} : KindOf (some p) c t → (∀ f, t ≠ .facet f) → FacetsOf p cs fs → FacetsOf p (c :: cs) fs

/-- The enumerated values with their documentation, in order. -/
def enumValues (fs : List Facet) : List (List Char × Option (List Char)) :=
  fs.filterMap fun f =>
    match f.facetType with
    | .enumeration v => some (v, f.comment)
    | _ => none

/-- A value which can be a variant: letters, digits and dashes. -/
def SimpleValue (U : UnicodeTable) (v : List Char) : Prop := v ≠ [] ∧ ∀ c ∈ v, U.isAlphanumeric c = true ∨ c = '-'

/-- `ws` are the pieces of `s` between spaces, without empty ones. -/
inductive SpaceSeparated : List Char → List (List Char) → Prop where
  | nil : SpaceSeparated [] []
  | space {s ws} : SpaceSeparated s ws → SpaceSeparated (' ' :: s) ws
  | last {w} : w ≠ [] → ' ' ∉ w → SpaceSeparated w [w]
  | word {w s ws} : w ≠ [] → ' ' ∉ w → SpaceSeparated s ws → SpaceSeparated (w ++ ' ' :: s) (w :: ws)

/-- Decimal numeral. -/
def numeral (n : Nat) : List Char := (toString n).toList

/-- The entity with another comment. -/
inductive Redocumented (doc : Option (List Char)) : RsEntity → RsEntity → Prop where
  | struct {n c f a s} : Redocumented doc (.struct (.mk n c f a s)) (.struct (.mk n doc f a s))
  | tupleStruct {n c t s m f} :
      Redocumented doc (.tupleStruct (.mk n c t s m f)) (.tupleStruct (.mk n doc t s m f))
  | enum {n cs c t s src} : Redocumented doc (.enum (.mk n cs c t s src)) (.enum (.mk n cs doc t s src))
  | enumCase {n c v t m s} : Redocumented doc (.enumCase ⟨n, c, v, t, m, s⟩) (.enumCase ⟨n, doc, v, t, m, s⟩)
  | alias {n o c s} : Redocumented doc (.alias (.mk n o c s)) (.alias (.mk n o doc s))
  | structField {n t c s src m} :
      Redocumented doc (.structField (.mk n t c s src m)) (.structField (.mk n t doc s src m))
  | import {n l c} : Redocumented doc (.import ⟨n, l, c⟩) (.import ⟨n, l, doc⟩)

/-- Renamed if a name is given. -/
inductive RenamedIf : Option (List Char) → RsEntity → RsEntity → Prop where
  | none {e} : RenamedIf none e e
  | some {nm e e'} : Renamed nm e e' → RenamedIf (some nm) e e'

/-- What a simple type given by a restriction is: an enum if there are enumerated values which all can be variants,
otherwise a wrapper with all facets. -/
inductive RestrictionOf (U : UnicodeTable) (ancestors : List Node) (base : List Char) (fs : List Facet) : RsEntity → Prop
  | enum {owner} : enumValues fs ≠ [] → (∀ v ∈ enumValues fs, SimpleValue U v.1) → OwnerName ancestors owner →
      RestrictionOf U ancestors base fs (.enum (.mk (owner ++ "Enum".toList)
        ((enumValues fs).map fun v => ⟨v.1, v.2, v.1, none, [], .restriction⟩) none base [] .restriction))
  | wrapper : (enumValues fs = [] ∨ ∃ v ∈ enumValues fs, ¬ SimpleValue U v.1) →
      RestrictionOf U ancestors base fs (.tupleStruct (.mk [] none base [] [] fs))

/-- What a list of these items is. -/
inductive ListOf : RsEntity → RsEntity → Prop where
  | enum {n cs c t s src} : ListOf (.enum (.mk n cs c t s src))
      (.tupleStruct (.mk [] none n [.enum (.mk n cs c t s src)] [.array] []))
  | wrapper {n c t s ms fs} : ListOf (.tupleStruct (.mk n c t s ms fs)) (.tupleStruct (.mk n c t s (ms ++ [.array]) fs))

/-- The names in `memberTypes`. -/
inductive MemberTypes (n : Node) : List (List Char) → Prop where
  | none : n.attr "memberTypes".toList = none → MemberTypes n []
  | some {s ws} : n.attr "memberTypes".toList = some s → SpaceSeparated s ws → MemberTypes n ws

/-- The variants of a union: one for each name, then one for each inline type. -/
def unionCasesOf (ws : List (List Char)) (k : Nat) : List EnumCase :=
  (ws.map fun w => ⟨w, none, [], some w, [], .union⟩) ++
  (List.range k).map fun i =>
    ⟨"EnumCase_".toList ++ numeral i, none, [], some ("EnumCaseType_".toList ++ numeral i), [], .union⟩

/-! ## Complex types -/

/-- The field for an attribute or for a wildcard for attributes, for which no code is generated. -/
inductive AttrField (c : Node) : StructField → Prop where
  | attribute {f} : c.tag = "attribute".toList → AttributeField c f → AttrField c f
  | any : c.tag = "anyAttribute".toList →
      AttrField c (.mk "any_attribute".toList "String".toList (docOf c) [] .attribute [.empty])

/-- The attributes of a type. -/
def AttrFields (n : Node) (fs : List StructField) : Prop :=
  List.Forall₂ AttrField (withTags n ["attribute", "anyAttribute"]) fs

/-- A reference to an attribute group. -/
def GroupRef (c : Node) (a : RAlias) : Prop := ∃ r, c.attr "ref".toList = some r ∧ a = .mk r r (docOf c) []

/-- The attribute groups of a type. -/
def GroupRefs (n : Node) (as : List RAlias) : Prop := List.Forall₂ GroupRef (withTags n ["attributeGroup"]) as

/-- The name of a complex type. -/
inductive TypeName (n p : Node) (above : List Node) : List Char → Prop where
  | global {nm} : p.tag = "schema".toList → n.attr "name".toList = some nm → TypeName n p above nm
  | inline {nm} : p.tag ≠ "schema".toList → OwnerName (p :: above) nm → TypeName n p above nm

/-- A complex type whose content is `x`. -/
inductive Completed (n : Node) (name : List Char) (attrs : List StructField) : RsEntity → RsEntity → Prop where
  | struct {n' cm fs ag sub} : Completed n name attrs (.struct (.mk n' cm fs ag sub))
      (.struct (.mk name cm (fs ++ attrs) ag sub))
  | enum {n' cs cm t sub src ags} : GroupRefs n ags → Completed n name attrs (.enum (.mk n' cs cm t sub src))
      (.enum (.mk (name ++ "Choice".toList) cs cm t
        [.struct (.mk name (docOf n)
          (attrs ++ [.mk (name ++ "Choice".toList) (name ++ "Choice".toList) none [] .choice []]) ags [])] src))
  | other {x} : (∀ s, x ≠ .struct s) → (∀ s, x ≠ .enum s) → Completed n name attrs x x

/-- The marker for the base type. -/
def baseMarker (n : Node) (base : List Char) : StructField := .mk "__base__".toList base (docOf n) [] .base []

/-- The tags of the content of a complex type. -/
def contentTags : List String := ["all", "choice", "complexContent", "group", "sequence", "simpleContent"]

/-- What a complex type is. -/
inductive ComplexType (Inline : Node → RsEntity → Prop) (n p : Node) (above : List Node) : RsEntity → Prop where
  /-- no content, or content without child elements -/
  | plain {nm attrs ags} : TypeName n p above nm → Readable n → AttrFields n attrs → GroupRefs n ags →
      (∀ c, (withTags n contentTags).getLast? = some c → c.children.filter Node.isElement = []) →
      ComplexType Inline n p above (.struct (.mk nm (docOf n) attrs ags []))
  | content {nm attrs c x e} : TypeName n p above nm → Readable n → AttrFields n attrs →
      (withTags n contentTags).getLast? = some c → c.children.filter Node.isElement ≠ [] → Inline c x →
      Completed n nm attrs x e → ComplexType Inline n p above e

/-- What a type derived by `n` is; `content` are the tags of which the last child is taken as the content. -/
inductive Derived (Inline : Node → RsEntity → Prop) (content : List String) (n : Node) : RsEntity → Prop where
  | without {base attrs ags} : n.attr "base".toList = some base → AttrFields n attrs → GroupRefs n ags →
      (withTags n content).getLast? = none →
      Derived Inline content n (.struct (.mk [] (docOf n) (attrs ++ [baseMarker n base]) ags []))
  | struct {base attrs c nm cm fs ag sub} : n.attr "base".toList = some base → AttrFields n attrs →
      (withTags n content).getLast? = some c → Inline c (.struct (.mk nm cm fs ag sub)) →
      Derived Inline content n (.struct (.mk nm (docOf n) (fs ++ (attrs ++ [baseMarker n base])) ag sub))
  | lost {base attrs ags c x} : n.attr "base".toList = some base → AttrFields n attrs → GroupRefs n ags →
      (withTags n content).getLast? = some c → Inline c x → (∀ s, x ≠ .struct s) →
      Derived Inline content n (.struct (.mk [] (docOf n) (attrs ++ [baseMarker n base]) ags []))

/-! ## Global declarations -/

/-- A declaration with a name directly in the schema; `types` are the tags of inline types. -/
inductive Global (Inline : Node → RsEntity → Prop) (types : List String) (n : Node) (doc : Option (List Char)) :
    RsEntity → Prop where
  | typed {nm t} : n.attr "name".toList = some nm → n.attr "type".toList = some t →
      Global Inline types n doc (.alias (.mk nm t (docOf n) []))
  | inline {nm c x e} : n.attr "name".toList = some nm → n.attr "type".toList = none → Readable n →
      (withTags n types).getLast? = some c → Inline c x → Renamed nm x e → Global Inline types n doc e
  | empty {nm} : n.attr "name".toList = some nm → n.attr "type".toList = none → Readable n →
      (withTags n types).getLast? = none → Global Inline types n doc (.struct (.mk nm doc [] [] []))

end Verif.Spec
