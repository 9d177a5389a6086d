import Verif.Spec.Fields

/-!
# Specification: the entity for a part of a schema
-/

namespace Verif.Spec

open Verif Verif.RoXml Verif.Model

/-- What the part `n` of a schema is, with its parent and the ancestors of that; `R t q above e` says that the part `t` in
`q` is the entity `e`. -/
inductive EntityOf (U : UnicodeTable) (R : Node → Node → List Node → RsEntity → Prop) (n p : Node) (above : List Node) :
    RsEntity → Prop where
  | import : Is n ["import", "include"] → EntityOf U R n p above
      (.import ⟨(n.attr "namespace".toList).getD [], (n.attr "schemaLocation".toList).getD [], none⟩)
  /-- a global element -/
  | element {e} : Is n ["element"] → Is p ["schema"] →
      Global (fun c x => R c n (p :: above) x) ["simpleType", "complexType"] n (docOf n) e → EntityOf U R n p above e
  /-- a global attribute -/
  | attribute {e} : Is n ["attribute"] → Is p ["schema"] →
      Global (fun c x => R c n (p :: above) x) ["simpleType"] n none e → EntityOf U R n p above e
  /-- a global attribute group -/
  | attributeGroup {nm fs} : Is n ["attributeGroup"] → Is p ["schema"] → Readable n → n.attr "name".toList = some nm →
      AttrFields n fs → EntityOf U R n p above (.struct (.mk nm none fs [] []))
  /-- a reference to an attribute group -/
  | groupRef {a} : Is n ["attributeGroup"] → ¬ Is p ["schema"] → GroupRef n a → EntityOf U R n p above (.alias a)
  | anyAttribute : Is n ["anyAttribute"] → EntityOf U R n p above
      (.structField (.mk "any_attribute".toList "String".toList (docOf n) [] .attribute [.empty]))
  | complexType {e} : Is n ["complexType"] → ComplexType (fun c x => R c n (p :: above) x) n p above e →
      EntityOf U R n p above e
  | sequence {owner fields} : Is n ["sequence", "all"] → OwnerName (p :: above) owner → Readable n →
      List.Forall₂ (fun c f => MemberField (fun t e => R t c (n :: p :: above) e) owner c f) (members n) fields →
      EntityOf U R n p above (.struct (.mk owner (docOf p) fields [] []))
  | choice {cases} : Is n ["choice"] → Readable n → List.Forall₂ ChoiceCase (withTags n ["element"]) cases →
      EntityOf U R n p above (.enum (.mk [] cases none "String".toList [] .choice))
  | content {c e} : Is n ["complexContent", "simpleContent"] → Readable n → (members n).getLast? = some c →
      R c n (p :: above) e → EntityOf U R n p above e
  /-- a derivation in complex content -/
  | derived {e} : Is n ["extension", "restriction"] → Is p ["complexContent"] → Readable n →
      Derived (fun c x => R c n (p :: above) x) (derivedTags n) n e → EntityOf U R n p above e
  /-- an extension in simple content -/
  | simpleExtension {base attrs ags} : Is n ["extension"] → Is p ["simpleContent"] → Readable n →
      n.attr "base".toList = some base → AttrFields n attrs → GroupRefs n ags →
      EntityOf U R n p above (.struct (.mk [] (docOf n) (attrs ++ [baseMarker n base]) ags []))
  | simpleType {c x y e} : Is n ["simpleType"] → (Is p ["schema"] ↔ Has n "name") → Readable n →
      (members n).getLast? = some c → R c n (p :: above) x → RenamedIf (n.attr "name".toList) x y →
      Redocumented (docOf n) y e → EntityOf U R n p above e
  /-- a restriction in a simple type -/
  | restriction {base fs e} : Is n ["restriction"] → Is p ["simpleType"] → n.attr "base".toList = some base →
      FacetsOf n.tag n.children fs → RestrictionOf U (p :: above) base fs e → EntityOf U R n p above e
  /-- a list of a type with a name -/
  | list {t} : Is n ["list"] → n.attr "itemType".toList = some t →
      EntityOf U R n p above (.tupleStruct (.mk [] none t [] [.array] []))
  /-- a list of an inline type -/
  | listOf {c x e} : Is n ["list"] → n.attr "itemType".toList = none → (withTags n ["simpleType"]).head? = some c →
      R c n (p :: above) x → ListOf x e → EntityOf U R n p above e
  | union {ws subs} : Is n ["union"] → Readable n → MemberTypes n ws →
      List.Forall₂ (fun c s => ∃ x, R c.1 n (p :: above) x ∧ Renamed ("EnumCaseType_".toList ++ numeral c.2) x s)
        (withTags n ["simpleType"]).zipIdx subs →
      EntityOf U R n p above (.enum (.mk [] (unionCasesOf ws subs.length) (docOf n) "String".toList subs .union))

/-- The part `n` is the entity `e`, if at most `k` levels of parts inside each other are looked at. -/
def ReadsIn (U : UnicodeTable) : Nat → Node → Node → List Node → RsEntity → Prop
  | 0 => fun _ _ _ _ => False
  | k + 1 => EntityOf U (ReadsIn U k)

/-- The part `n` of a schema, with its parent and the ancestors of that, is the entity `e`. -/
def ReadsAs (U : UnicodeTable) (n p : Node) (above : List Node) (e : RsEntity) : Prop := ∃ k, ReadsIn U k n p above e

/-- The first of the list with this property. -/
inductive First {α : Type} (P : α → Prop) (l : List α) : Option α → Prop where
  | none : (∀ a ∈ l, ¬ P a) → First P l none
  | some {pre x post} : l = pre ++ x :: post → P x → (∀ a ∈ pre, ¬ P a) → First P l (some x)

/-- The target namespace: the first declared one with its URI. -/
inductive TargetNs (root : Node) : Option Namespace → Prop where
  | none : root.attr "targetNamespace".toList = none → TargetNs root none
  | some {uri o} : root.attr "targetNamespace".toList = some uri → First (fun a : Namespace => a.uri = uri) root.namespaces o →
      TargetNs root o

/-- The namespace of XML Schema: the first declared one with its URI and a prefix, or else the first one with its URI. -/
inductive XsdNs (root : Node) : Option Namespace → Prop where
  | withPrefix {x} : First (fun a : Namespace => a.uri = "http://www.w3.org/2001/XMLSchema".toList ∧ a.name ≠ none)
      root.namespaces (some x) → XsdNs root (some x)
  | without {o} : First (fun a : Namespace => a.uri = "http://www.w3.org/2001/XMLSchema".toList ∧ a.name ≠ none)
      root.namespaces none → First (fun a : Namespace => a.uri = "http://www.w3.org/2001/XMLSchema".toList) root.namespaces o →
      XsdNs root o

/-- The schema is this file, where derived types do not have the fields of their bases yet: one entity for each global
declaration and, apart from these, one for each attribute group. -/
structure ReadsFile (U : UnicodeTable) (root : Node) (f : RsFile) : Prop where
  readable : Readable root
  types : List.Forall₂ (fun c e => ReadsAs U c root [] e) (globals root) f.types
  groups : List.Forall₂ (fun c e => ReadsAs U c root [] e) (withTags root ["attributeGroup"]) f.attributeGroups
  target : TargetNs root f.targetNs
  xsd : XsdNs root f.xsdNs
  name : f.name = [] ∧ f.ns = none

/-- What the grammar says about elements and attributes. -/
structure ProperForms (root : Node) : Prop where
  /-- what is in sequences is as the grammar admits it -/
  sequences : ∀ n c, PartOf root n → Is n ["sequence", "all"] → c ∈ members n → SequenceMember c
  /-- elements of a choice are declared under a name, or are references -/
  choices : ∀ n c, PartOf root n → Is n ["choice"] → c ∈ withTags n ["element"] → ElementForm c
  /-- global attributes are not references -/
  attributes : ∀ c ∈ globals root, Is c ["attribute"] → ¬ Has c "ref"

end Verif.Spec
