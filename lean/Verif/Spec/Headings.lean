import Verif.Spec.Outline
import Verif.Spec.Denote

/-!
# Specification: the documentation of a schema in the generated code

Which documentation stands above the definition for a global declaration, and above its members.
-/

namespace Verif.Spec

open Verif Verif.Model Verif.RoXml

variable (N : Naming) (docs : Nat → Option (List Char) → List Mark)

/-- The field for a member of a sequence, or for an attribute, of the type `owner`. -/
inductive FieldMarks (owner : List Char) (c : Node) : List Mark → Prop where
  | element {nm} : Is c ["element"] →
      (c.attr "name".toList = some nm ∨ (c.attr "name".toList = none ∧ c.attr "ref".toList = some nm)) →
      FieldMarks owner c (docs 4 (docOf c) ++ [.member (N.name nm)])
  /-- a choice has no documentation -/
  | choice : Is c ["choice"] → FieldMarks owner c [.member (N.name (owner ++ "Choice".toList))]
  | attribute {nm} : Is c ["attribute"] → c.attr "use".toList ≠ some "prohibited".toList →
      (c.attr "name".toList = some nm ∨ (c.attr "name".toList = none ∧ c.attr "ref".toList = some nm)) →
      FieldMarks owner c (docs 4 (docOf c) ++ [.member (N.name nm)])
  | prohibited : Is c ["attribute"] → c.attr "use".toList = some "prohibited".toList → FieldMarks owner c []
  | wildcard : Is c ["any", "anyAttribute"] → FieldMarks owner c []

/-- The fields for some members. -/
def FieldsMarks (owner : List Char) (cs : List Node) (ms : List Mark) : Prop :=
  ∃ parts, List.Forall₂ (FieldMarks N docs owner) cs parts ∧ ms = parts.flatten

/-- The variant for an element of a choice. -/
inductive CaseMarks (c : Node) : List Mark → Prop where
  | element {nm} : (c.attr "ref".toList = some nm ∨ (c.attr "ref".toList = none ∧ c.attr "name".toList = some nm)) →
      CaseMarks c (docs 4 (docOf c) ++ [.member (N.case nm)])

/-- The values which the simple type enumerates, if they can be variants, with their documentation. -/
inductive EnumerationOf (U : UnicodeTable) (n : Node) : List (List Char × Option (List Char)) → Prop where
  | mk {r fs} : (members n).getLast? = some r → Is r ["restriction"] → FacetsOf r.tag r.children fs → enumValues fs ≠ [] →
      (∀ v ∈ enumValues fs, SimpleValue U v.1) → EnumerationOf U n (enumValues fs)

/-- The attributes of a type, including wildcards. -/
abbrev attributesOf (n : Node) : List Node := withTags n ["attribute", "anyAttribute"]

/-- The outline for the type `n`, which is called `nm`; the definition is called `head`. -/
inductive TypeMarks (U : UnicodeTable) (above : List Node) (n : Node) (nm head : List Char) : List Mark → Prop where
  /-- an enumeration; the documentation of its values is kept -/
  | enumeration {vs} : Is n ["simpleType"] → EnumerationOf U n vs → TypeMarks U above n nm head
      (docs 0 (docOf n) ++ .item .enum (N.type head) :: (memberMarks (docs 4) (·.2) (fun v => N.case v.1) vs ++
        [.member "__Unknown__".toList]))
  | simple {k rest} : Is n ["simpleType"] → (∀ vs, ¬ EnumerationOf U n vs) → k ∈ [DefKind.struct, .enum] →
      TypeMarks U above n nm head (docs 0 (docOf n) ++ .item k (N.type head) :: rest)
  /-- no content; the fields of attribute groups follow -/
  | plain {ms rest} : Is n ["complexType"] →
      (∀ c, (withTags n contentTags).getLast? = some c → c.children.filter Node.isElement = []) →
      FieldsMarks N docs nm (attributesOf n) ms → (withTags n ["attributeGroup"] = [] → rest = []) →
      TypeMarks U above n nm head (docs 0 (docOf n) ++ .item .struct (N.type head) :: (ms ++ rest))
  /-- members in a sequence; what follows is about types inside them -/
  | sequence {c owner ms rest} : Is n ["complexType"] → (withTags n contentTags).getLast? = some c →
      c.children.filter Node.isElement ≠ [] → Is c ["sequence", "all"] → OwnerName (n :: above) owner →
      FieldsMarks N docs owner (members c ++ attributesOf n) ms →
      (rest = [] ∨ ∃ more, rest = .item .mod (N.name head) :: more) →
      TypeMarks U above n nm head (docs 0 (docOf n) ++ .item .struct (N.type head) :: (ms ++ rest))
  /-- a choice: the documentation is not above the enum, but above the struct which has it as a field -/
  | choice {c parts ms} : Is n ["complexType"] → (withTags n contentTags).getLast? = some c →
      c.children.filter Node.isElement ≠ [] → Is c ["choice"] →
      List.Forall₂ (CaseMarks N docs) (withTags c ["element"]) parts → FieldsMarks N docs nm (attributesOf n) ms →
      TypeMarks U above n nm head (.item .enum (N.type head) :: (parts.flatten ++ .member "__Unknown__".toList ::
        (docs 0 (docOf n) ++ .item .struct (N.type nm) :: (ms ++ [.member (N.name (nm ++ "Choice".toList))]))))
  /-- derivation: the documentation of the type is lost, that of the derivation is taken -/
  | derived {c d rest} : Is n ["complexType"] → (withTags n contentTags).getLast? = some c →
      Is c ["complexContent", "simpleContent"] → (members c).getLast? = some d →
      TypeMarks U above n nm head (docs 0 (docOf d) ++ .item .struct (N.type head) :: rest)

/-- The outline for a global declaration. -/
inductive DeclMarks (U : UnicodeTable) (root c : Node) : List Mark → Prop where
  | import : Is c ["import", "include"] → DeclMarks U root c
      [.comment ("use ".toList ++ (c.attr "schemaLocation".toList).getD [] ++ "  ".toList ++
        (c.attr "namespace".toList).getD [] ++ ";".toList)]
  | type {nm ms} : Is c ["simpleType", "complexType"] → c.attr "name".toList = some nm → ¬ ChoiceContent c →
      TypeMarks N docs U [root] c nm nm ms → DeclMarks U root c ms
  | choice {nm ms} : Is c ["complexType"] → c.attr "name".toList = some nm → ChoiceContent c →
      TypeMarks N docs U [root] c nm (nm ++ "Choice".toList) ms → DeclMarks U root c ms
  /-- an element or attribute with a type is another name for it; the definition is written only if there is
  documentation -/
  | alias {nm t} : Is c ["element", "attribute"] → c.attr "name".toList = some nm → c.attr "type".toList = some t →
      Documented (docOf c) → DeclMarks U root c (docs 0 (docOf c) ++ [.item .type (N.type nm)])
  | silent {nm t} : Is c ["element", "attribute"] → c.attr "name".toList = some nm → c.attr "type".toList = some t →
      ¬ Documented (docOf c) → DeclMarks U root c
        [.comment (" pub type ".toList ++ N.type nm ++ " = ".toList ++ N.type t ++ ";".toList)]
  /-- with an inline type, the documentation is that of the type -/
  | inline {nm t ms} : Is c ["element", "attribute"] → c.attr "name".toList = some nm → c.attr "type".toList = none →
      inlineType c = some t → TypeMarks N docs U [c, root] t nm nm ms → DeclMarks U root c ms
  | emptyElement {nm} : Is c ["element"] → c.attr "name".toList = some nm → c.attr "type".toList = none →
      inlineType c = none → DeclMarks U root c (docs 0 (docOf c) ++ [.item .struct (N.type nm)])
  | emptyAttribute {nm} : Is c ["attribute"] → c.attr "name".toList = some nm → c.attr "type".toList = none →
      inlineType c = none → DeclMarks U root c [.item .struct (N.type nm)]

end Verif.Spec
