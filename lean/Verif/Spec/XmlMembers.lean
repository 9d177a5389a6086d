import Verif.Spec.Fields
import Verif.Spec.XmlNames

/-!
# Specification: the names in XML documents, for all members of a struct

The members of a struct come from anywhere in the schema: from the type itself, from the types it is derived from, from
attribute groups.
-/

namespace Verif.Spec

open Verif Verif.RoXml Verif.Model

/-- The part of the schema which a field comes from. -/
inductive ComesFrom (root : Node) (f : StructField) (e : Node) : Prop where
  /-- a member of a sequence of a type which has a name -/
  | member {c o n s} : Declares root c o n → PartOf n s → Is s ["sequence", "all"] → e ∈ members s →
      MemberField anyType o e f → ComesFrom root f e
  /-- an attribute, or a wildcard for them -/
  | attribute : PartOf root e → AttrField e f → ComesFrom root f e
  /-- what is left of a derivation if its type is used as an attribute group -/
  | marker {base} : PartOf root e → f = baseMarker e base → ComesFrom root f e

/-- What the member `m` of the struct `i`, which belongs to the part `e` of the schema, is called in documents. -/
inductive PartReads (tns : Option Namespace) (i : Item) (f : StructField) (m : Member) (e : Node) : Prop where
  | element : Is e ["element"] → (∀ x, ElementReads i m x ↔ SequenceName tns e x) → PartReads tns i f m e
  | choice : Is e ["choice"] → (∀ x, ElementReads i m x ↔ x = ⟨targetUri tns, f.name⟩) → PartReads tns i f m e
  | attribute : Is e ["attribute"] → (∀ x, AttributeReads i m x ↔ AttributeName tns e x) → PartReads tns i f m e
  | marker {base} : f = baseMarker e base → m.attr = none → PartReads tns i f m e

/-! ## All structs, wherever they are -/

/-- The declared name of a part, or else the name it refers to. -/
def NamedBy (e : Node) (nm : List Char) : Prop :=
  e.attr "name".toList = some nm ∨ (e.attr "name".toList = none ∧ e.attr "ref".toList = some nm)

/-- What is called after a part of the schema, or has a substitute for the name. -/
def OwnerIn (root : Node) (o : List Char) : Prop :=
  (∃ a, PartOf root a ∧ a.attr "name".toList = some o) ∨ o ∈ ["UnsupportedName", "SchemaElement"].map String.toList

/-- A member of a sequence. -/
def InSequence (root e : Node) : Prop := ∃ s, PartOf root s ∧ Is s ["sequence", "all"] ∧ e ∈ members s

/-- The part of the schema which a field of any struct comes from. -/
inductive FieldFrom (root : Node) (f : StructField) (e : Node) : Prop where
  | element : InSequence root e → Is e ["element"] → f.source = .element → NamedBy e f.name → FieldFrom root f e
  /-- a choice in a sequence -/
  | choice {o} : InSequence root e → Is e ["choice"] → f.source = .element → OwnerIn root o → f.name = o ++ "Choice".toList → FieldFrom root f e
  | attribute : Is e ["attribute"] → f.source = .attribute → NamedBy e f.name → FieldFrom root f e
  /-- a type whose content is a choice -/
  | content : Is e ["complexType"] → f.source = .choice → FieldFrom root f e
  /-- what is left of a derivation -/
  | marker : Is e ["extension", "restriction"] → f.source = .base → FieldFrom root f e
  /-- a field which is not written -/
  | hidden : .empty ∈ f.typeModifiers → FieldFrom root f e

/-- The part of the schema which a variant of an enum comes from; `src` is what the enum is for. -/
inductive CaseFrom (src : EnumSource) (c : EnumCase) (e : Node) : Prop where
  | element : src = .choice → Is e ["element"] → ChoiceCase e c → CaseFrom src c e
  | value : src = .restriction → Is e ["enumeration"] → e.attr "value".toList = some c.name → CaseFrom src c e

/-- The member `m` of the struct `i` has in documents the name of the part `e` of the schema. -/
inductive MemberNamed (root : Node) (tns : Option Namespace) (i : Item) (m : Member) (e : Node) : Prop where
  | element : InSequence root e → Is e ["element"] → (∀ x, ElementReads i m x ↔ SequenceName tns e x) → MemberNamed root tns i m e
  | choice {o} : InSequence root e → Is e ["choice"] → OwnerIn root o → (∀ x, ElementReads i m x ↔ x = ⟨targetUri tns, o ++ "Choice".toList⟩) →
      MemberNamed root tns i m e
  | attribute : Is e ["attribute"] → (∀ x, AttributeReads i m x ↔ AttributeName tns e x) → MemberNamed root tns i m e
  /-- no name: the elements of the choice are read in place -/
  | content : Is e ["complexType"] → m.attr = some (yaserdeAttr ["flatten".toList] []) → MemberNamed root tns i m e
  /-- no name -/
  | marker : Is e ["extension", "restriction"] → m.attr = none → MemberNamed root tns i m e

/-- The variant `m` of the enum `i` has in documents the name of the part `e` of the schema, or is a value of it. -/
inductive VariantNamed (N : Naming) (tns : Option Namespace) (i : Item) (m : Member) (e : Node) : Prop where
  | element : Is e ["element"] → (∀ x, VariantReads i m x ↔ ChoiceName tns e x) → VariantNamed N tns i m e
  | value {v} : Is e ["enumeration"] → e.attr "value".toList = some v → m.name = N.case v → VariantNamed N tns i m e

end Verif.Spec
