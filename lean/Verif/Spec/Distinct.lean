import Verif.Spec.Fields
import Verif.Spec.Denote
import Verif.Spec.WellNamed

/-! # Specification: nothing is defined twice -/

namespace Verif.Spec

open Verif Verif.Model Verif.RoXml

/-- Names which differ in more than case and punctuation. -/
def Unlike (vs : List (List Char)) : Prop := vs.Pairwise fun a b => skeleton asciiAlnum a ≠ skeleton asciiAlnum b

/-- In no module of the code are there two types, two modules or a type and a module of the same name (in Rust, types and
modules share their names). -/
def DefinedOnce (t : List Char) : Prop := ∃ ds, HasDefs t ds ∧ (ds.map fun d => (d.1, d.2.2)).Nodup

/-- The types which are defined for fields. -/
def innerTypes (fs : List StructField) : List (List Char) :=
  (fs.filter fun f => !f.subtypes.isEmpty).map (·.typeName)

/-- The definitions for a schema differ in more than case and punctuation. -/
structure Separate (U : UnicodeTable) (root : Node) : Prop where
  /-- what the global declarations define -/
  top : ∀ dss, List.Forall₂ (GlobalDefs U root) (globals root) dss → Unlike (dss.flatten.map (·.2))
  /-- the inline types of each complex type, with those which are inherited -/
  types : ∀ F, (∀ c nm n, Declares root c nm n → TypeFields root F c nm n (F c)) →
    ∀ c nm n, Declares root c nm n → Unlike (innerTypes (F c))
  /-- the inline types of each inline type, which is not derived -/
  complex : ∀ s c t, PartOf root s → Is s ["sequence", "all"] → c ∈ members s → Is c ["element"] → inlineType c = some t →
    Is t ["complexType"] → ¬ ChoiceContent t ∧
      ∀ owner fs gs, OwnFields owner t fs gs → Unlike (innerTypes fs) ∧ ∀ f ∈ fs, f.name ≠ "__base__".toList
  /-- inline simple types have no inline types -/
  simple : ∀ s c t, PartOf root s → Is s ["sequence", "all"] → c ∈ members s → Is c ["element"] → inlineType c = some t →
    Is t ["simpleType"] → ∀ r ∈ members t, withTags r ["simpleType"] = []

/-- Fields whose names, without prefixes, differ in more than case and punctuation. -/
def UnlikeFields (U : UnicodeTable) (fs : List StructField) : Prop :=
  fs.Pairwise fun f g => ∀ s t, AfterLastColon f.name s → AfterLastColon g.name t →
    skeleton U.isAlphanumeric s ≠ skeleton U.isAlphanumeric t

/-- The field for the choice of a type. -/
def choiceField (nm : List Char) : StructField := .mk (nm ++ "Choice".toList) (nm ++ "Choice".toList) none [] .choice []

/-- `Q` holds of the fields of all structs for types which are inside others and not derived, and for types with a choice. -/
structure FieldsAre (Q : List StructField → Prop) (root : Node) : Prop where
  /-- the fields of each inline type -/
  complex : ∀ s c t, PartOf root s → Is s ["sequence", "all"] → c ∈ members s → Is c ["element"] → inlineType c = some t →
    Is t ["complexType"] → ∀ owner fs gs, OwnFields owner t fs gs → Q fs
  /-- the attributes of each type with a choice, whatever the type is called -/
  choices : ∀ n c nm attrs, PartOf root n → Is n ["complexType"] → (withTags n contentTags).getLast? = some c →
    Is c ["choice", "simpleContent", "complexContent"] → AttrFields n attrs → Q (attrs ++ [choiceField nm])

/-- The fields of each struct for a schema differ in more than case and punctuation. -/
structure SeparateFields (U : UnicodeTable) (root : Node) : Prop where
  /-- the fields of each complex type, with those which are inherited -/
  types : ∀ F, (∀ c nm n, Declares root c nm n → TypeFields root F c nm n (F c)) →
    ∀ c nm n, Declares root c nm n → UnlikeFields U (written (F c))
  inner : FieldsAre (fun fs => UnlikeFields U (written fs)) root

/-- The local names of variants differ in more than case and punctuation. -/
def UnlikeNames (vs : List (List Char)) : Prop :=
  vs.Pairwise fun a b => ∀ o n p m, Ref o n a → Ref p m b → skeleton asciiAlnum n ≠ skeleton asciiAlnum m

/-- What the variant for an element of a choice is called. -/
def VariantName (e : Node) (v : List Char) : Prop :=
  e.attr "ref".toList = some v ∨ e.attr "ref".toList = none ∧ e.attr "name".toList = some v

/-- The variants for a schema differ in more than case and punctuation. -/
structure SeparateVariants (U : UnicodeTable) (root : Node) : Prop where
  /-- the elements of each choice -/
  choices : ∀ c vs, PartOf root c → Is c ["choice"] → List.Forall₂ VariantName (withTags c ["element"]) vs → UnlikeNames vs
  /-- the values of each enumeration -/
  values : ∀ r fs, PartOf root r → Is r ["restriction"] → FacetsOf r.tag r.children fs →
    (∀ v ∈ enumValues fs, SimpleValue U v.1) → Unlike ((enumValues fs).map (·.1))
  /-- the member types of each union -/
  unions : ∀ u ws, PartOf root u → Is u ["union"] → MemberTypes u ws → UnlikeNames ws ∧
    ∀ w ∈ ws, ∀ o n k, Ref o n w → k < (withTags u ["simpleType"]).length →
      skeleton asciiAlnum n ≠ skeleton asciiAlnum ("EnumCase_".toList ++ numeral k)

end Verif.Spec
