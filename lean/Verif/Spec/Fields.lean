import Verif.Spec.Document
import Verif.Spec.Extend

/-!
# Specification: the fields of the structs for a schema
-/

namespace Verif.Spec

open Verif Verif.RoXml Verif.Model

/-! ## Structs in a text -/

/-- At the top level of the text there is a struct of this name with these members. -/
inductive HasStruct (t name : List Char) : List Member → Prop where
  | block {pre rest} : Lines t (pre ++ ("pub struct ".toList ++ (name ++ " {".toList)) :: rest) → stackAfter [] pre = [] →
      HasStruct t name (readFieldLines none (rest.takeWhile (· ≠ ['}'])))
  | empty {pre rest} : Lines t (pre ++ ("pub struct ".toList ++ (name ++ " {}".toList)) :: rest) → stackAfter [] pre = [] →
      HasStruct t name []

/-! ## Fields in a schema -/

/-- What the inline types are does not matter for the fields. -/
def anyType (_ : Node) (_ : RsEntity) : Prop := True

/-- The members of a sequence of the type `owner`. -/
def SequenceFields (owner : List Char) (s : Node) (fs : List StructField) : Prop :=
  List.Forall₂ (MemberField anyType owner) (members s) fs

/-- The attribute groups which a type refers to. -/
def GroupNames (n : Node) (rs : List (List Char)) : Prop :=
  List.Forall₂ (fun c r => c.attr "ref".toList = some r) (withTags n ["attributeGroup"]) rs

/-- The tags which are looked for as the content of a derivation. -/
def derivedTags (d : Node) : List String :=
  if d.tag = "extension".toList then ["all", "attributeGroup", "choice", "group", "sequence"]
  else ["all", "anyAttribute", "attributeGroup", "choice", "group", "sequence"]

/-- The fields which the complex type `n`, called `owner`, has of its own, with a marker for the base, and the attribute
groups it refers to. -/
inductive OwnFields (owner : List Char) (n : Node) : List StructField → List (List Char) → Prop where
  /-- no content, or content without child elements -/
  | plain {attrs gs} : (∀ s, (withTags n contentTags).getLast? = some s → s.children.filter Node.isElement = []) →
      AttrFields n attrs → GroupNames n gs → OwnFields owner n attrs gs
  /-- a sequence: the attribute groups are lost -/
  | sequence {s fs attrs} : (withTags n contentTags).getLast? = some s → Is s ["sequence", "all"] →
      s.children.filter Node.isElement ≠ [] → SequenceFields owner s fs → AttrFields n attrs →
      OwnFields owner n (fs ++ attrs) []
  /-- an extension of simple content -/
  | simple {s d base attrs attrs' gs} : (withTags n contentTags).getLast? = some s → Is s ["simpleContent"] →
      s.children.filter Node.isElement ≠ [] → (members s).getLast? = some d → Is d ["extension"] →
      d.attr "base".toList = some base → AttrFields d attrs' → GroupNames d gs → AttrFields n attrs →
      OwnFields owner n ((attrs' ++ [baseMarker d base]) ++ attrs) gs
  /-- a derivation whose content is nothing, or is lost -/
  | derived {s d base attrs attrs' gs} : (withTags n contentTags).getLast? = some s → Is s ["complexContent"] →
      s.children.filter Node.isElement ≠ [] → (members s).getLast? = some d → Is d ["extension", "restriction"] →
      d.attr "base".toList = some base → AttrFields d attrs' → GroupNames d gs →
      (∀ q, (withTags d (derivedTags d)).getLast? = some q → ¬ Is q ["sequence", "all"]) → AttrFields n attrs →
      OwnFields owner n ((attrs' ++ [baseMarker d base]) ++ attrs) gs
  /-- a derivation with a sequence: the attribute groups are lost -/
  | derivedSequence {s d q base fs attrs attrs'} : (withTags n contentTags).getLast? = some s → Is s ["complexContent"] →
      s.children.filter Node.isElement ≠ [] → (members s).getLast? = some d → Is d ["extension", "restriction"] →
      d.attr "base".toList = some base → AttrFields d attrs' → (withTags d (derivedTags d)).getLast? = some q →
      Is q ["sequence", "all"] → SequenceFields owner q fs → AttrFields n attrs →
      OwnFields owner n ((fs ++ (attrs' ++ [baseMarker d base])) ++ attrs) []

/-- The complex type which a global declaration gives a name to. -/
inductive TypeBody (c : Node) : Node → Prop where
  | type : c.tag = "complexType".toList → TypeBody c c
  | element {t} : c.tag = "element".toList → c.attr "type".toList = none → inlineType c = some t →
      t.tag = "complexType".toList → TypeBody c t

/-- The global declaration `c` declares the name `nm` for the complex type `n`, which is not a choice. -/
def Declares (root c : Node) (nm : List Char) (n : Node) : Prop :=
  c ∈ globals root ∧ c.attr "name".toList = some nm ∧ TypeBody c n ∧ ¬ ChoiceContent n

/-- The global declarations, the attribute groups at the end. -/
def declarations (root : Node) : List Node := globals root ++ withTags root ["attributeGroup"]

/-- A declaration which could become a struct. -/
def StructLike (c : Node) : Prop :=
  Is c ["complexType", "attributeGroup"] ∨ (Is c ["element", "attribute"] ∧ c.attr "type".toList = none)

/-- What the fields depend on besides the grammar. -/
structure RegularSchema (root : Node) : Prop where
  /-- no two declarations which could become structs have the same name -/
  distinct : ∀ (i j : Nat) c d nm, (declarations root)[i]? = some c → (declarations root)[j]? = some d →
    StructLike c → StructLike d → c.attr "name".toList = some nm → d.attr "name".toList = some nm → i = j
  /-- what is in sequences is as the grammar admits it -/
  sequences : ∀ n c, PartOf root n → Is n ["sequence", "all"] → c ∈ members n → SequenceMember c
  /-- inline types and what is in them have no names -/
  anonymous : ∀ n c, PartOf root n → ¬ Is n ["schema"] → c ∈ members n →
    Is c ["complexType", "complexContent", "simpleContent", "extension", "restriction"] → ¬ Has c "name"

/-- `d` comes before `c`. -/
def Before (root d c : Node) : Prop :=
  ∃ i j : Nat, i < j ∧ (globals root)[i]? = some d ∧ (globals root)[j]? = some c

/-- The fields which `c` gets when it refers to `key`; `F` are the fields of the finished structs. -/
inductive Visible (root : Node) (F : Node → List StructField) (c : Node) (own : List StructField) (key : List Char) :
    List StructField → Prop where
  /-- nothing of this name is a struct -/
  | unknown : (∀ d nm n, Declares root d nm n → nm ≠ key) →
      (∀ d ∈ withTags root ["attributeGroup"], d.attr "name".toList ≠ some key) → Visible root F c own key []
  | self {n} : Declares root c key n → Visible root F c own key own
  | earlier {d n} : Declares root d key n → Before root d c → Visible root F c own key (F d)
  /-- only the own fields -/
  | later {d n fs gs} : Declares root d key n → Before root c d → OwnFields key n fs gs → Visible root F c own key fs
  | group {d fs} : d ∈ withTags root ["attributeGroup"] → d.attr "name".toList = some key → AttrFields d fs →
      Visible root F c own key fs

/-- `fs` are the fields of the struct for `c`: its own, those inherited, those of attribute groups. -/
def TypeFields (root : Node) (F : Node → List StructField) (c : Node) (nm : List Char) (n : Node)
    (fs : List StructField) : Prop :=
  ∃ own gs inh grp, OwnFields nm n own gs ∧ Gathered (Visible root F c own) (bases own) inh ∧
    Gathered (Visible root F c (inherit own inh)) gs grp ∧ fs = inherit own inh ++ grp

/-- Fields which are the same but for the types defined inside. -/
def SameField (f f' : StructField) : Prop :=
  f.name = f'.name ∧ f.typeName = f'.typeName ∧ f.comment = f'.comment ∧ f.source = f'.source ∧
    f.typeModifiers = f'.typeModifiers ∧ f.subtypes.isEmpty = f'.subtypes.isEmpty

/-- The fields which are written. -/
abbrev written (fs : List StructField) : List StructField := fs.filter fun f => !f.typeModifiers.contains .empty

/-- The complex type is derived from this type. -/
def DerivedFrom (n : Node) (base : Str) : Prop :=
  ∃ s d, (withTags n contentTags).getLast? = some s ∧ Is s ["simpleContent", "complexContent"] ∧
    s.children.filter Node.isElement ≠ [] ∧ (members s).getLast? = some d ∧ d.attr "base".toList = some base

end Verif.Spec
