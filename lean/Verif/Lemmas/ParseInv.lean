import Verif.Lemmas.ParseFields

/-!
# Invariants of the parser

What holds of every entity that `parse_node` yields, by induction over the document.
-/

namespace Verif.Lemmas.Parse

open Verif Verif.Model Verif.RoXml Verif.Spec

/-! ## Induction over documents -/

theorem child_size {n c : Node} (h : c ∈ n.children) : sizeOf c < sizeOf n := by
  cases n with
  | element u t as ns cs =>
    have := List.sizeOf_lt_of_mem (show c ∈ cs from h)
    simp only [Node.element.sizeOf_spec]
    omega
  | text s => cases h
  | other => cases h

/-- A child element which is not an annotation. -/
def Member (n : Node) : Prop := n.isElement = true ∧ n.tag ≠ "annotation".toList

theorem mem_members {n c : Node} : c ∈ members n ↔ c ∈ n.children ∧ Member c := by
  unfold members Member
  rw [List.mem_filter, Bool.and_eq_true, decide_eq_true_iff]

/-- Kinds of elements which are neither annotations nor unknown. -/
def Regular : ElementType → Prop
  | .annotation => False
  | .unknownElement _ => False
  | _ => True

theorem member_of_type {p : Option Str} {n : Node} {t : ElementType} (h : xsdType p n = .ok t) (ht : Regular t) :
    Member n := by
  have hno : ¬ n.isElement = true → n.tag = [] := by cases n <;> simp [Node.isElement, Node.tag]
  refine ⟨?_, ?_⟩
  · by_contra hne
    have he : n.tag = [] := hno hne
    have hu : KindOf p n (.unknownElement n.tag) := .unknown fun s hs e => by
      have := known_names s hs
      rw [← e, he] at this
      exact absurd this (by decide)
    rw [kind_xsdType hu] at h
    rw [← Res.ok.inj h] at ht
    exact ht
  · intro e
    rw [(type_iff (s := "annotation") (t := .annotation) (by decide)).2 e] at h
    rw [← Res.ok.inj h] at ht
    exact ht

theorem member_of_isMember {p : Option Str} {n : Node} {t : ElementType} (h : xsdType p n = .ok t)
    (hm : isMember t n = true) : Member n := by
  obtain ⟨h1, h2⟩ := of_decide_eq_true hm
  refine ⟨h1, fun e => ?_⟩
  rw [(type_iff (s := "annotation") (t := .annotation) (by decide)).2 e] at h
  exact h2 (Res.ok.inj h).symm

/-- Holds of the nodes of a place. -/
structure Around (G H : Node → Prop) (c : Place) : Prop where
  node : G c.node
  kids : ∀ k ∈ c.kids, Member k.1 → G k.1
  parent : H c.parent
  above : ∀ a ∈ c.above, H a
  place : ∃ U p above, c = placeOf U c.node p above

/-- `G` passes to the children which are elements and not annotations. -/
def Hereditary (G : Node → Prop) : Prop := ∀ n, G n → ∀ c ∈ members n, G c

/-- What `parse_node` yields has a property if this passes from the children to the node. -/
theorem parse_ind {U : UnicodeTable} {G H : Node → Prop} {P : Node → Node → RsEntity → Prop} (hG : Hereditary G)
    (hH : ∀ n, G n → H n)
    (step : ∀ c : Place, c.kids.map Prod.fst = c.node.children → Around G H c →
      (∀ k ∈ c.kids, Member k.1 → ∀ e, k.2 = .ok e → P k.1 c.node e) → ∀ e, parsePlace U c = .ok e → P c.node c.parent e)
    (n p : Node) (above : List Node) (e : RsEntity) (hn : G n) (hp : H p) (ha : ∀ a ∈ above, H a)
    (h : parseNode U n p above = .ok e) : P n p e := by
  rw [parseNode_eq] at h
  refine step (placeOf U n p above) ?_ ⟨hn, ?_, hp, ha, U, p, above, rfl⟩ ?_ e h
  · unfold placeOf
    rw [List.map_map]
    exact List.map_id _
  · intro k hk hm
    obtain ⟨c, hc, rfl⟩ := List.mem_map.1 hk
    exact hG n hn c (mem_members.2 ⟨hc, hm⟩)
  · intro k hk hm x hx
    obtain ⟨c, hc, rfl⟩ := List.mem_map.1 hk
    have : sizeOf c < sizeOf n := child_size hc
    refine parse_ind hG hH step c n (p :: above) x (hG n hn c (mem_members.2 ⟨hc, hm⟩)) (hH n hn) ?_ hx
    intro a ha'
    rcases List.mem_cons.1 ha' with rfl | ha'
    · exact hp
    · exact ha a ha'
termination_by sizeOf n

/-! ## Properties of nested entities -/

/-- The entities directly inside an entity. -/
def inner : RsEntity → List RsEntity
  | .struct s => s.subtypes ++ s.fields.flatMap StructField.subtypes
  | .structField f => f.subtypes
  | .tupleStruct t => t.subtypes
  | .enum e => e.subtypes
  | .alias a => a.subtypes
  | _ => []

/-- Holds of an entity and everything inside it. -/
inductive Deep (P : RsEntity → Prop) : RsEntity → Prop where
  | mk {e} : P e → (∀ x ∈ inner e, Deep P x) → Deep P e

theorem Deep.here {P : RsEntity → Prop} {e : RsEntity} : Deep P e → P e
  | .mk h _ => h

theorem Deep.inside {P : RsEntity → Prop} {e : RsEntity} : Deep P e → ∀ x ∈ inner e, Deep P x
  | .mk _ h => h

theorem Deep.mono {P Q : RsEntity → Prop} (h : ∀ e, P e → Q e) : ∀ {e : RsEntity}, Deep P e → Deep Q e
  | _, .mk h1 h2 => .mk (h _ h1) fun x hx => (h2 x hx).mono h

mutual
theorem Deep.generated {P : RsEntity → Prop} : ∀ {e : RsEntity}, Deep P e → ∀ x ∈ generated e, P x
  | .struct (.mk n c fs a ss), h, x, hx => by
    rw [Spec.generated] at hx
    rcases List.mem_cons.1 hx with rfl | hx
    · exact h.here
    · rcases List.mem_append.1 hx with hx | hx
      · exact Deep.generatedList (fun y hy => h.inside y (List.mem_append.2 (.inl hy))) x hx
      · exact Deep.generatedFields (fun f hf y hy => h.inside y
          (List.mem_append.2 (.inr (List.mem_flatMap.2 ⟨f, hf, hy⟩)))) x hx
  | .tupleStruct (.mk n c t ss m f), h, x, hx => by
    rw [Spec.generated] at hx
    rcases List.mem_cons.1 hx with rfl | hx
    · exact h.here
    · exact Deep.generatedList (fun y hy => h.inside y hy) x hx
  | .enum (.mk n cs c t ss s), h, x, hx => by
    rw [Spec.generated] at hx
    rcases List.mem_cons.1 hx with rfl | hx
    · exact h.here
    · exact Deep.generatedList (fun y hy => h.inside y hy) x hx
  | .structField f, h, x, hx => by
    rw [Spec.generated] at hx
    · obtain rfl := List.mem_singleton.1 hx; exact h.here
    all_goals exact fun _ _ _ _ _ => (by simp)
  | .enumCase f, h, x, hx => by
    rw [Spec.generated] at hx
    · obtain rfl := List.mem_singleton.1 hx; exact h.here
    all_goals exact fun _ _ _ _ _ => (by simp)
  | .alias f, h, x, hx => by
    rw [Spec.generated] at hx
    · obtain rfl := List.mem_singleton.1 hx; exact h.here
    all_goals exact fun _ _ _ _ _ => (by simp)
  | .import f, h, x, hx => by
    rw [Spec.generated] at hx
    · obtain rfl := List.mem_singleton.1 hx; exact h.here
    all_goals exact fun _ _ _ _ _ => (by simp)
theorem Deep.generatedList {P : RsEntity → Prop} : ∀ {es : List RsEntity}, (∀ e ∈ es, Deep P e) →
    ∀ x ∈ generatedList es, P x
  | [], _, x, hx => by rw [Spec.generatedList] at hx; cases hx
  | e :: es, h, x, hx => by
    rw [Spec.generatedList] at hx
    rcases List.mem_append.1 hx with hx | hx
    · exact Deep.generated (h e List.mem_cons_self) x hx
    · exact Deep.generatedList (fun y hy => h y (List.mem_cons_of_mem _ hy)) x hx
theorem Deep.generatedFields {P : RsEntity → Prop} : ∀ {fs : List StructField},
    (∀ f ∈ fs, ∀ e ∈ f.subtypes, Deep P e) → ∀ x ∈ generatedFields fs, P x
  | [], _, x, hx => by rw [Spec.generatedFields] at hx; cases hx
  | .mk a b c ss d e :: fs, h, x, hx => by
    rw [Spec.generatedFields] at hx
    rcases List.mem_append.1 hx with hx | hx
    · exact Deep.generatedList (fun y hy => h _ List.mem_cons_self y hy) x hx
    · exact Deep.generatedFields (fun y hy => h y (List.mem_cons_of_mem _ hy)) x hx
end

/-! ## Where the strings of entities come from -/

/-- Properties of names (`N`), type references (`T`), fields (`R`, of name, type and inner types), names of cases (`C`),
facets (`F`), names (`J`) and locations (`L`) of imports, kinds of enums and their cases (`K`), types in wrappers and variants
(`W`, of the type and the inner types), modifiers and type of wrappers (`M`), targets of aliases (`A`), names of declarations
(`O`). -/
structure Preds where
  R : Str → Str → List RsEntity → Prop
  N : Str → Prop
  T : Str → Prop
  C : Str → Prop
  F : FacetType → Prop
  J : Str → Prop
  L : Str → Prop
  K : EnumSource → List EnumCase → Prop := fun _ _ => True
  W : Str → List RsEntity → Prop := fun t _ => T t
  M : List TypeModifier → Str → Prop := fun ms _ => ∀ m ∈ ms, m = .array
  A : Str → Prop := T
  O : Str → Prop := N

namespace Preds

def field (Q : Preds) (f : StructField) : Prop := Q.R f.name f.typeName f.subtypes

def case (Q : Preds) (ss : List RsEntity) (c : EnumCase) : Prop := Q.C c.name ∧ ∀ t, c.typeName = some t → Q.W t ss

def aliasOk (Q : Preds) (a : RAlias) : Prop := Q.N a.name ∧ Q.A a.original ∧ a.subtypes = []

/-- The strings of an entity; also, structs and aliases have nothing in their lists of inner types. -/
def entity (Q : Preds) : RsEntity → Prop
  | .struct s => Q.N s.name ∧ s.subtypes = [] ∧ (∀ f ∈ s.fields, Q.field f) ∧ ∀ a ∈ s.attributeGroups, Q.aliasOk a
  | .tupleStruct t => Q.N t.name ∧ Q.W t.typeName t.subtypes ∧ (∀ f ∈ t.facets, Q.F f.facetType) ∧
    Q.M t.typeModifiers t.typeName
  | .enum e => Q.N e.name ∧ Q.T e.typeName ∧ (∀ c ∈ e.cases, Q.case e.subtypes c) ∧ Q.K e.source e.cases
  | .structField f => Q.field f
  | .enumCase c => Q.case [] c
  | .alias a => Q.aliasOk a
  | .import i => Q.J i.name ∧ Q.L i.location

end Preds

/-- The same, or both structs of the same name. -/
inductive SameHead : RsEntity → RsEntity → Prop where
  | refl {e} : SameHead e e
  | struct {s s'} : s.name = s'.name → SameHead (.struct s) (.struct s')

/-- A type given in place. -/
def Inline (G : Node → Prop) (tags : List String) (x : RsEntity) : Prop :=
  ∃ U k p above, G k ∧ k.tag ∈ tags.map String.toList ∧ parseNode U k p above = .ok x

/-- The strings in the nodes with `G` have the properties, and so have those which are made of them. -/
structure Texts (G H : Node → Prop) (Q : Preds) : Prop where
  owner : ∀ {n v}, H n → n.attr "name".toList = some v → Q.O v
  name : ∀ {n v}, G n → n.attr "name".toList = some v → Q.O v
  plain : ∀ {v}, Q.O v → Q.N v
  owners : ∀ v ∈ ["UnsupportedName", "SchemaElement", "UNSUPPORTED_ELEMENT_NAME"].map String.toList, Q.O v
  ref : ∀ {n v}, G n → n.attr "ref".toList = some v → Q.N v
  refType : ∀ {n v}, G n → n.tag ≠ "attributeGroup".toList → n.attr "ref".toList = some v → Q.T v
  type : ∀ {n v}, G n → n.attr "type".toList = some v → Q.T v
  base : ∀ {n v}, G n → n.attr "base".toList = some v → Q.T v
  itemType : ∀ {n v}, G n → n.attr "itemType".toList = some v → Q.T v
  memberTypes : ∀ {n v w}, G n → n.attr "memberTypes".toList = some v → w ∈ Str.splitOn ' ' v → w ≠ [] → Q.C w ∧ Q.T w
  facet : ∀ {n p f}, G n → xsdType p n = .ok (.facet f) → Q.F f
  enumeration : ∀ {U v}, Q.F (.enumeration v) → isSimpleEnumeration U v = true → Q.C v
  namespace' : ∀ {n}, G n → Q.J ((n.attr "namespace".toList).getD [])
  location : ∀ {n}, G n → Q.L ((n.attr "schemaLocation".toList).getD [])
  string : Q.T "String".toList
  typeAlias : ∀ {v}, Q.T v → Q.A v
  nameAlias : ∀ {v}, Q.N v → Q.A v
  name_case : ∀ {v}, Q.N v → Q.C v
  name_import : ∀ {v}, Q.N v → Q.J v
  suffix : ∀ {v}, Q.O v → Q.N (v ++ "Choice".toList) ∧ Q.N (v ++ "Enum".toList) ∧ Q.N (v ++ "Type".toList)
  constants : ∀ v ∈ ["", "UnsupportedName", "SchemaElement", "UNSUPPORTED_ELEMENT_NAME", "UNSUPPORTED", "any",
    "any_attribute", "String"].map String.toList, Q.N v
  field : ∀ {n t}, Q.N n → Q.T t → Q.R n t []
  marker : ∀ {n v}, G n → n.attr "base".toList = some v → Q.R "__base__".toList v []
  rename : ∀ {n n' t ss}, Q.N n → Q.R n' t ss → Q.R n t ss
  retype : ∀ {n t ss ss'}, Q.R n t ss → List.Forall₂ SameHead ss ss' → Q.R n t ss'
  inlineField : ∀ {v x}, Q.O v → Inline G ["simpleType", "complexType"] x →
    Q.R v (v ++ "Type".toList) [x.setName (v ++ "Type".toList)]
  enumField : ∀ {v cs c t ss src}, Q.O v →
    Q.R (v ++ "Choice".toList) (v ++ "Choice".toList) [.enum (.mk (v ++ "Choice".toList) cs c t ss src)]
  choice : ∀ {c v k e}, Around G H c → c.node.tag = "complexType".toList → complexTypeName c = .ok v →
    c.lastKid isComplexContent = .ok (some k) → (k.1.children.filter Node.isElement).length ≠ 0 → Member k.1 →
    k.2 = .ok (.enum e) → Q.R (v ++ "Choice".toList) (v ++ "Choice".toList) [] ∧ ∀ t ss, Q.W t e.subtypes → Q.W t ss
  wrap : ∀ {t ss}, Q.T t → Q.W t ss
  wrapMore : ∀ {t ss}, Q.W t [] → Q.W t ss
  wrapInner : ∀ {x nm ss}, Inline G ["simpleType"] x → Q.N nm → x.setName nm ∈ ss → Q.W nm ss
  kinds : ∀ cs, Q.K .restriction cs ∧ Q.K .choice cs
  union : ∀ {n cs}, G n → n.tag = "union".toList → (∀ c ∈ cs, c.typeName ≠ none) → Q.K .union cs
  lone : ∀ {t}, Q.T t → Q.M [] t
  items : ∀ {n t}, G n → n.tag = "list".toList → n.attr "itemType".toList = some t → Q.M [.array] t
  inlineEnum : ∀ {U c k e}, Around G H c → c.node.tag = "list".toList → k ∈ members c.node → k.tag = "simpleType".toList →
    parseNode U k c.node (c.parent :: c.above) = .ok (.enum e) → Q.M [.array] e.name
  inlineItems : ∀ {U c k t}, Around G H c → c.node.tag = "list".toList → k ∈ members c.node → k.tag = "simpleType".toList →
    parseNode U k c.node (c.parent :: c.above) = .ok (.tupleStruct t) → Q.M t.typeModifiers t.typeName →
    Q.M (t.typeModifiers ++ [.array]) t.typeName
  numbered : ∀ i, Q.N ("EnumCaseType_".toList ++ Str.natStr i) ∧ Q.C ("EnumCase_".toList ++ Str.natStr i)

/-- The same for properties which do not depend on inner types, where names may be types. -/
structure Sources (G H : Node → Prop) (Q : Preds) : Prop where
  hered : Hereditary G
  mono : ∀ n, G n → H n
  owner : ∀ {n v}, H n → n.attr "name".toList = some v → Q.N v
  name : ∀ {n v}, G n → n.attr "name".toList = some v → Q.N v
  ref : ∀ {n v}, G n → n.attr "ref".toList = some v → Q.N v
  type : ∀ {n v}, G n → n.attr "type".toList = some v → Q.T v
  base : ∀ {n v}, G n → n.attr "base".toList = some v → Q.T v
  itemType : ∀ {n v}, G n → n.attr "itemType".toList = some v → Q.T v
  memberTypes : ∀ {n v w}, G n → n.attr "memberTypes".toList = some v → w ∈ Str.splitOn ' ' v → w ≠ [] → Q.C w ∧ Q.T w
  facet : ∀ {n p f}, G n → xsdType p n = .ok (.facet f) → Q.F f
  enumeration : ∀ {U v}, Q.F (.enumeration v) → isSimpleEnumeration U v = true → Q.C v
  namespace' : ∀ {n}, G n → Q.J ((n.attr "namespace".toList).getD [])
  location : ∀ {n}, G n → Q.L ((n.attr "schemaLocation".toList).getD [])
  name_type : ∀ {v}, Q.N v → Q.T v
  name_case : ∀ {v}, Q.N v → Q.C v
  name_import : ∀ {v}, Q.N v → Q.J v
  suffix : ∀ {v}, Q.N v → Q.N (v ++ "Choice".toList) ∧ Q.N (v ++ "Enum".toList) ∧ Q.N (v ++ "Type".toList)
  constants : ∀ v ∈ ["", "UnsupportedName", "SchemaElement", "UNSUPPORTED_ELEMENT_NAME", "UNSUPPORTED", "any",
    "any_attribute", "String"].map String.toList, Q.N v
  field : ∀ {n t}, Q.N n → Q.T t → Q.R n t []
  marker : ∀ {n v}, G n → n.attr "base".toList = some v → Q.R "__base__".toList v []
  rename : ∀ {n n' t}, Q.N n → Q.R n' t [] → Q.R n t []
  kinds : ∀ cs, Q.K .restriction cs ∧ Q.K .choice cs := by exact fun _ => ⟨trivial, trivial⟩
  union : ∀ {n cs}, G n → n.tag = "union".toList → (∀ c ∈ cs, c.typeName ≠ none) → Q.K .union cs := by
    exact fun _ _ _ => trivial
  numbered : ∀ i, Q.N ("EnumCaseType_".toList ++ Str.natStr i) ∧ Q.C ("EnumCase_".toList ++ Str.natStr i)
  allInner : ∀ n t ss, Q.R n t ss = Q.R n t [] := by exact fun _ _ _ => rfl
  allWraps : Q.W = fun t _ => Q.T t := by exact rfl
  allModifiers : Q.M = fun ms _ => ∀ m ∈ ms, m = .array := by exact rfl
  allAliases : Q.A = Q.T := by exact rfl
  allOwners : Q.O = Q.N := by exact rfl

theorem Sources.texts {G H : Node → Prop} {Q : Preds} (S : Sources G H Q) : Texts G H Q where
  owner h1 h2 := S.allOwners ▸ S.owner h1 h2
  name h1 h2 := S.allOwners ▸ S.name h1 h2
  plain h := S.allOwners ▸ h
  owners v hv := by
    rw [S.allOwners]
    refine S.constants v ?_
    revert hv
    revert v
    decide
  ref := S.ref
  refType h1 _ h2 := S.name_type (S.ref h1 h2)
  type := S.type
  base := S.base
  itemType := S.itemType
  memberTypes := S.memberTypes
  facet := S.facet
  enumeration := S.enumeration
  namespace' := S.namespace'
  location := S.location
  string := S.name_type (S.constants _ (by decide))
  typeAlias h := by rw [S.allAliases]; exact h
  nameAlias h := by rw [S.allAliases]; exact S.name_type h
  name_case := S.name_case
  name_import := S.name_import
  suffix h := by rw [S.allOwners] at h; exact S.suffix h
  constants := S.constants
  field := S.field
  marker := S.marker
  rename h1 h2 := by rw [S.allInner] at h2 ⊢; exact S.rename h1 h2
  retype h _ := by rw [S.allInner] at h ⊢; exact h
  inlineField h _ := by
    rw [S.allOwners] at h
    rw [S.allInner]
    exact S.field h (S.name_type (S.suffix h).2.2)
  enumField h := by
    rw [S.allOwners] at h
    rw [S.allInner]
    exact S.field (S.suffix h).1 (S.name_type (S.suffix h).1)
  choice hc _ hn _ _ _ _ := by
    have hl : ∀ {l : List Node} {s : Str}, (∀ a ∈ l, H a) → getParentName l = .ok s → Q.N s := by
      intro l
      induction l with
      | nil =>
        intro s _ h
        rw [getParentName] at h
        obtain rfl := Res.ok.inj h
        exact S.constants _ (by decide)
      | cons p above ih =>
        intro s hl h
        rw [getParentName] at h
        obtain ⟨t, -, h⟩ := Res.bind_eq_ok.1 h
        by_cases hs : t = .schema
        · rw [if_pos hs] at h
          obtain rfl := Res.ok.inj h
          exact S.constants _ (by decide)
        · rw [if_neg hs] at h
          cases ha : attrName p with
          | none => rw [ha] at h; exact ih (fun a ha => hl a (List.mem_cons_of_mem _ ha)) h
          | some v => rw [ha] at h; obtain rfl := Res.ok.inj h; exact S.owner (hl p List.mem_cons_self) ha
    suffices hv : Q.N _ from ⟨S.field (S.suffix hv).1 (S.name_type (S.suffix hv).1),
      fun t ss h => by rw [S.allWraps] at h ⊢; exact h⟩
    obtain ⟨pt, -, hnm⟩ := Res.bind_eq_ok.1 hn
    by_cases hs : pt = .schema
    · rw [if_pos hs] at hnm
      exact S.name hc.node (unwrap_ok.1 hnm)
    · rw [if_neg hs] at hnm
      refine hl (fun a ha => ?_) hnm
      rcases List.mem_cons.1 ha with rfl | ha
      · exact hc.parent
      · exact hc.above a ha
  wrap h := by rw [S.allWraps]; exact h
  wrapMore h := by rw [S.allWraps] at h ⊢; exact h
  wrapInner _ h _ := by rw [S.allWraps]; exact S.name_type h
  kinds := S.kinds
  union := S.union
  lone _ := by rw [S.allModifiers]; exact fun _ h => absurd h List.not_mem_nil
  items _ _ _ := by rw [S.allModifiers]; exact fun _ h => List.mem_singleton.1 h
  inlineEnum _ _ _ _ _ := by rw [S.allModifiers]; exact fun _ h => List.mem_singleton.1 h
  inlineItems _ _ _ _ _ h := by
    rw [S.allModifiers] at h ⊢
    intro m hm
    rcases List.mem_append.1 hm with hm | hm
    · exact h m hm
    · exact List.mem_singleton.1 hm
  numbered := S.numbered

namespace Texts

variable {G H : Node → Prop} {Q : Preds}

theorem const (S : Texts G H Q) (s : String) (h : s.toList ∈ ["", "UnsupportedName", "SchemaElement",
    "UNSUPPORTED_ELEMENT_NAME", "UNSUPPORTED", "any", "any_attribute", "String"].map String.toList :=
    by decide) : Q.N s.toList := S.constants _ h

theorem deep_setName (S : Texts G H Q) {nm : Str} (hn : Q.N nm) : ∀ {e : RsEntity}, Deep Q.entity e →
    Deep Q.entity (e.setName nm)
  | .struct (.mk _ _ _ _ _), h => .mk ⟨hn, h.here.2⟩ h.inside
  | .tupleStruct (.mk _ _ _ _ _ _), h => .mk ⟨hn, h.here.2⟩ h.inside
  | .enum (.mk _ _ _ _ _ _), h => .mk ⟨hn, h.here.2⟩ h.inside
  | .enumCase _, h => .mk ⟨S.name_case hn, h.here.2⟩ h.inside
  | .alias (.mk _ _ _ _), h => .mk ⟨hn, h.here.2⟩ h.inside
  | .structField (.mk _ _ _ _ _ _), h => .mk (S.rename hn h.here) h.inside
  | .import _, h => .mk ⟨S.name_import hn, h.here.2⟩ h.inside

theorem deep_setComment {c : Option Str} : ∀ {e : RsEntity}, Deep Q.entity e → Deep Q.entity (e.setComment c)
  | .struct (.mk _ _ _ _ _), h => .mk h.here h.inside
  | .tupleStruct (.mk _ _ _ _ _ _), h => .mk h.here h.inside
  | .enum (.mk _ _ _ _ _ _), h => .mk h.here h.inside
  | .enumCase _, h => .mk h.here h.inside
  | .alias (.mk _ _ _ _), h => .mk h.here h.inside
  | .structField (.mk _ _ _ _ _ _), h => .mk h.here h.inside
  | .import _, h => .mk h.here h.inside

end Texts

theorem mapM'_forall {α β : Type} {f : α → Res β} {Q : β → Prop} {l : List α} {r : List β}
    (h : Res.mapM' f l = .ok r) (hf : ∀ a ∈ l, ∀ b, f a = .ok b → Q b) : ∀ b ∈ r, Q b := by
  have := mapM'_ok.1 h
  clear h
  induction this with
  | nil => exact fun _ h => absurd h List.not_mem_nil
  | cons h1 _ ih =>
    intro b hb
    rcases List.mem_cons.1 hb with rfl | hb
    · exact hf _ List.mem_cons_self _ h1
    · exact ih (fun a ha => hf a (List.mem_cons_of_mem _ ha)) b hb

theorem typedKids_all {c : Place} {ks} (h : c.typedKids = .ok ks) :
    ∀ k ∈ ks, k.2 ∈ c.kids ∧ xsdType (some c.node.tag) k.2.1 = .ok k.1 ∧ (Regular k.1 → Member k.2.1) := by
  refine mapM'_forall h ?_
  intro a ha b hb
  obtain ⟨t, ht, hb⟩ := Res.bind_eq_ok.1 hb
  obtain rfl := Res.ok.inj hb
  exact ⟨ha, ht, member_of_type ht⟩

theorem lastKid_all {c : Place} {p : ElementType → Node → Bool} {k : Node × Res RsEntity}
    (h : c.lastKid p = .ok (some k)) : k ∈ c.kids ∧ ∃ t, xsdType (some c.node.tag) k.1 = .ok t ∧ p t k.1 = true ∧
      (Regular t → Member k.1) := by
  obtain ⟨ks, hks, h⟩ := Res.bind_eq_ok.1 h
  have h := Res.ok.inj h
  obtain ⟨x, hx, rfl⟩ := Option.map_eq_some_iff.1 h
  have hm := List.mem_of_getLast? hx
  obtain ⟨hm, hp⟩ := List.mem_filter.1 hm
  obtain ⟨h1, h2, h3⟩ := typedKids_all hks x hm
  exact ⟨h1, _, h2, hp, h3⟩

/-- The filters let members only through. -/
def MembersOnly (q : ElementType → Node → Bool) : Prop :=
  ∀ p t n, xsdType p n = .ok t → q t n = true → Member n

theorem membersOnly_isMember : MembersOnly isMember := fun _ _ _ => member_of_isMember

theorem membersOnly_of {q : ElementType → Node → Bool} (h : ∀ t n, q t n = true → Regular t) : MembersOnly q :=
  fun _ t n ht hq => member_of_type ht (h t n hq)

theorem membersOnly_content : MembersOnly isContentType := membersOnly_of fun t n h => by
  rcases of_decide_eq_true h with rfl | rfl <;> trivial

theorem membersOnly_complex : MembersOnly isComplexContent := membersOnly_of fun t n h => by
  rcases (of_decide_eq_true h).2 with rfl | rfl | rfl | rfl | rfl | rfl <;> trivial

theorem membersOnly_extension : MembersOnly isExtensionContent := membersOnly_of fun t n h => by
  rcases (of_decide_eq_true h).2.2 with rfl | rfl | rfl | rfl | rfl | rfl <;> trivial

theorem membersOnly_restriction : MembersOnly isRestrictionContent := membersOnly_of fun t n h => by
  rcases (of_decide_eq_true h).2.2 with rfl | rfl | rfl | rfl | rfl | rfl | rfl <;> trivial

theorem membersOnly_simple : MembersOnly fun t n => n.isElement ∧ t = .simpleType := membersOnly_of fun t n h => by
  obtain rfl := (of_decide_eq_true h).2; trivial

theorem membersOnly_attribute : MembersOnly fun t _ => t = .attribute ∨ t = .anyAttribute :=
  membersOnly_of fun t n h => by rcases of_decide_eq_true h with rfl | rfl <;> trivial

theorem membersOnly_group : MembersOnly fun t _ => t = .attributeGroup := membersOnly_of fun t n h => by
  obtain rfl := of_decide_eq_true h; trivial

theorem membersOnly_element : MembersOnly fun t n => n.isElement ∧ t = .element := membersOnly_of fun t n h => by
  obtain rfl := (of_decide_eq_true h).2; trivial

theorem lastKid_member {c : Place} {q : ElementType → Node → Bool} {k : Node × Res RsEntity}
    (hq : MembersOnly q) (h : c.lastKid q = .ok (some k)) : k ∈ c.kids ∧ Member k.1 := by
  obtain ⟨h1, t, h2, h3, -⟩ := lastKid_all h
  exact ⟨h1, hq _ t k.1 h2 h3⟩

theorem filter_member {c : Place} {ks} (h : c.typedKids = .ok ks) {q : ElementType → Node → Bool} (hq : MembersOnly q)
    {k : ElementType × Node × Res RsEntity} (hk : k ∈ ks.filter fun k => q k.1 k.2.1) : k.2 ∈ c.kids ∧ Member k.2.1 := by
  obtain ⟨hk, hp⟩ := List.mem_filter.1 hk
  obtain ⟨h1, h2, -⟩ := typedKids_all h k hk
  exact ⟨h1, hq _ _ _ h2 hp⟩

section
variable {G H : Node → Prop} {Q : Preds} {c : Place}

/-- What is known of the children. -/
abbrev KidsOk (Q : Preds) (c : Place) : Prop := ∀ k ∈ c.kids, Member k.1 → ∀ e, k.2 = .ok e → Deep Q.entity e

theorem attributesToFields_texts (hk : KidsOk Q c) {fs} (h : attributesToFields c = .ok fs) :
    ∀ f ∈ fs, Deep Q.entity (.structField f) := by
  obtain ⟨ks, hks, h⟩ := Res.bind_eq_ok.1 h
  refine mapM'_forall h ?_
  intro k hk' f hf
  obtain ⟨e, he, hf⟩ := Res.bind_eq_ok.1 hf
  have := hk _ (filter_member hks membersOnly_attribute hk').1 (filter_member hks membersOnly_attribute hk').2 e he
  cases e with
  | structField g => obtain rfl := Res.ok.inj hf; exact this
  | _ => cases hf

theorem attributeGroupsToAliases_texts (hk : KidsOk Q c) {as} (h : attributeGroupsToAliases c = .ok as) :
    ∀ a ∈ as, Q.aliasOk a := by
  obtain ⟨ks, hks, h⟩ := Res.bind_eq_ok.1 h
  refine mapM'_forall h ?_
  intro k hk' f hf
  obtain ⟨e, he, hf⟩ := Res.bind_eq_ok.1 hf
  have := hk _ (filter_member hks membersOnly_group hk').1 (filter_member hks membersOnly_group hk').2 e he
  cases e with
  | «alias» g => obtain rfl := Res.ok.inj hf; exact this.here
  | _ => cases hf

theorem ownerName_texts (S : Texts G H Q) : ∀ {l : List Node} {s : Str}, (∀ a ∈ l, H a) → getParentName l = .ok s → Q.O s
  | [], s, _, h => by
    rw [getParentName] at h
    obtain rfl := Res.ok.inj h
    exact S.owners _ (by decide)
  | p :: above, s, hl, h => by
    rw [getParentName] at h
    obtain ⟨t, -, h⟩ := Res.bind_eq_ok.1 h
    by_cases hs : t = .schema
    · rw [if_pos hs] at h
      obtain rfl := Res.ok.inj h
      exact S.owners _ (by decide)
    · rw [if_neg hs] at h
      cases ha : attrName p with
      | none => rw [ha] at h; exact ownerName_texts S (fun a ha => hl a (List.mem_cons_of_mem _ ha)) h
      | some v => rw [ha] at h; obtain rfl := Res.ok.inj h; exact S.owner (hl p List.mem_cons_self) ha

theorem parentName_texts (S : Texts G H Q) (hc : Around G H c) {s} (h : c.parentName = .ok s) : Q.O s := by
  refine ownerName_texts S ?_ h
  intro a ha
  rcases List.mem_cons.1 ha with rfl | ha
  · exact hc.parent
  · exact hc.above a ha

/-- A struct with these parts. -/
theorem deep_struct {n : Str} {cm : Option Str} {fs : List StructField} {ag : List RAlias} (hn : Q.N n)
    (hf : ∀ f ∈ fs, Deep Q.entity (.structField f)) (ha : ∀ a ∈ ag, Q.aliasOk a) :
    Deep Q.entity (.struct (.mk n cm fs ag [])) := by
  refine .mk ⟨hn, rfl, fun f h => (hf f h).here, ha⟩ ?_
  intro x hx
  rw [inner] at hx
  rcases List.mem_append.1 hx with hx | hx
  · cases hx
  · obtain ⟨f, h1, h2⟩ := List.mem_flatMap.1 hx
    exact (hf f h1).inside x h2

theorem deep_struct_fields {s : RStruct} (h : Deep Q.entity (.struct s)) :
    ∀ f ∈ s.fields, Deep Q.entity (.structField f) := by
  intro f hf
  refine .mk (h.here.2.2.1 f hf) fun x hx => ?_
  exact h.inside x (List.mem_append.2 (.inr (List.mem_flatMap.2 ⟨f, hf, hx⟩)))

theorem deep_field {n t : Str} {cm : Option Str} {src ms} (h : Q.R n t []) :
    Deep Q.entity (.structField (.mk n t cm [] src ms)) :=
  .mk h fun _ h => absurd h List.not_mem_nil

theorem deep_field_with {n t : Str} {cm : Option Str} {e : RsEntity} {src ms} (h : Q.R n t [e])
    (he : Deep Q.entity e) : Deep Q.entity (.structField (.mk n t cm [e] src ms)) :=
  .mk h fun x h => by obtain rfl := List.mem_singleton.1 h; exact he

theorem deep_alias {n t : Str} {cm : Option Str} (hn : Q.N n) (ht : Q.A t) :
    Deep Q.entity (.alias (.mk n t cm [])) :=
  .mk ⟨hn, ht, rfl⟩ fun _ h => absurd h List.not_mem_nil

theorem deep_name {e : RsEntity} {nm : Str} (e' : RsEntity) (h : e.setName nm = e') : e'.name = nm := by
  subst h
  cases e with
  | struct s => cases s; rfl
  | structField s => cases s; rfl
  | tupleStruct s => cases s; rfl
  | «enum» s => cases s; rfl
  | «alias» s => cases s; rfl
  | enumCase s => rfl
  | «import» s => rfl

theorem enumToField_texts (S : Texts G H Q) {v : Str} {cs c' t ss src} (hv : Q.O v)
    (h : Deep Q.entity (.enum (.mk (v ++ "Choice".toList) cs c' t ss src))) :
    Deep Q.entity (.structField (enumToField (.mk (v ++ "Choice".toList) cs c' t ss src))) :=
  deep_field_with (S.enumField hv) h

theorem kid_content {k : Node × Res RsEntity} (ho : c.lastKid isContentType = .ok (some k)) :
    k.1.tag ∈ ["simpleType", "complexType"].map String.toList := by
  obtain ⟨-, t, ht, hp, -⟩ := lastKid_all ho
  rcases of_decide_eq_true hp with rfl | rfl
  · rw [(type_iff (s := "simpleType") (by decide)).1 ht]; decide
  · rw [(type_iff (s := "complexType") (by decide)).1 ht]; decide

/-- The kid is a type given in place. -/
theorem kid_inline (hc : Around G H c) {k : Node × Res RsEntity} {x : RsEntity} {tags : List String} (hk : k ∈ c.kids)
    (hm : Member k.1) (ht : k.1.tag ∈ tags.map String.toList) (hx : k.2 = .ok x) : Inline G tags x := by
  obtain ⟨U, p, above, hp⟩ := hc.place
  have hg := hc.kids k hk hm
  rw [hp] at hk
  obtain ⟨n, -, rfl⟩ := List.mem_map.1 hk
  exact ⟨U, n, _, _, hg, ht, hx⟩

theorem parseElement_texts (S : Texts G H Q) (hc : Around G H c) (hk : KidsOk Q c)
    (hg : c.node.tag ≠ "attributeGroup".toList) {e}
    (h : parseElement c = .ok e) : Deep Q.entity e := by
  obtain ⟨pt, -, h⟩ := Res.bind_eq_ok.1 h
  have hstr : Q.T "String".toList := S.string
  have hname : Q.N ((attrName c.node).getD ((attrRef c.node).getD "UNSUPPORTED_ELEMENT_NAME".toList)) := by
    cases h1 : attrName c.node with
    | some v => exact S.plain (S.name hc.node h1)
    | none =>
      cases h2 : attrRef c.node with
      | some v => exact S.ref hc.node h2
      | none => exact S.constants _ (by decide)
  have hfield : parseFieldOfSequence c = .ok e → Deep Q.entity e := by
    intro h
    unfold parseFieldOfSequence at h
    dsimp only at h
    split at h
    · obtain rfl := Res.ok.inj h
      refine deep_field (S.field hname ?_)
      cases h1 : attrType c.node with
      | some v => exact S.type hc.node h1
      | none =>
        cases h2 : attrRef c.node with
        | some v => exact S.refType hc.node hg h2
        | none => exact hstr
    · rename_i hno
      have hown : Q.O ((attrName c.node).getD ((attrRef c.node).getD "UNSUPPORTED_ELEMENT_NAME".toList)) := by
        cases h1 : attrName c.node with
        | some v => exact S.name hc.node h1
        | none =>
          cases h2 : attrRef c.node with
          | some v =>
            refine absurd ?_ hno
            rw [hasAttribute_eq, hasAttribute_eq, show c.node.attr "ref".toList = some v from h2]
            exact Bool.or_true _
          | none => exact S.owners _ (by decide)
      obtain ⟨o, ho, h⟩ := Res.bind_eq_ok.1 h
      obtain ⟨k, hk', h⟩ := Res.bind_eq_ok.1 h
      rw [unwrap_ok.1 hk'] at ho
      obtain ⟨x, hx, h⟩ := Res.bind_eq_ok.1 h
      obtain rfl := Res.ok.inj h
      have hty := (S.suffix hown).2.2
      have hm := lastKid_member membersOnly_content ho
      have hd := S.deep_setName hty (hk k hm.1 hm.2 x hx)
      refine deep_field_with ?_ hd
      rw [deep_name _ rfl]
      exact S.inlineField hown (kid_inline hc hm.1 hm.2 (kid_content ho) hx)
  have hdef : Deep Q.entity (elementDefault c.node) := by
    refine deep_alias (S.constants _ (by decide)) ?_
    cases h1 : attrType c.node with
    | some v => exact S.typeAlias (S.type hc.node h1)
    | none => exact S.nameAlias (S.constants _ (by decide))
  have hdef' : Res.ok (elementDefault c.node) = .ok e → Deep Q.entity e := fun h => by
    obtain rfl := Res.ok.inj h; exact hdef
  cases pt with
  | all => exact hfield h
  | sequence => exact hfield h
  | schema =>
    obtain ⟨nm, hnm, h⟩ := Res.bind_eq_ok.1 h
    have hnm := S.plain (S.name hc.node (unwrap_ok.1 hnm))
    cases ht : attrType c.node with
    | some t =>
      rw [ht] at h
      obtain rfl := Res.ok.inj h
      exact deep_alias hnm (S.typeAlias (S.type hc.node ht))
    | none =>
      rw [ht] at h
      obtain ⟨o, ho, h⟩ := Res.bind_eq_ok.1 h
      cases o with
      | some k =>
        obtain ⟨x, hx, h⟩ := Res.bind_eq_ok.1 h
        obtain rfl := Res.ok.inj h
        exact S.deep_setName hnm (hk k (lastKid_member membersOnly_content ho).1 (lastKid_member membersOnly_content ho).2 x hx)
      | none =>
        obtain rfl := Res.ok.inj h
        exact deep_struct hnm (fun _ h => absurd h List.not_mem_nil) (fun _ h => absurd h List.not_mem_nil)
  | choice =>
    obtain rfl := Res.ok.inj h
    unfold parseCaseOfChoice
    cases hr : attrRef c.node with
    | some r =>
      refine .mk ⟨S.name_case (S.ref hc.node hr), ?_⟩ fun _ h => absurd h List.not_mem_nil
      intro t ht
      obtain rfl := Option.some.inj ht
      exact S.wrap (S.refType hc.node hg hr)
    | none =>
      refine .mk ⟨S.name_case ?_, fun t ht => S.wrap (S.type hc.node ht)⟩ fun _ h => absurd h List.not_mem_nil
      cases h1 : attrName c.node with
      | some v => exact S.plain (S.name hc.node h1)
      | none => exact S.const "UNSUPPORTED_ELEMENT_NAME"
  | _ => exact hdef' h

theorem parseAttribute_texts (S : Texts G H Q) (hc : Around G H c) (hk : KidsOk Q c)
    (hg : c.node.tag ≠ "attributeGroup".toList) {e}
    (h : parseAttribute c = .ok e) : Deep Q.entity e := by
  obtain ⟨pt, -, h⟩ := Res.bind_eq_ok.1 h
  by_cases hs : pt = .schema
  · rw [if_pos hs] at h
    unfold parseGlobalAttribute at h
    cases hr : attrRef c.node with
    | some r =>
      rw [hr] at h
      obtain rfl := Res.ok.inj h
      exact deep_alias (S.ref hc.node hr) (S.nameAlias (S.ref hc.node hr))
    | none =>
      rw [hr] at h
      obtain ⟨nm, hnm, h⟩ := Res.bind_eq_ok.1 h
      have hnm := S.plain (S.name hc.node (unwrap_ok.1 hnm))
      cases ht : attrType c.node with
      | some t =>
        rw [ht] at h
        obtain rfl := Res.ok.inj h
        exact deep_alias hnm (S.typeAlias (S.type hc.node ht))
      | none =>
        rw [ht] at h
        obtain ⟨o, ho, h⟩ := Res.bind_eq_ok.1 h
        cases o with
        | some k =>
          obtain ⟨x, hx, h⟩ := Res.bind_eq_ok.1 h
          obtain rfl := Res.ok.inj h
          exact S.deep_setName hnm (hk k (lastKid_member membersOnly_simple ho).1 (lastKid_member membersOnly_simple ho).2 x hx)
        | none =>
          obtain rfl := Res.ok.inj h
          exact deep_struct hnm (fun _ h => absurd h List.not_mem_nil) (fun _ h => absurd h List.not_mem_nil)
  · rw [if_neg hs] at h
    obtain ⟨nm, hnm, h⟩ := Res.bind_eq_ok.1 h
    obtain ⟨u, -, h⟩ := Res.bind_eq_ok.1 h
    obtain rfl := Res.ok.inj h
    have hnm := unwrap_ok.1 hnm
    refine deep_field (S.field ?_ ?_)
    · cases h1 : attrName c.node with
      | some v => rw [h1] at hnm; obtain rfl := Option.some.inj hnm; exact S.plain (S.name hc.node h1)
      | none => rw [h1] at hnm; exact S.ref hc.node hnm
    · cases h1 : attrType c.node with
      | some v => exact S.type hc.node h1
      | none =>
        cases h2 : attrRef c.node with
        | some v => exact S.refType hc.node hg h2
        | none => exact S.string

theorem parseAttributeGroup_texts (S : Texts G H Q) (hc : Around G H c) (hk : KidsOk Q c) {e}
    (h : parseAttributeGroup c = .ok e) : Deep Q.entity e := by
  obtain ⟨pt, -, h⟩ := Res.bind_eq_ok.1 h
  by_cases hs : pt = .schema
  · rw [if_pos hs] at h
    obtain ⟨nm, hnm, h⟩ := Res.bind_eq_ok.1 h
    obtain ⟨fs, hfs, h⟩ := Res.bind_eq_ok.1 h
    obtain rfl := Res.ok.inj h
    exact deep_struct (S.plain (S.name hc.node (unwrap_ok.1 hnm))) (attributesToFields_texts hk hfs)
      (fun _ h => absurd h List.not_mem_nil)
  · rw [if_neg hs] at h
    obtain ⟨r, hr, h⟩ := Res.bind_eq_ok.1 h
    obtain rfl := Res.ok.inj h
    have := S.ref hc.node (unwrap_ok.1 hr)
    exact deep_alias this (S.nameAlias this)

theorem parseSequence_texts (S : Texts G H Q) (hc : Around G H c) (hk : KidsOk Q c) {e}
    (h : parseSequence c = .ok e) : Deep Q.entity e := by
  obtain ⟨nm, hnm, h⟩ := Res.bind_eq_ok.1 h
  obtain ⟨fs, hfs, h⟩ := Res.bind_eq_ok.1 h
  obtain rfl := Res.ok.inj h
  have hnm := parentName_texts S hc hnm
  refine deep_struct (S.plain hnm) ?_ (fun _ h => absurd h List.not_mem_nil)
  obtain ⟨ks, hks, h⟩ := Res.bind_eq_ok.1 hfs
  refine mapM'_forall h ?_
  intro k hk' f hf
  obtain ⟨x, hx, hf⟩ := Res.bind_eq_ok.1 hf
  have := hk _ (filter_member hks membersOnly_isMember hk').1 (filter_member hks membersOnly_isMember hk').2 x hx
  cases x with
  | structField g =>
    cases g
    obtain rfl := Res.ok.inj hf
    exact .mk this.here this.inside
  | «enum» g =>
    cases g
    obtain rfl := Res.ok.inj hf
    have hc := (S.suffix hnm).1
    exact enumToField_texts S hnm (.mk ⟨hc, this.here.2⟩ this.inside)
  | _ => cases hf

theorem parseChoice_texts (S : Texts G H Q) (hk : KidsOk Q c) {e} (h : parseChoice c = .ok e) : Deep Q.entity e := by
  obtain ⟨ks, hks, h⟩ := Res.bind_eq_ok.1 h
  obtain ⟨cs, hcs, h⟩ := Res.bind_eq_ok.1 h
  obtain rfl := Res.ok.inj h
  refine .mk ⟨S.const "", S.string, ?_, (S.kinds _).2⟩
    fun _ h => absurd h List.not_mem_nil
  refine mapM'_forall hcs ?_
  intro k hk' f hf
  obtain ⟨x, hx, hf⟩ := Res.bind_eq_ok.1 hf
  have := hk _ (filter_member hks membersOnly_element hk').1 (filter_member hks membersOnly_element hk').2 x hx
  cases x with
  | enumCase g => obtain rfl := Res.ok.inj hf; exact this.here
  | _ => cases hf

theorem no_kids {α : Type} {P : α → Prop} : ∀ x ∈ ([] : List α), P x := fun _ h => absurd h List.not_mem_nil

theorem finishComplexType_texts (S : Texts G H Q) (hk : KidsOk Q c) {nm : Str} {fs : List StructField} {x e : RsEntity}
    (hnm : Q.O nm) (hfs : ∀ f ∈ fs, Deep Q.entity (.structField f)) (hx : Deep Q.entity x)
    (hch : ∀ y, x = .enum y → Q.R (nm ++ "Choice".toList) (nm ++ "Choice".toList) [] ∧
      ∀ t ss, Q.W t y.subtypes → Q.W t ss)
    (h : finishComplexType c nm fs x = .ok e) : Deep Q.entity e := by
  cases x with
  | struct s =>
    obtain ⟨n', cm, fs', ag, sub⟩ := s
    obtain rfl := Res.ok.inj h
    obtain ⟨-, hsub, -, hag⟩ := hx.here
    obtain rfl : sub = [] := hsub
    refine deep_struct (S.plain hnm) ?_ hag
    intro f hf
    rcases List.mem_append.1 hf with hf | hf
    · exact deep_struct_fields hx f hf
    · exact hfs f hf
  | «enum» s =>
    obtain ⟨n', cs, cm, t, sub, src⟩ := s
    obtain ⟨ag, hag, h⟩ := Res.bind_eq_ok.1 h
    obtain rfl := Res.ok.inj h
    have hc := (S.suffix hnm).1
    refine .mk ⟨hc, hx.here.2.1, fun y hy => ?_, hx.here.2.2.2⟩ ?_
    · obtain ⟨h1, h2⟩ := hx.here.2.2.1 y hy
      exact ⟨h1, fun t ht => (hch _ rfl).2 t _ (h2 t ht)⟩
    intro y hy
    obtain rfl := List.mem_singleton.1 hy
    refine deep_struct (S.plain hnm) ?_ (attributeGroupsToAliases_texts hk hag)
    intro f hf
    rcases List.mem_append.1 hf with hf | hf
    · exact hfs f hf
    · obtain rfl := List.mem_singleton.1 hf
      exact deep_field (hch _ rfl).1
  | _ => obtain rfl := Res.ok.inj h; exact hx

theorem parseComplexType_texts (S : Texts G H Q) (hc : Around G H c) (hk : KidsOk Q c)
    (htag : c.node.tag = "complexType".toList) {e}
    (h : parseComplexType c = .ok e) : Deep Q.entity e := by
  obtain ⟨nm, hnm, h⟩ := Res.bind_eq_ok.1 h
  obtain ⟨fs, hfs, h⟩ := Res.bind_eq_ok.1 h
  obtain ⟨o, ho, h⟩ := Res.bind_eq_ok.1 h
  have hfs := attributesToFields_texts hk hfs
  have hn := hnm
  have hnm : Q.O nm := by
    obtain ⟨pt, -, hnm⟩ := Res.bind_eq_ok.1 hnm
    by_cases hs : pt = .schema
    · rw [if_pos hs] at hnm
      exact S.name hc.node (unwrap_ok.1 hnm)
    · rw [if_neg hs] at hnm
      exact parentName_texts S hc hnm
  cases o with
  | none =>
    obtain ⟨ag, hag, h⟩ := Res.bind_eq_ok.1 h
    obtain rfl := Res.ok.inj h
    exact deep_struct (S.plain hnm) hfs (attributeGroupsToAliases_texts hk hag)
  | some k =>
    dsimp only at h
    split at h
    · obtain ⟨ag, hag, h⟩ := Res.bind_eq_ok.1 h
      obtain rfl := Res.ok.inj h
      exact deep_struct (S.plain hnm) hfs (attributeGroupsToAliases_texts hk hag)
    · rename_i hz
      obtain ⟨x, hx, h⟩ := Res.bind_eq_ok.1 h
      have hm := lastKid_member membersOnly_complex ho
      exact finishComplexType_texts S hk hnm hfs (hk k hm.1 hm.2 x hx)
        (fun y hy => S.choice hc htag hn ho hz hm.2 (hx.trans (by rw [hy]))) h

theorem parseContent_texts (hk : KidsOk Q c) {e} (h : parseContent c = .ok e) : Deep Q.entity e := by
  obtain ⟨o, ho, h⟩ := Res.bind_eq_ok.1 h
  obtain ⟨k, hk', h⟩ := Res.bind_eq_ok.1 h
  rw [unwrap_ok.1 hk'] at ho
  exact hk k (lastKid_member membersOnly_isMember ho).1 (lastKid_member membersOnly_isMember ho).2 e h

theorem withBase_texts (S : Texts G H Q) (hc : Around G H c) (hk : KidsOk Q c) {base fs}
    (hb : Res.unwrap (attrBase c.node) = .ok base) (hfs : attributesToFields c = .ok fs) :
    ∀ f ∈ fs ++ [baseField c.node base], Deep Q.entity (.structField f) := by
  intro f hf
  rcases List.mem_append.1 hf with hf | hf
  · exact attributesToFields_texts hk hfs f hf
  · obtain rfl := List.mem_singleton.1 hf
    exact deep_field (S.marker hc.node (unwrap_ok.1 hb))

theorem derivedWithoutContent_texts (S : Texts G H Q) (hk : KidsOk Q c) {fs e}
    (hfs : ∀ f ∈ fs, Deep Q.entity (.structField f)) (h : derivedWithoutContent c fs = .ok e) : Deep Q.entity e := by
  obtain ⟨ag, hag, h⟩ := Res.bind_eq_ok.1 h
  obtain rfl := Res.ok.inj h
  exact deep_struct (S.constants _ (by decide)) hfs (attributeGroupsToAliases_texts hk hag)

theorem derivedWithContent_texts (S : Texts G H Q) (hk : KidsOk Q c) {fs x e}
    (hfs : ∀ f ∈ fs, Deep Q.entity (.structField f)) (hx : Deep Q.entity x)
    (h : derivedWithContent c fs x = .ok e) : Deep Q.entity e := by
  cases x with
  | struct s =>
    obtain ⟨n', cm, fs', ag, sub⟩ := s
    obtain rfl := Res.ok.inj h
    obtain ⟨hn, hsub, -, hag⟩ := hx.here
    obtain rfl : sub = [] := hsub
    refine deep_struct hn ?_ hag
    intro f hf
    rcases List.mem_append.1 hf with hf | hf
    · exact deep_struct_fields hx f hf
    · exact hfs f hf
  | _ => exact derivedWithoutContent_texts S hk hfs h

theorem parseExtension_texts (S : Texts G H Q) (hc : Around G H c) (hk : KidsOk Q c) {e}
    (h : parseExtension c = .ok e) : Deep Q.entity e := by
  obtain ⟨t, -, h⟩ := Res.bind_eq_ok.1 h
  split at h
  · obtain ⟨base, hb, h⟩ := Res.bind_eq_ok.1 h
    obtain ⟨fs, hfs, h⟩ := Res.bind_eq_ok.1 h
    exact derivedWithoutContent_texts S hk (withBase_texts S hc hk hb hfs) h
  · obtain ⟨base, hb, h⟩ := Res.bind_eq_ok.1 h
    obtain ⟨fs, hfs, h⟩ := Res.bind_eq_ok.1 h
    obtain ⟨o, ho, h⟩ := Res.bind_eq_ok.1 h
    have hfs := withBase_texts S hc hk hb hfs
    cases o with
    | none => exact derivedWithoutContent_texts S hk hfs h
    | some k =>
      obtain ⟨x, hx, h⟩ := Res.bind_eq_ok.1 h
      exact derivedWithContent_texts S hk hfs (hk k (lastKid_member membersOnly_extension ho).1 (lastKid_member membersOnly_extension ho).2 x hx) h
  · cases h

theorem parseRestriction_texts {U : UnicodeTable} (S : Texts G H Q) (hc : Around G H c) (hk : KidsOk Q c) {e}
    (h : parseRestriction U c = .ok e) : Deep Q.entity e := by
  obtain ⟨t, -, h⟩ := Res.bind_eq_ok.1 h
  split at h
  · obtain ⟨base, hb, h⟩ := Res.bind_eq_ok.1 h
    obtain ⟨fs, hfs, h⟩ := Res.bind_eq_ok.1 h
    obtain ⟨sm, hsm, h⟩ := Res.bind_eq_ok.1 h
    have hb := S.base hc.node (unwrap_ok.1 hb)
    have hsimple : sm = true → ∀ f ∈ fs, ∀ v, f.facetType = .enumeration v → isSimpleEnumeration U v = true := by
      intro hs f hf v hv
      obtain ⟨ks, hks, hfs⟩ := Res.bind_eq_ok.1 hfs
      obtain rfl := Res.ok.inj hfs
      obtain ⟨ks', hks', hsm⟩ := Res.bind_eq_ok.1 hsm
      obtain rfl := Res.ok.inj (hks'.symm.trans hks)
      obtain ⟨k, hk', hf⟩ := List.mem_filterMap.1 hf
      have := List.all_eq_true.1 ((Res.ok.inj hsm).trans hs) k hk'
      cases hkt : k.1 with
      | facet ft =>
        rw [hkt] at hf this
        obtain rfl := Option.some.inj hf
        obtain rfl : ft = _ := hv
        exact this
      | _ => rw [hkt] at hf; cases hf
    have hfs : ∀ f ∈ fs, Q.F f.facetType := by
      obtain ⟨ks, hks, hfs⟩ := Res.bind_eq_ok.1 hfs
      obtain rfl := Res.ok.inj hfs
      intro f hf
      obtain ⟨k, hk', hf⟩ := List.mem_filterMap.1 hf
      obtain ⟨h1, h2, h3⟩ := typedKids_all hks k hk'
      cases hkt : k.1 with
      | facet ft =>
        rw [hkt] at hf h2 h3
        obtain rfl := Option.some.inj hf
        exact S.facet (hc.kids _ h1 (h3 trivial)) h2
      | _ => rw [hkt] at hf; cases hf
    split at h
    · rename_i hsim
      obtain ⟨nm, hnm, h⟩ := Res.bind_eq_ok.1 h
      obtain rfl := Res.ok.inj h
      refine .mk ⟨(S.suffix (parentName_texts S hc hnm)).2.1, hb, ?_, (S.kinds _).1⟩ no_kids
      intro cs hcs
      obtain ⟨f, hf, hcs⟩ := List.mem_filterMap.1 hcs
      have := hfs f hf
      cases hft : f.facetType with
      | enumeration v =>
        rw [hft] at hcs this
        obtain rfl := Option.some.inj hcs
        exact ⟨S.enumeration this (hsimple hsim.1 f hf v hft), fun t ht => (by cases ht)⟩
      | _ => rw [hft] at hcs; cases hcs
    · obtain rfl := Res.ok.inj h
      exact .mk ⟨S.const "", S.wrap hb, hfs, S.lone hb⟩ no_kids
  · cases h
  · obtain ⟨base, hb, h⟩ := Res.bind_eq_ok.1 h
    obtain ⟨fs, hfs, h⟩ := Res.bind_eq_ok.1 h
    obtain ⟨o, ho, h⟩ := Res.bind_eq_ok.1 h
    have hfs := withBase_texts S hc hk hb hfs
    cases o with
    | none => exact derivedWithoutContent_texts S hk hfs h
    | some k =>
      obtain ⟨x, hx, h⟩ := Res.bind_eq_ok.1 h
      exact derivedWithContent_texts S hk hfs (hk k (lastKid_member membersOnly_restriction ho).1 (lastKid_member membersOnly_restriction ho).2 x hx) h
  · cases h

theorem pushArray_texts : ∀ {t : TupleStruct}, Deep Q.entity (.tupleStruct t) →
    Q.M (t.typeModifiers ++ [.array]) t.typeName → Deep Q.entity (pushArray t)
  | .mk _ _ _ _ _ _, h, hm => .mk ⟨h.here.1, h.here.2.1, h.here.2.2.1, hm⟩ h.inside

theorem parseList_texts (S : Texts G H Q) (hc : Around G H c) (hk : KidsOk Q c) (htag : c.node.tag = "list".toList) {e}
    (h : parseList c = .ok e) : Deep Q.entity e := by
  unfold parseList at h
  cases ht : c.node.attr "itemType".toList with
  | some t =>
    rw [ht] at h
    obtain rfl := Res.ok.inj h
    exact .mk ⟨S.const "", S.wrap (S.itemType hc.node ht), no_kids, S.items hc.node htag ht⟩ no_kids
  | none =>
    rw [ht] at h
    obtain ⟨k, hk', h⟩ := Res.bind_eq_ok.1 h
    obtain ⟨x, hx, h⟩ := Res.bind_eq_ok.1 h
    obtain ⟨t, ht, h⟩ := Res.bind_eq_ok.1 h
    obtain rfl := Res.ok.inj h
    have hfind := unwrap_ok.1 hk'
    have hp := List.find?_some hfind
    rw [Bool.and_eq_true, decide_eq_true_iff] at hp
    have := hk k (List.mem_of_find?_eq_some hfind) ⟨hp.1, by rw [hp.2]; decide⟩ x hx
    have hin := kid_inline (tags := ["simpleType"]) hc (List.mem_of_find?_eq_some hfind) ⟨hp.1, by rw [hp.2]; decide⟩
      (by rw [hp.2]; decide) hx
    obtain ⟨U, d, hd, hdx, rfl⟩ : ∃ U d, d ∈ members c.node ∧ parseNode U d c.node (c.parent :: c.above) = k.2 ∧ k.1 = d := by
      obtain ⟨U, p, above, hpl⟩ := hc.place
      have hkk := List.mem_of_find?_eq_some hfind
      generalize hn : c.node = n at *
      subst hpl
      obtain ⟨d, hd', rfl⟩ := List.mem_map.1 hkk
      exact ⟨U, d, mem_members.2 ⟨hd', hp.1, by rw [hp.2]; decide⟩, rfl, rfl⟩
    rw [hx] at hdx
    cases x with
    | «enum» g =>
      cases g
      obtain rfl := Res.ok.inj ht
      refine .mk ⟨S.const "", S.wrapInner hin this.here.1 List.mem_cons_self, no_kids, S.inlineEnum hc htag hd hp.2 hdx⟩ ?_
      intro y hy
      obtain rfl := List.mem_singleton.1 hy
      exact this
    | tupleStruct g =>
      obtain rfl := Res.ok.inj ht
      exact pushArray_texts this (S.inlineItems hc htag hd hp.2 hdx this.here.2.2.2)
    | _ => cases ht

theorem unionSubtypes_texts (S : Texts G H Q) : ∀ {l : List (Res RsEntity)} {i : Nat} {es : List RsEntity},
    (∀ r ∈ l, ∀ e, r = .ok e → Deep Q.entity e ∧ Inline G ["simpleType"] e) → unionSubtypes i l = .ok es →
    ∀ e ∈ es, Deep Q.entity e ∧ ∀ ss, e ∈ ss → Q.W e.name ss
  | [], i, es, _, h => by
    rw [unionSubtypes] at h
    obtain rfl := Res.ok.inj h
    exact no_kids
  | r :: l, i, es, hl, h => by
    rw [unionSubtypes] at h
    obtain ⟨x, hx, h⟩ := Res.bind_eq_ok.1 h
    obtain ⟨xs, hxs, h⟩ := Res.bind_eq_ok.1 h
    obtain rfl := Res.ok.inj h
    intro e he
    rcases List.mem_cons.1 he with rfl | he
    · have hn := (S.numbered i).1
      obtain ⟨h1, h2⟩ := hl r List.mem_cons_self x hx
      refine ⟨S.deep_setName hn h1, fun ss hs => ?_⟩
      rw [deep_name _ rfl]
      exact S.wrapInner h2 hn hs
    · exact unionSubtypes_texts S (fun r hr => hl r (List.mem_cons_of_mem _ hr)) hxs e he

theorem unionCases_texts (S : Texts G H Q) {ss : List RsEntity} : ∀ {es : List RsEntity} {i : Nat},
    (∀ e ∈ es, Q.W e.name ss) → ∀ x ∈ unionCases i es, Q.case ss x
  | [], i, _ => by rw [unionCases]; exact no_kids
  | e :: es, i, h => by
    rw [unionCases]
    intro x hx
    rcases List.mem_cons.1 hx with rfl | hx
    · refine ⟨(S.numbered i).2, fun t ht => ?_⟩
      obtain rfl := Option.some.inj ht
      exact h e List.mem_cons_self
    · exact unionCases_texts S (fun r hr => h r (List.mem_cons_of_mem _ hr)) x hx

theorem unionCases_typed : ∀ {es : List RsEntity} {i : Nat}, ∀ x ∈ unionCases i es, x.typeName ≠ none
  | [], i, x, hx => by rw [unionCases] at hx; cases hx
  | e :: es, i, x, hx => by
    rw [unionCases] at hx
    rcases List.mem_cons.1 hx with rfl | hx
    · exact Option.some_ne_none _
    · exact unionCases_typed x hx

theorem parseUnion_texts (S : Texts G H Q) (hc : Around G H c) (hk : KidsOk Q c)
    (hu : ∀ cs, (∀ c ∈ cs, c.typeName ≠ none) → Q.K .union cs) {e}
    (h : parseUnion c = .ok e) : Deep Q.entity e := by
  obtain ⟨ks, hks, h⟩ := Res.bind_eq_ok.1 h
  obtain ⟨subs, hsubs, h⟩ := Res.bind_eq_ok.1 h
  obtain ⟨fs, hfs, h⟩ := Res.bind_eq_ok.1 h
  have hsubs := unionSubtypes_texts S (fun r hr e he => by
    obtain ⟨k, hk', rfl⟩ := List.mem_map.1 hr
    have hm := filter_member hks membersOnly_simple hk'
    have ht := (typedKids_all hks k (List.mem_filter.1 hk').1).2.1
    rw [(of_decide_eq_true (List.mem_filter.1 hk').2).2] at ht
    exact ⟨hk _ hm.1 hm.2 e he, kid_inline hc hm.1 hm.2 (by rw [(type_iff (s := "simpleType") (by decide)).1 ht]; decide) he⟩)
    hsubs
  have hcases : ∀ x ∈ ((c.node.attr "memberTypes".toList).map createEnumCases).getD [] ++ unionCases 0 subs, Q.case subs x := by
    intro x hx
    rcases List.mem_append.1 hx with hx | hx
    · cases hm : c.node.attr "memberTypes".toList with
      | none => rw [hm] at hx; cases hx
      | some v =>
        rw [hm] at hx
        obtain ⟨w, hw, rfl⟩ := List.mem_map.1 hx
        obtain ⟨hw, hne⟩ := List.mem_filter.1 hw
        obtain ⟨h1, h2⟩ := S.memberTypes hc.node hm hw (of_decide_eq_true hne)
        exact ⟨h1, fun t ht => by obtain rfl := Option.some.inj ht; exact S.wrap h2⟩
    · exact unionCases_texts S (fun e he => (hsubs e he).2 _ he) x hx
  have hstr : Q.T "String".toList := S.string
  have hu := hu (((c.node.attr "memberTypes".toList).map createEnumCases).getD [] ++ unionCases 0 subs) (by
    intro x hx
    rcases List.mem_append.1 hx with hx | hx
    · cases hm : c.node.attr "memberTypes".toList with
      | none => rw [hm] at hx; cases hx
      | some v =>
        rw [hm] at hx
        obtain ⟨w, -, rfl⟩ := List.mem_map.1 hx
        exact Option.some_ne_none _
    · exact unionCases_typed x hx)
  dsimp only at h
  split at h
  · obtain rfl := Res.ok.inj h
    exact .mk ⟨S.const "", hstr, hcases, hu⟩ fun x hx => (hsubs x hx).1
  · obtain ⟨nm, hnm, h⟩ := Res.bind_eq_ok.1 h
    obtain rfl := Res.ok.inj h
    have hnm := parentName_texts S hc hnm
    refine deep_struct (S.constants _ (by decide)) ?_ no_kids
    intro f hf
    rcases List.mem_append.1 hf with hf | hf
    · exact attributesToFields_texts hk hfs f hf
    · obtain rfl := List.mem_singleton.1 hf
      exact enumToField_texts S hnm (.mk ⟨(S.suffix hnm).1, hstr, hcases, hu⟩ fun x hx => (hsubs x hx).1)

theorem parseSimpleType_texts (S : Texts G H Q) (hc : Around G H c) (hk : KidsOk Q c) {e}
    (h : parseSimpleType c = .ok e) : Deep Q.entity e := by
  obtain ⟨pt, -, h⟩ := Res.bind_eq_ok.1 h
  split at h
  · cases h
  · obtain ⟨o, ho, h⟩ := Res.bind_eq_ok.1 h
    obtain ⟨k, hk', h⟩ := Res.bind_eq_ok.1 h
    rw [unwrap_ok.1 hk'] at ho
    obtain ⟨x, hx, h⟩ := Res.bind_eq_ok.1 h
    obtain rfl := Res.ok.inj h
    refine Texts.deep_setComment ?_
    have := hk k (lastKid_member membersOnly_isMember ho).1 (lastKid_member membersOnly_isMember ho).2 x hx
    cases hn : attrName c.node with
    | none => exact this
    | some nm => exact S.deep_setName (S.plain (S.name hc.node hn)) this

theorem parsePlace_texts {U : UnicodeTable} (S : Texts G H Q) (hc : Around G H c) (hk : KidsOk Q c) {e}
    (h : parsePlace U c = .ok e) : Deep Q.entity e := by
  rw [parsePlace_branch] at h
  obtain ⟨t, ht, h⟩ := Res.bind_eq_ok.1 h
  have hstr : Q.T "String".toList := S.string
  have himp : Res.ok (parseImport c.node) = .ok e → Deep Q.entity e := fun h => by
    obtain rfl := Res.ok.inj h
    exact .mk ⟨S.namespace' hc.node, S.location hc.node⟩ no_kids
  cases t with
  | all => exact parseSequence_texts S hc hk h
  | any => obtain rfl := Res.ok.inj h; exact deep_field (S.field (S.constants _ (by decide)) hstr)
  | anyAttribute => obtain rfl := Res.ok.inj h; exact deep_field (S.field (S.constants _ (by decide)) hstr)
  | «attribute» =>
    exact parseAttribute_texts S hc hk (by rw [(type_iff (s := "attribute") (by decide)).1 ht]; decide) h
  | attributeGroup => exact parseAttributeGroup_texts S hc hk h
  | choice => exact parseChoice_texts S hk h
  | complexContent => exact parseContent_texts hk h
  | complexType =>
    exact parseComplexType_texts S hc hk ((type_iff (s := "complexType") (t := .complexType) (by decide)).1 ht) h
  | element =>
    exact parseElement_texts S hc hk (by rw [(type_iff (s := "element") (by decide)).1 ht]; decide) h
  | «extension» x => exact parseExtension_texts S hc hk h
  | «import» => exact himp h
  | «include» => exact himp h
  | list => exact parseList_texts S hc hk ((type_iff (s := "list") (t := .list) (by decide)).1 ht) h
  | restriction x => exact parseRestriction_texts S hc hk h
  | sequence => exact parseSequence_texts S hc hk h
  | simpleContent => exact parseContent_texts hk h
  | simpleType => exact parseSimpleType_texts S hc hk h
  | union => exact parseUnion_texts S hc hk (fun _ => S.union hc.node ((type_iff (s := "union") (t := .union) (by decide)).1 ht)) h
  | _ => cases h

end

/-- The strings of everything that `parse_node` yields. -/
theorem parseNode_deep {G H : Node → Prop} {Q : Preds} {U : UnicodeTable} (S : Texts G H Q) (hG : Hereditary G)
    (hm : ∀ n, G n → H n) {n p : Node} {above : List Node} {e : RsEntity} (hn : G n) (hp : H p) (ha : ∀ a ∈ above, H a)
    (h : parseNode U n p above = .ok e) : Deep Q.entity e :=
  parse_ind (P := fun _ _ e => Deep Q.entity e) hG hm (fun _ _ hc hk _ h => parsePlace_texts S hc hk h) n p above e
    hn hp ha h

theorem parseNode_texts {G H : Node → Prop} {Q : Preds} {U : UnicodeTable} (S : Sources G H Q) {n p : Node}
    {above : List Node} {e : RsEntity} (hn : G n) (hp : H p) (ha : ∀ a ∈ above, H a)
    (h : parseNode U n p above = .ok e) : Deep Q.entity e :=
  parseNode_deep S.texts S.hered S.mono hn hp ha h

/-- The same with a property of the node itself that its children need not have. -/
theorem parseNode_top {G H G' H' : Node → Prop} {Q : Preds} {U : UnicodeTable} (S : Texts G H Q) (T : Texts G' H' Q)
    (hG : Hereditary G) (hm : ∀ n, G n → H n) {n p : Node} {above : List Node} {e : RsEntity} (hn : G' n) (hp' : H' p)
    (ha' : ∀ a ∈ above, H' a) (hk' : ∀ c ∈ members n, G' c) (hnH : H n) (hp : H p) (ha : ∀ a ∈ above, H a)
    (hk : ∀ c ∈ members n, G c) (h : parseNode U n p above = .ok e) : Deep Q.entity e := by
  rw [parseNode_eq] at h
  refine parsePlace_texts T ⟨hn, ?_, hp', ha', U, p, above, rfl⟩ ?_ h
  · intro k hkk hmk
    obtain ⟨c, hc, rfl⟩ := List.mem_map.1 hkk
    exact hk' c (mem_members.2 ⟨hc, hmk⟩)
  · intro k hkk hmk x hx
    obtain ⟨c, hc, rfl⟩ := List.mem_map.1 hkk
    refine parseNode_deep S hG hm (hk c (mem_members.2 ⟨hc, hmk⟩)) hnH ?_ hx
    intro a ha''
    rcases List.mem_cons.1 ha'' with rfl | ha''
    · exact hp
    · exact ha a ha''

/-- Nothing is asked. -/
def noPreds : Preds where
  R _ _ _ := True
  N _ := True
  T _ := True
  C _ := True
  F _ := True
  J _ := True
  L _ := True

theorem sources_trivial : Sources (fun _ => True) (fun _ => True) noPreds := by
  constructor <;> intros <;> simp only [Hereditary, noPreds, implies_true, and_self]

/-- No struct which the parser yields has an entry in `Struct::subtypes`. -/
theorem structs_have_no_subtypes {U : UnicodeTable} {n p : Node} {above : List Node} {e : RsEntity}
    (h : parseNode U n p above = .ok e) : Deep (fun x => ∀ s, x = .struct s → s.subtypes = []) e := by
  refine (parseNode_texts sources_trivial trivial trivial (fun _ _ => trivial) h).mono ?_
  rintro x hx s rfl
  exact hx.2.1

end Verif.Lemmas.Parse
