import Verif.Lemmas.DocDefs

/-! # The names in the entities of a document

As in `ParseItems`, but for the names of definitions, members and types. -/

namespace Verif.Lemmas.Syn

open Verif Verif.Model Verif.RoXml Verif.Spec Verif.Lemmas.Parse

/-- What holds of the names of definitions, of fields, of types and of cases. -/
structure Kinds where
  D : Str → Prop
  F : Str → Prop
  T : Str → Prop
  C : Str → Prop

variable {K : Kinds}

/-- Of an entity's own name. -/
def Own (K : Kinds) : RsEntity → Prop
  | .struct s => K.D s.name
  | .tupleStruct t => K.D t.name
  | .enum e => K.D e.name
  | .alias a => K.D a.name
  | _ => True

def FieldOk (K : Kinds) (f : StructField) : Prop :=
  K.F f.name ∧ (f.subtypes = [] → K.T f.typeName) ∧ (f.subtypes ≠ [] → K.D f.typeName)

def CaseOk (K : Kinds) (c : EnumCase) : Prop := K.C c.name ∧ ∀ t, c.typeName = some t → K.T t

/-- Of what an entity mentions. -/
def Mentions (K : Kinds) : RsEntity → Prop
  | .struct s => s.subtypes = [] ∧ ∀ f ∈ s.fields, FieldOk K f
  | .structField f => FieldOk K f
  | .tupleStruct t => K.T t.typeName
  | .enum e => K.T e.typeName ∧ ∀ c ∈ e.cases, CaseOk K c
  | .enumCase c => CaseOk K c
  | .alias a => K.T a.original
  | .import _ => True

/-- Except for its own name. -/
def Inn (K : Kinds) (e : RsEntity) : Prop := Mentions K e ∧ ∀ x ∈ inner e, Own K x

theorem sameHead_own {e e' : RsEntity} (h : SameHead e e') : Own K e → Own K e' := by
  cases h with
  | refl => exact id
  | @struct s s' h =>
    intro h'
    show K.D s'.name
    rw [← h]
    exact h'

theorem sameHeads_own {es es' : List RsEntity} (h : List.Forall₂ SameHead es es') (hi : ∀ x ∈ es, Own K x) :
    ∀ x ∈ es', Own K x := by
  induction h with
  | nil => exact hi
  | cons h1 h2 ih =>
    intro x hx
    rcases List.mem_cons.1 hx with rfl | hx
    · exact sameHead_own h1 (hi _ List.mem_cons_self)
    · exact ih (fun y hy => hi y (List.mem_cons_of_mem _ hy)) x hx

theorem fieldwise_inn : Fieldwise (Inn K) where
  noSub h := h.1.1
  field h f hf := ⟨h.1.2 f hf, fun x hx => h.2 x (List.mem_append.2 (.inr (List.mem_flatMap.2 ⟨f, hf, hx⟩)))⟩
  struct h hf := ⟨⟨rfl, fun f hf' => (hf f hf').1⟩, fun x hx => by
    rcases List.mem_append.1 hx with hx | hx
    · cases hx
    · obtain ⟨f, h1, h2⟩ := List.mem_flatMap.1 hx
      exact (hf f h1).2 x h2⟩
  retype {n t c sub sub' src ms} h hs := by
    have e : sub = [] ↔ sub' = [] := by cases hs <;> simp
    refine ⟨⟨h.1.1, fun h' => h.1.2.1 (e.2 h'), fun h' => h.1.2.2 fun h'' => h' (e.1 h'')⟩, sameHeads_own hs h.2⟩

abbrev Good (K : Kinds) (e : RsEntity) : Prop := Deep (Inn K) e ∧ Own K e

theorem good_inner {e : RsEntity} (h : Deep (Inn K) e) : ∀ x ∈ inner e, Good K x :=
  fun x hx => ⟨h.inside x hx, h.here.2 x hx⟩

theorem inn_struct {n : Str} {cm : Option Str} {fs : List StructField} {ag : List RAlias}
    (hf : ∀ f ∈ fs, Deep (Inn K) (.structField f)) : Deep (Inn K) (.struct (.mk n cm fs ag [])) := by
  have hx : ∀ x ∈ inner (.struct (.mk n cm fs ag [])), Good K x := by
    intro x hx
    rcases List.mem_append.1 hx with hx | hx
    · cases hx
    · obtain ⟨f, h1, h2⟩ := List.mem_flatMap.1 hx
      exact good_inner (hf f h1) x h2
  exact .mk ⟨⟨rfl, fun f h => (hf f h).here.1⟩, fun x h => (hx x h).2⟩ fun x h => (hx x h).1

theorem inn_field {n t : Str} {cm : Option Str} {src ms} (hn : K.F n) (ht : K.T t) :
    Deep (Inn K) (.structField (.mk n t cm [] src ms)) :=
  .mk ⟨⟨hn, fun _ => ht, fun h => absurd rfl h⟩, no_kids⟩ no_kids

theorem inn_field_with {n t : Str} {cm : Option Str} {x : RsEntity} {src ms} (hn : K.F n) (ht : K.D t) (h : Good K x) :
    Deep (Inn K) (.structField (.mk n t cm [x] src ms)) :=
  .mk ⟨⟨hn, fun h => (by cases h), fun _ => ht⟩, fun y hy => by obtain rfl := List.mem_singleton.1 hy; exact h.2⟩
    fun y hy => by obtain rfl := List.mem_singleton.1 hy; exact h.1

theorem inn_enum {n : Str} {cs} {cm : Option Str} {t : Str} {sub : List RsEntity} {src} (ht : K.T t)
    (hc : ∀ c ∈ cs, CaseOk K c) (h : ∀ x ∈ sub, Good K x) : Deep (Inn K) (.enum (.mk n cs cm t sub src)) :=
  .mk ⟨⟨ht, hc⟩, fun x hx => (h x hx).2⟩ fun x hx => (h x hx).1

theorem inn_tuple {n : Str} {cm : Option Str} {t : Str} {sub : List RsEntity} {ms fs} (ht : K.T t) (h : ∀ x ∈ sub, Good K x) :
    Deep (Inn K) (.tupleStruct (.mk n cm t sub ms fs)) :=
  .mk ⟨ht, fun x hx => (h x hx).2⟩ fun x hx => (h x hx).1

theorem inn_alias {n t : Str} {cm : Option Str} (ht : K.T t) : Deep (Inn K) (.alias (.mk n t cm [])) :=
  .mk ⟨ht, no_kids⟩ no_kids

theorem inn_case {c : EnumCase} (h : CaseOk K c) : Deep (Inn K) (.enumCase c) := .mk ⟨h, no_kids⟩ no_kids

/-- Names from outside. -/
def Anonymous : RsEntity → Prop
  | .structField _ => False
  | .enumCase _ => False
  | _ => True

theorem own_setName {nm : Str} (h : K.D nm) : ∀ e : RsEntity, Own K (e.setName nm)
  | .struct (.mk _ _ _ _ _) => h
  | .tupleStruct (.mk _ _ _ _ _ _) => h
  | .enum (.mk _ _ _ _ _ _) => h
  | .enumCase _ => trivial
  | .alias (.mk _ _ _ _) => h
  | .structField (.mk _ _ _ _ _ _) => trivial
  | .import _ => trivial

theorem inn_setName {nm : Str} (hF : K.F nm) (hC : K.C nm) : ∀ {e : RsEntity}, Deep (Inn K) e → Deep (Inn K) (e.setName nm)
  | .struct (.mk _ _ _ _ _), h => .mk h.here h.inside
  | .tupleStruct (.mk _ _ _ _ _ _), h => .mk h.here h.inside
  | .enum (.mk _ _ _ _ _ _), h => .mk h.here h.inside
  | .enumCase _, h => .mk ⟨⟨hC, h.here.1.2⟩, h.here.2⟩ h.inside
  | .alias (.mk _ _ _ _), h => .mk h.here h.inside
  | .structField (.mk _ _ _ _ _ _), h => .mk ⟨⟨hF, h.here.1.2⟩, h.here.2⟩ h.inside
  | .import _, h => .mk h.here h.inside

theorem inn_setComment {c : Option Str} : ∀ {e : RsEntity}, Deep (Inn K) e → Deep (Inn K) (e.setComment c)
  | .struct (.mk _ _ _ _ _), h => .mk h.here h.inside
  | .tupleStruct (.mk _ _ _ _ _ _), h => .mk h.here h.inside
  | .enum (.mk _ _ _ _ _ _), h => .mk h.here h.inside
  | .enumCase _, h => .mk h.here h.inside
  | .alias (.mk _ _ _ _), h => .mk h.here h.inside
  | .structField (.mk _ _ _ _ _ _), h => .mk h.here h.inside
  | .import _, h => .mk h.here h.inside

theorem own_setComment {c : Option Str} : ∀ {e : RsEntity}, Own K e → Own K (e.setComment c)
  | .struct (.mk _ _ _ _ _), h => h
  | .tupleStruct (.mk _ _ _ _ _ _), h => h
  | .enum (.mk _ _ _ _ _ _), h => h
  | .enumCase _, h => h
  | .alias (.mk _ _ _ _), h => h
  | .structField (.mk _ _ _ _ _ _), h => h
  | .import _, h => h

/-- Names which are given to definitions, and with endings to others. -/
def Owner (K : Kinds) (v : Str) : Prop :=
  K.D v ∧ K.D (v ++ "Choice".toList) ∧ K.D (v ++ "Enum".toList) ∧ K.D (v ++ "Type".toList)

/-- Where the names come from. -/
structure Supplies (U : UnicodeTable) (G : Node → Prop) (K : Kinds) : Prop where
  hered : Hereditary G
  fields : ∀ {v}, K.D v → K.F v
  types : ∀ {v}, K.D v → K.T v
  variants : ∀ {v}, K.D v → K.C v
  name : ∀ {n v}, G n → n.attr "name".toList = some v → Owner K v
  ref : ∀ {n v}, G n → n.attr "ref".toList = some v → K.F v ∧ K.T v ∧ K.C v
  type : ∀ {n v}, G n → n.attr "type".toList = some v → K.T v
  base : ∀ {n v}, G n → n.attr "base".toList = some v → K.T v
  item : ∀ {n v}, G n → n.attr "itemType".toList = some v → K.T v
  members : ∀ {n v}, G n → n.attr "memberTypes".toList = some v → ∀ m ∈ createEnumCases v, CaseOk K m
  value : ∀ {n v}, G n → n.tag = "enumeration".toList → n.attr "value".toList = some v → isSimpleEnumeration U v = true → K.C v
  unsupported : Owner K "UnsupportedName".toList
  schema : Owner K "SchemaElement".toList
  element : Owner K "UNSUPPORTED_ELEMENT_NAME".toList
  other : K.T "UNSUPPORTED".toList
  marker : K.F "__base__".toList
  any : K.F "any".toList
  anyAttribute : K.F "any_attribute".toList
  string : K.T "String".toList
  numbered : ∀ i, K.D ("EnumCaseType_".toList ++ Str.natStr i) ∧ K.C ("EnumCase_".toList ++ Str.natStr i)
  simple : ∀ {n c}, G n → n.tag = "simpleType".toList → c ∈ Spec.members n → c.tag ∈ ["restriction", "list", "union"].map String.toList
  list : ∀ {n c r}, G n → n.tag = "list".toList → n.attr "itemType".toList = none → c ∈ Spec.members n → c.tag = "simpleType".toList →
    r ∈ Spec.members c → r.tag ≠ "union".toList

/-- An enum has a name already. -/
def EnumNamed (K : Kinds) (e : RsEntity) : Prop := ∀ x, e = .enum x → K.D x.name

/-- What is shown of an element. -/
def Fine (K : Kinds) (n : Node) (e : RsEntity) : Prop :=
  Deep (Inn K) e ∧ (n.tag = "restriction".toList ∨ n.tag = "list".toList → EnumNamed K e) ∧
  (n.tag = "simpleType".toList → (∀ r ∈ Spec.members n, r.tag ≠ "union".toList) → EnumNamed K e)

section
variable {U : UnicodeTable} {G : Node → Prop} {c : Place}

theorem enum_type {p : Option Str} {n : Node} {v : Str} (h : xsdType p n = .ok (.facet (.enumeration v))) :
    n.tag = "enumeration".toList ∧ n.attr "value".toList = some v := by
  have hk := xsdType_kind h
  generalize hf : ElementType.facet (.enumeration v) = t at hk
  cases hk with
  | @plain s t h =>
    have key : ∀ r ∈ plainTags, (match r.2 with | .facet _ => false | _ => true) = true := by decide
    have := key _ h
    rw [← hf] at this
    cases this
  | @facet s f v' h1 h2 h3 =>
    have hf := ElementType.facet.inj hf
    simp only [facetTags, List.mem_cons, List.not_mem_nil, or_false] at h1
    rcases h1 with h | h | h | h | h | h | h | h | h | h | h <;> obtain ⟨rfl, rfl⟩ := Prod.mk.inj h
    · cases hf; exact ⟨h2, h3⟩
    all_goals cases hf
  | whiteSpace => cases hf
  | «extension» => cases hf
  | restriction => cases hf
  | misplacedExtension => cases hf
  | misplacedRestriction => cases hf
  | unknown => cases hf

theorem ext_tag {p : Option Str} {n : Node} {x : ExtensionType} (h : xsdType p n = .ok (.extension x)) :
    n.tag = "extension".toList := by
  have hk := xsdType_kind h
  generalize hf : ElementType.extension x = t at hk
  cases hk with
  | @plain s t h =>
    have key : ∀ r ∈ plainTags, (match r.2 with | .extension _ => false | _ => true) = true := by decide
    have := key _ h
    rw [← hf] at this
    cases this
  | «extension» h => exact h
  | facet => cases hf
  | whiteSpace => cases hf
  | restriction => cases hf
  | misplacedExtension => cases hf
  | misplacedRestriction => cases hf
  | unknown => cases hf

abbrev KidsFine (K : Kinds) (c : Place) : Prop := ∀ k ∈ c.kids, Member k.1 → ∀ e, k.2 = .ok e → Fine K k.1 e

theorem attributesToFields_inn (hk : KidsFine K c) {fs} (h : attributesToFields c = .ok fs) :
    ∀ f ∈ fs, Deep (Inn K) (.structField f) := by
  obtain ⟨ks, hks, h⟩ := Res.bind_eq_ok.1 h
  refine mapM'_forall h ?_
  intro k hk' f hf
  obtain ⟨e, he, hf⟩ := Res.bind_eq_ok.1 hf
  have := hk _ (filter_member hks membersOnly_attribute hk').1 (filter_member hks membersOnly_attribute hk').2 e he
  cases e with
  | structField g => obtain rfl := Res.ok.inj hf; exact this.1
  | _ => cases hf

theorem ownerName_inn (S : Supplies U G K) : ∀ {l : List Node} {s : Str}, (∀ a ∈ l, G a) → getParentName l = .ok s → Owner K s
  | [], s, _, h => by
    rw [getParentName] at h
    obtain rfl := Res.ok.inj h
    exact S.unsupported
  | p :: above, s, hl, h => by
    rw [getParentName] at h
    obtain ⟨t, -, h⟩ := Res.bind_eq_ok.1 h
    by_cases hs : t = .schema
    · rw [if_pos hs] at h
      obtain rfl := Res.ok.inj h
      exact S.schema
    · rw [if_neg hs] at h
      cases ha : attrName p with
      | none => rw [ha] at h; exact ownerName_inn S (fun a ha => hl a (List.mem_cons_of_mem _ ha)) h
      | some v => rw [ha] at h; obtain rfl := Res.ok.inj h; exact S.name (hl p List.mem_cons_self) ha

theorem parentName_inn (S : Supplies U G K) (hc : Around G G c) {s} (h : c.parentName = .ok s) : Owner K s := by
  refine ownerName_inn S ?_ h
  intro a ha
  rcases List.mem_cons.1 ha with rfl | ha
  · exact hc.parent
  · exact hc.above a ha

theorem good_setName (S : Supplies U G K) {nm : Str} (h : K.D nm) {e : RsEntity} (he : Deep (Inn K) e) : Good K (e.setName nm) :=
  ⟨inn_setName (S.fields h) (S.variants h) he, own_setName h e⟩

theorem kid_inn (hk : KidsFine K c) {q : ElementType → Node → Bool} (hq : MembersOnly q) {k}
    (ho : c.lastKid q = .ok (some k)) {e} (he : k.2 = .ok e) : Deep (Inn K) e := by
  obtain ⟨h1, h2⟩ := lastKid_member hq ho
  exact (hk k h1 h2 e he).1

theorem enumToField_inn (S : Supplies U G K) {e : REnum} (h : Good K (.enum e)) : Deep (Inn K) (.structField (enumToField e)) := by
  cases e
  exact inn_field_with (S.fields h.2) h.2 h

theorem parseElement_inn (S : Supplies U G K) (hc : Around G G c) (hk : KidsFine K c) {e} (h : parseElement c = .ok e) :
    Deep (Inn K) e := by
  obtain ⟨pt, hpt, h⟩ := Res.bind_eq_ok.1 h
  have hseq : parseFieldOfSequence c = .ok e → Deep (Inn K) e := by
    intro h
    unfold parseFieldOfSequence at h
    dsimp only at h
    have hF : K.F ((attrName c.node).getD ((attrRef c.node).getD "UNSUPPORTED_ELEMENT_NAME".toList)) := by
      cases h1 : attrName c.node with
      | some v => exact S.fields (S.name hc.node h1).1
      | none =>
        cases h2 : attrRef c.node with
        | some v => exact (S.ref hc.node h2).1
        | none => exact S.fields S.element.1
    split at h
    · obtain rfl := Res.ok.inj h
      refine inn_field hF ?_
      cases h1 : attrType c.node with
      | some v => exact S.type hc.node h1
      | none =>
        cases h2 : attrRef c.node with
        | some v => exact (S.ref hc.node h2).2.1
        | none => exact S.string
    · rename_i hno
      obtain ⟨o, ho, h⟩ := Res.bind_eq_ok.1 h
      obtain ⟨k, hk', h⟩ := Res.bind_eq_ok.1 h
      rw [unwrap_ok.1 hk'] at ho
      obtain ⟨x, hx, h⟩ := Res.bind_eq_ok.1 h
      obtain rfl := Res.ok.inj h
      have hr : attrRef c.node = none := by
        cases hr : attrRef c.node with
        | none => rfl
        | some r =>
          have hr : c.node.attr "ref".toList = some r := hr
          refine absurd ?_ hno
          rw [Bool.or_eq_true]
          right
          rw [Node.hasAttribute, hr]; rfl
      have hD : K.D ((attrName c.node).getD ((attrRef c.node).getD "UNSUPPORTED_ELEMENT_NAME".toList) ++ "Type".toList) := by
        rw [hr]
        cases h1 : attrName c.node with
        | some v => exact (S.name hc.node h1).2.2.2
        | none => exact S.element.2.2.2
      refine inn_field_with hF ?_ (good_setName S hD (kid_inn hk membersOnly_content ho hx))
      rw [deep_name _ rfl]
      exact hD
  have hdef : Res.ok (elementDefault c.node) = .ok e → Deep (Inn K) e := by
    intro h
    obtain rfl := Res.ok.inj h
    refine inn_alias ?_
    cases h1 : attrType c.node with
    | some v => exact S.type hc.node h1
    | none => exact S.other
  cases pt with
  | all => exact hseq h
  | sequence => exact hseq h
  | choice =>
    obtain rfl := Res.ok.inj h
    unfold parseCaseOfChoice
    cases hr : attrRef c.node with
    | some r => exact inn_case ⟨(S.ref hc.node hr).2.2, fun t ht => by obtain rfl := Option.some.inj ht; exact (S.ref hc.node hr).2.1⟩
    | none =>
      refine inn_case ⟨?_, fun t ht => S.type hc.node ht⟩
      cases h1 : attrName c.node with
      | some v => exact S.variants (S.name hc.node h1).1
      | none => exact S.variants S.element.1
  | schema =>
    obtain ⟨nm, hnm, h⟩ := Res.bind_eq_ok.1 h
    have hnm := S.name hc.node (unwrap_ok.1 hnm)
    cases ht : attrType c.node with
    | some t => rw [ht] at h; obtain rfl := Res.ok.inj h; exact inn_alias (S.type hc.node ht)
    | none =>
      rw [ht] at h
      obtain ⟨o, ho, h⟩ := Res.bind_eq_ok.1 h
      cases o with
      | some k =>
        obtain ⟨x, hx, h⟩ := Res.bind_eq_ok.1 h
        obtain rfl := Res.ok.inj h
        exact (good_setName S hnm.1 (kid_inn hk membersOnly_content ho hx)).1
      | none => obtain rfl := Res.ok.inj h; exact inn_struct no_kids
  | _ => exact hdef h

theorem parseAttribute_inn (S : Supplies U G K) (hc : Around G G c) (hk : KidsFine K c) {e}
    (h : parseAttribute c = .ok e) : Deep (Inn K) e := by
  obtain ⟨pt, hpt, h⟩ := Res.bind_eq_ok.1 h
  by_cases hs : pt = .schema
  · rw [if_pos hs] at h
    unfold parseGlobalAttribute at h
    cases hr : attrRef c.node with
    | some r => rw [hr] at h; obtain rfl := Res.ok.inj h; exact inn_alias (S.ref hc.node hr).2.1
    | none =>
      rw [hr] at h
      obtain ⟨nm, hnm, h⟩ := Res.bind_eq_ok.1 h
      cases ht : attrType c.node with
      | some t => rw [ht] at h; obtain rfl := Res.ok.inj h; exact inn_alias (S.type hc.node ht)
      | none =>
        rw [ht] at h
        obtain ⟨o, ho, h⟩ := Res.bind_eq_ok.1 h
        cases o with
        | some k =>
          obtain ⟨x, hx, h⟩ := Res.bind_eq_ok.1 h
          obtain rfl := Res.ok.inj h
          exact (good_setName S (S.name hc.node (unwrap_ok.1 hnm)).1 (kid_inn hk membersOnly_simple ho hx)).1
        | none => obtain rfl := Res.ok.inj h; exact inn_struct no_kids
  · rw [if_neg hs] at h
    obtain ⟨nm, hnm, h⟩ := Res.bind_eq_ok.1 h
    obtain ⟨u, -, h⟩ := Res.bind_eq_ok.1 h
    obtain rfl := Res.ok.inj h
    refine inn_field ?_ ?_
    · have hnm := unwrap_ok.1 hnm
      cases h1 : attrName c.node with
      | some v => rw [h1] at hnm; obtain rfl := Option.some.inj hnm; exact S.fields (S.name hc.node h1).1
      | none => rw [h1] at hnm; exact (S.ref hc.node hnm).1
    · cases h1 : attrType c.node with
      | some v => exact S.type hc.node h1
      | none =>
        cases h2 : attrRef c.node with
        | some v => exact (S.ref hc.node h2).2.1
        | none => exact S.string

theorem parseAttributeGroup_inn (S : Supplies U G K) (hc : Around G G c) (hk : KidsFine K c) {e}
    (h : parseAttributeGroup c = .ok e) : Deep (Inn K) e := by
  obtain ⟨pt, -, h⟩ := Res.bind_eq_ok.1 h
  by_cases hs : pt = .schema
  · rw [if_pos hs] at h
    obtain ⟨nm, hnm, h⟩ := Res.bind_eq_ok.1 h
    obtain ⟨fs, hfs, h⟩ := Res.bind_eq_ok.1 h
    obtain rfl := Res.ok.inj h
    exact inn_struct (attributesToFields_inn hk hfs)
  · rw [if_neg hs] at h
    obtain ⟨r, hr, h⟩ := Res.bind_eq_ok.1 h
    obtain rfl := Res.ok.inj h
    exact inn_alias (S.ref hc.node (unwrap_ok.1 hr)).2.1

theorem parseSequence_inn (S : Supplies U G K) (hc : Around G G c) (hk : KidsFine K c) {e} (h : parseSequence c = .ok e) :
    Deep (Inn K) e := by
  obtain ⟨nm, hnm, h⟩ := Res.bind_eq_ok.1 h
  have hnm := parentName_inn S hc hnm
  obtain ⟨fs, hfs, h⟩ := Res.bind_eq_ok.1 h
  obtain rfl := Res.ok.inj h
  refine inn_struct ?_
  obtain ⟨ks, hks, h⟩ := Res.bind_eq_ok.1 hfs
  refine mapM'_forall h ?_
  intro k hk' f hf
  obtain ⟨x, hx, hf⟩ := Res.bind_eq_ok.1 hf
  have := (hk _ (filter_member hks membersOnly_isMember hk').1 (filter_member hks membersOnly_isMember hk').2 x hx).1
  cases x with
  | structField g =>
    cases g
    obtain rfl := Res.ok.inj hf
    exact .mk this.here this.inside
  | «enum» g =>
    cases g
    obtain rfl := Res.ok.inj hf
    exact enumToField_inn S ⟨.mk this.here this.inside, hnm.2.1⟩
  | _ => cases hf

theorem parseChoice_inn (S : Supplies U G K) (hk : KidsFine K c) {e} (h : parseChoice c = .ok e) : Deep (Inn K) e := by
  obtain ⟨ks, hks, h⟩ := Res.bind_eq_ok.1 h
  obtain ⟨cs, hcs, h⟩ := Res.bind_eq_ok.1 h
  obtain rfl := Res.ok.inj h
  refine inn_enum S.string ?_ no_kids
  refine mapM'_forall hcs ?_
  intro k hk' f hf
  obtain ⟨x, hx, hf⟩ := Res.bind_eq_ok.1 hf
  obtain ⟨hk1, hk2⟩ := List.mem_filter.1 hk'
  obtain ⟨h1, h2, h3⟩ := typedKids_all hks k hk1
  have := (hk _ h1 (h3 (by rw [(of_decide_eq_true hk2).2]; trivial)) x hx).1
  cases x with
  | enumCase g => obtain rfl := Res.ok.inj hf; exact this.here.1
  | _ => cases hf

theorem struct_noSub {n cm fs ag sub} (h : Deep (Inn K) (.struct (.mk n cm fs ag sub))) : sub = [] := h.here.1.1

theorem finishComplexType_inn (S : Supplies U G K) {nm : Str} {fs : List StructField} {x e : RsEntity} (hnm : Owner K nm)
    (hfs : ∀ f ∈ fs, Deep (Inn K) (.structField f)) (hx : Deep (Inn K) x)
    (h : finishComplexType c nm fs x = .ok e) : Deep (Inn K) e := by
  cases x with
  | struct s =>
    obtain ⟨n', cm, fs', ag, sub⟩ := s
    obtain rfl := Res.ok.inj h
    obtain rfl := struct_noSub hx
    refine inn_struct ?_
    intro f hf
    rcases List.mem_append.1 hf with hf | hf
    · exact deep_fields fieldwise_inn hx f hf
    · exact hfs f hf
  | «enum» s =>
    obtain ⟨n', cs, cm, t, sub, src⟩ := s
    obtain ⟨ag, hag, h⟩ := Res.bind_eq_ok.1 h
    obtain rfl := Res.ok.inj h
    refine inn_enum hx.here.1.1 hx.here.1.2 ?_
    intro y hy
    obtain rfl := List.mem_singleton.1 hy
    refine ⟨inn_struct ?_, hnm.1⟩
    intro f hf
    rcases List.mem_append.1 hf with hf | hf
    · exact hfs f hf
    · obtain rfl := List.mem_singleton.1 hf
      exact inn_field (S.fields hnm.2.1) (S.types hnm.2.1)
  | _ => obtain rfl := Res.ok.inj h; exact hx

theorem parseComplexType_inn (S : Supplies U G K) (hc : Around G G c) (hk : KidsFine K c) {e} (h : parseComplexType c = .ok e) :
    Deep (Inn K) e := by
  obtain ⟨nm, hnm, h⟩ := Res.bind_eq_ok.1 h
  have hnm : Owner K nm := by
    obtain ⟨pt, -, hnm⟩ := Res.bind_eq_ok.1 hnm
    split at hnm
    · exact S.name hc.node (unwrap_ok.1 hnm)
    · exact parentName_inn S hc hnm
  obtain ⟨fs, hfs, h⟩ := Res.bind_eq_ok.1 h
  obtain ⟨o, ho, h⟩ := Res.bind_eq_ok.1 h
  have hfs := attributesToFields_inn hk hfs
  cases o with
  | none =>
    obtain ⟨ag, hag, h⟩ := Res.bind_eq_ok.1 h
    obtain rfl := Res.ok.inj h
    exact inn_struct hfs
  | some k =>
    dsimp only at h
    split at h
    · obtain ⟨ag, hag, h⟩ := Res.bind_eq_ok.1 h
      obtain rfl := Res.ok.inj h
      exact inn_struct hfs
    · obtain ⟨x, hx, h⟩ := Res.bind_eq_ok.1 h
      exact finishComplexType_inn S hnm hfs (kid_inn hk membersOnly_complex ho hx) h

theorem parseContent_inn (hk : KidsFine K c) {e} (h : parseContent c = .ok e) : Deep (Inn K) e := by
  obtain ⟨o, ho, h⟩ := Res.bind_eq_ok.1 h
  obtain ⟨k, hk', h⟩ := Res.bind_eq_ok.1 h
  rw [unwrap_ok.1 hk'] at ho
  exact kid_inn hk membersOnly_isMember ho h

theorem enumNamed_setComment {e : RsEntity} {d : Option Str} (h : EnumNamed K e) : EnumNamed K (e.setComment d) := by
  intro x hx
  cases e with
  | «enum» y =>
    have := h y rfl
    cases y
    cases hx
    exact this
  | struct y => cases y; cases hx
  | tupleStruct y => cases y; cases hx
  | «alias» y => cases y; cases hx
  | structField y => cases y; cases hx
  | enumCase y => cases hx
  | «import» y => cases hx

theorem enumNamed_own {e : RsEntity} (h : Own K e) : EnumNamed K e := by
  rintro x rfl
  exact h

theorem parseSimpleType_inn (S : Supplies U G K) (hc : Around G G c) (hkids : c.kids.map Prod.fst = c.node.children)
    (htag : c.node.tag = "simpleType".toList) (hk : KidsFine K c) {e}
    (h : parseSimpleType c = .ok e) : Deep (Inn K) e ∧ ((∀ r ∈ Spec.members c.node, r.tag ≠ "union".toList) → EnumNamed K e) := by
  obtain ⟨pt, -, h⟩ := Res.bind_eq_ok.1 h
  split at h
  · cases h
  · obtain ⟨o, ho, h⟩ := Res.bind_eq_ok.1 h
    obtain ⟨k, hk', h⟩ := Res.bind_eq_ok.1 h
    rw [unwrap_ok.1 hk'] at ho
    obtain ⟨x, hx, h⟩ := Res.bind_eq_ok.1 h
    obtain rfl := Res.ok.inj h
    have := kid_inn hk membersOnly_isMember ho hx
    obtain ⟨h1, h2⟩ := lastKid_member membersOnly_isMember ho
    have hmem : k.1 ∈ Spec.members c.node := mem_members.2 ⟨by rw [← hkids]; exact List.mem_map.2 ⟨k, h1, rfl⟩, h2⟩
    refine ⟨inn_setComment ?_, fun hu => enumNamed_setComment ?_⟩
    · cases hn : attrName c.node with
      | none => exact this
      | some nm => exact (good_setName S (S.name hc.node hn).1 this).1
    · cases hn : attrName c.node with
      | none =>
        refine (hk k h1 h2 x hx).2.1 ?_
        have := S.simple hc.node htag hmem
        have : k.1.tag = "restriction".toList ∨ k.1.tag = "list".toList ∨ k.1.tag = "union".toList := by simpa using this
        rcases this with h | h | h
        · exact .inl h
        · exact .inr h
        · exact absurd h (hu _ hmem)
      | some nm => exact enumNamed_own (good_setName S (S.name hc.node hn).1 this).2

theorem withBase_inn (S : Supplies U G K) (hk : KidsFine K c) {base fs} (hb : K.T base) (hfs : attributesToFields c = .ok fs) :
    ∀ f ∈ fs ++ [baseField c.node base], Deep (Inn K) (.structField f) := by
  intro f hf
  rcases List.mem_append.1 hf with hf | hf
  · exact attributesToFields_inn hk hfs f hf
  · obtain rfl := List.mem_singleton.1 hf
    exact inn_field S.marker hb

theorem derivedWithoutContent_inn {fs e} (hfs : ∀ f ∈ fs, Deep (Inn K) (.structField f))
    (h : derivedWithoutContent c fs = .ok e) : Deep (Inn K) e ∧ EnumNamed K e := by
  obtain ⟨ag, hag, h⟩ := Res.bind_eq_ok.1 h
  obtain rfl := Res.ok.inj h
  exact ⟨inn_struct hfs, fun x h => (by cases h)⟩

theorem derivedWithContent_inn {fs x e} (hfs : ∀ f ∈ fs, Deep (Inn K) (.structField f)) (hx : Deep (Inn K) x)
    (h : derivedWithContent c fs x = .ok e) : Deep (Inn K) e ∧ EnumNamed K e := by
  cases x with
  | struct s =>
    obtain ⟨n', cm, fs', ag, sub⟩ := s
    obtain rfl := Res.ok.inj h
    obtain rfl := struct_noSub hx
    refine ⟨inn_struct ?_, fun x h => (by cases h)⟩
    intro f hf
    rcases List.mem_append.1 hf with hf | hf
    · exact deep_fields fieldwise_inn hx f hf
    · exact hfs f hf
  | _ => exact derivedWithoutContent_inn hfs h

theorem parseExtension_inn (S : Supplies U G K) (hc : Around G G c) (hk : KidsFine K c) {e} (h : parseExtension c = .ok e) :
    Deep (Inn K) e := by
  obtain ⟨t, -, h⟩ := Res.bind_eq_ok.1 h
  split at h
  · obtain ⟨base, hb, h⟩ := Res.bind_eq_ok.1 h
    obtain ⟨fs, hfs, h⟩ := Res.bind_eq_ok.1 h
    exact (derivedWithoutContent_inn (withBase_inn S hk (S.base hc.node (unwrap_ok.1 hb)) hfs) h).1
  · obtain ⟨base, hb, h⟩ := Res.bind_eq_ok.1 h
    obtain ⟨fs, hfs, h⟩ := Res.bind_eq_ok.1 h
    obtain ⟨o, ho, h⟩ := Res.bind_eq_ok.1 h
    have hw := withBase_inn S hk (S.base hc.node (unwrap_ok.1 hb)) hfs
    cases o with
    | none => exact (derivedWithoutContent_inn hw h).1
    | some k =>
      obtain ⟨x, hx, h⟩ := Res.bind_eq_ok.1 h
      exact (derivedWithContent_inn hw (kid_inn hk membersOnly_extension ho hx) h).1
  · cases h

theorem parseRestriction_inn (S : Supplies U G K) (hc : Around G G c) (hk : KidsFine K c) {e}
    (h : parseRestriction U c = .ok e) : Deep (Inn K) e ∧ EnumNamed K e := by
  obtain ⟨t, -, h⟩ := Res.bind_eq_ok.1 h
  split at h
  · obtain ⟨base, hb, h⟩ := Res.bind_eq_ok.1 h
    obtain ⟨fs, hfs, h⟩ := Res.bind_eq_ok.1 h
    obtain ⟨sm, hsm, h⟩ := Res.bind_eq_ok.1 h
    have hb := S.base hc.node (unwrap_ok.1 hb)
    split at h
    · rename_i hsim
      obtain ⟨nm, hnm, h⟩ := Res.bind_eq_ok.1 h
      have hnm := parentName_inn S hc hnm
      obtain rfl := Res.ok.inj h
      refine ⟨inn_enum hb ?_ no_kids, fun x hx => (by cases hx; exact hnm.2.2.1)⟩
      intro cs hcs
      obtain ⟨f, hf, hcs⟩ := List.mem_filterMap.1 hcs
      obtain ⟨ks, hks, hfs⟩ := Res.bind_eq_ok.1 hfs
      obtain rfl := Res.ok.inj hfs
      obtain ⟨ks', hks', hsm⟩ := Res.bind_eq_ok.1 hsm
      obtain rfl := Res.ok.inj (hks'.symm.trans hks)
      obtain ⟨k, hk', hf⟩ := List.mem_filterMap.1 hf
      have hall := List.all_eq_true.1 ((Res.ok.inj hsm).trans hsim.1) k hk'
      obtain ⟨h1, h2, h3⟩ := typedKids_all hks k hk'
      cases hkt : k.1 with
      | facet ft =>
        rw [hkt] at hf h2 h3 hall
        obtain rfl := Option.some.inj hf
        cases ft with
        | enumeration v =>
          obtain rfl := Option.some.inj hcs
          obtain ⟨q1, q2⟩ := enum_type h2
          exact ⟨S.value (hc.kids _ h1 (h3 trivial)) q1 q2 hall, fun t ht => (by cases ht)⟩
        | _ => cases hcs
      | _ => rw [hkt] at hf; cases hf
    · obtain rfl := Res.ok.inj h
      exact ⟨inn_tuple hb no_kids, fun x hx => (by cases hx)⟩
  · cases h
  · obtain ⟨base, hb, h⟩ := Res.bind_eq_ok.1 h
    obtain ⟨fs, hfs, h⟩ := Res.bind_eq_ok.1 h
    obtain ⟨o, ho, h⟩ := Res.bind_eq_ok.1 h
    have hw := withBase_inn S hk (S.base hc.node (unwrap_ok.1 hb)) hfs
    cases o with
    | none => exact derivedWithoutContent_inn hw h
    | some k =>
      obtain ⟨x, hx, h⟩ := Res.bind_eq_ok.1 h
      exact derivedWithContent_inn hw (kid_inn hk membersOnly_restriction ho hx) h
  · cases h

theorem parseList_inn (S : Supplies U G K) (hc : Around G G c) (hkids : c.kids.map Prod.fst = c.node.children)
    (htag : c.node.tag = "list".toList) (hk : KidsFine K c) {e} (h : parseList c = .ok e) : Deep (Inn K) e ∧ EnumNamed K e := by
  unfold parseList at h
  cases ht : c.node.attr "itemType".toList with
  | some t =>
    rw [ht] at h
    obtain rfl := Res.ok.inj h
    exact ⟨inn_tuple (S.item hc.node ht) no_kids, fun x hx => (by cases hx)⟩
  | none =>
    rw [ht] at h
    obtain ⟨k, hk', h⟩ := Res.bind_eq_ok.1 h
    obtain ⟨x, hx, h⟩ := Res.bind_eq_ok.1 h
    obtain ⟨t, ht', h⟩ := Res.bind_eq_ok.1 h
    obtain rfl := Res.ok.inj h
    have hfind := unwrap_ok.1 hk'
    have hp := List.find?_some hfind
    rw [Bool.and_eq_true, decide_eq_true_iff] at hp
    have hm : Member k.1 := ⟨hp.1, by rw [hp.2]; decide⟩
    have hmem : k.1 ∈ Spec.members c.node := mem_members.2
      ⟨by rw [← hkids]; exact List.mem_map.2 ⟨k, List.mem_of_find?_eq_some hfind, rfl⟩, hm⟩
    obtain ⟨this, -, hen⟩ := hk k (List.mem_of_find?_eq_some hfind) hm x hx
    have hen := hen hp.2 fun r hr => S.list hc.node htag ht hmem hp.2 hr
    refine ⟨?_, fun y hy => by cases t; cases hy⟩
    cases x with
    | «enum» g =>
      have := hen g rfl
      cases g
      obtain rfl := Res.ok.inj ht'
      refine inn_tuple (S.types this) ?_
      intro y hy
      obtain rfl := List.mem_singleton.1 hy
      exact ⟨by assumption, this⟩
    | tupleStruct g =>
      obtain rfl := Res.ok.inj ht'
      cases g
      exact .mk this.here this.inside
    | _ => cases ht'

theorem unionSubtypes_inn (S : Supplies U G K) : ∀ {l : List (Res RsEntity)} {i : Nat} {es : List RsEntity},
    (∀ r ∈ l, ∀ e, r = .ok e → Deep (Inn K) e) → unionSubtypes i l = .ok es → ∀ e ∈ es, Good K e ∧ K.D e.name
  | [], i, es, _, h => by
    rw [unionSubtypes] at h
    obtain rfl := Res.ok.inj h
    exact no_kids
  | r :: l, i, es, hl, h => by
    rw [unionSubtypes] at h
    obtain ⟨x, hx, h⟩ := Res.bind_eq_ok.1 h
    obtain ⟨xs, hxs, h⟩ := Res.bind_eq_ok.1 h
    obtain rfl := Res.ok.inj h
    intro e he
    rcases List.mem_cons.1 he with rfl | he
    · exact ⟨good_setName S (S.numbered i).1 (hl r List.mem_cons_self x hx), by rw [deep_name _ rfl]; exact (S.numbered i).1⟩
    · exact unionSubtypes_inn S (fun r hr => hl r (List.mem_cons_of_mem _ hr)) hxs e he

theorem unionCases_inn (S : Supplies U G K) : ∀ {es : List RsEntity} {i : Nat}, (∀ e ∈ es, K.D e.name) → ∀ c ∈ unionCases i es, CaseOk K c
  | [], i, _, c, hc => by rw [unionCases] at hc; cases hc
  | e :: es, i, h, c, hc => by
    rw [unionCases] at hc
    rcases List.mem_cons.1 hc with rfl | hc
    · exact ⟨(S.numbered i).2, fun t ht => by obtain rfl := Option.some.inj ht; exact S.types (h e List.mem_cons_self)⟩
    · exact unionCases_inn S (fun e he => h e (List.mem_cons_of_mem _ he)) c hc

theorem parseUnion_inn (S : Supplies U G K) (hc : Around G G c) (hk : KidsFine K c) {e} (h : parseUnion c = .ok e) : Deep (Inn K) e := by
  obtain ⟨ks, hks, h⟩ := Res.bind_eq_ok.1 h
  obtain ⟨subs, hsubs, h⟩ := Res.bind_eq_ok.1 h
  obtain ⟨fs, hfs, h⟩ := Res.bind_eq_ok.1 h
  have hsubs := unionSubtypes_inn S (fun r hr e he => by
    obtain ⟨k, hk', rfl⟩ := List.mem_map.1 hr
    have hm := filter_member hks membersOnly_simple hk'
    exact (hk _ hm.1 hm.2 e he).1) hsubs
  have hcs : ∀ x ∈ ((c.node.attr "memberTypes".toList).map createEnumCases).getD [] ++ unionCases 0 subs, CaseOk K x := by
    intro x hx
    rcases List.mem_append.1 hx with hx | hx
    · cases hm : c.node.attr "memberTypes".toList with
      | none => rw [hm] at hx; cases hx
      | some v => rw [hm] at hx; exact S.members hc.node hm x hx
    · exact unionCases_inn S (fun e he => (hsubs e he).2) x hx
  dsimp only at h
  split at h
  · obtain rfl := Res.ok.inj h
    exact inn_enum S.string hcs fun x hx => (hsubs x hx).1
  · obtain ⟨nm, hnm, h⟩ := Res.bind_eq_ok.1 h
    obtain rfl := Res.ok.inj h
    refine inn_struct ?_
    intro f hf
    rcases List.mem_append.1 hf with hf | hf
    · exact attributesToFields_inn hk hfs f hf
    · obtain rfl := List.mem_singleton.1 hf
      exact enumToField_inn S ⟨inn_enum S.string hcs fun x hx => (hsubs x hx).1, (parentName_inn S hc hnm).2.1⟩

theorem parsePlace_inn (S : Supplies U G K) (hc : Around G G c)
    (hkids : c.kids.map Prod.fst = c.node.children) (hk : KidsFine K c) {e} (h : parsePlace U c = .ok e) : Fine K c.node e := by
  rw [parsePlace_branch] at h
  obtain ⟨t, ht, h⟩ := Res.bind_eq_ok.1 h
  have hi : ∀ {s : String}, c.node.tag = s.toList → s ∉ ["restriction", "list", "simpleType"] → Deep (Inn K) e → Fine K c.node e := by
    intro s hs hno hd
    have key : ∀ {s' : String}, c.node.tag = s'.toList → s = s' := fun h => String.toList_injective (hs.symm.trans h)
    refine ⟨hd, ?_, ?_⟩
    · rintro (h | h) <;> exact absurd (by rw [key h]; decide) hno
    · intro h; exact absurd (by rw [key h]; decide) hno
  have himp : Res.ok (parseImport c.node) = .ok e → Deep (Inn K) e := fun h => by
    obtain rfl := Res.ok.inj h
    exact .mk ⟨trivial, no_kids⟩ no_kids
  cases t with
  | all => exact hi (tag_of (s := "all") ht) (by decide) (parseSequence_inn S hc hk h)
  | any => obtain rfl := Res.ok.inj h; exact hi (tag_of (s := "any") ht) (by decide) (inn_field S.any S.string)
  | anyAttribute => obtain rfl := Res.ok.inj h; exact hi (tag_of (s := "anyAttribute") ht) (by decide) (inn_field S.anyAttribute S.string)
  | «attribute» => exact hi (tag_of (s := "attribute") ht) (by decide) (parseAttribute_inn S hc hk h)
  | attributeGroup => exact hi (tag_of (s := "attributeGroup") ht) (by decide) (parseAttributeGroup_inn S hc hk h)
  | choice => exact hi (tag_of (s := "choice") ht) (by decide) (parseChoice_inn S hk h)
  | complexContent => exact hi (tag_of (s := "complexContent") ht) (by decide) (parseContent_inn hk h)
  | complexType => exact hi (tag_of (s := "complexType") ht) (by decide) (parseComplexType_inn S hc hk h)
  | element => exact hi (tag_of (s := "element") ht) (by decide) (parseElement_inn S hc hk h)
  | «extension» x => exact hi (ext_tag ht) (by decide) (parseExtension_inn S hc hk h)
  | «import» => exact hi (tag_of (s := "import") ht) (by decide) (himp h)
  | «include» => exact hi (tag_of (s := "include") ht) (by decide) (himp h)
  | list =>
    obtain ⟨h1, h2⟩ := parseList_inn S hc hkids (tag_of (s := "list") ht) hk h
    refine ⟨h1, fun _ => h2, fun h => ?_⟩
    rw [tag_of (s := "list") ht] at h
    exact absurd h (by decide)
  | restriction x =>
    obtain ⟨h1, h2⟩ := parseRestriction_inn S hc hk h
    exact ⟨h1, fun _ => h2, fun _ _ => h2⟩
  | sequence => exact hi (tag_of (s := "sequence") ht) (by decide) (parseSequence_inn S hc hk h)
  | simpleContent => exact hi (tag_of (s := "simpleContent") ht) (by decide) (parseContent_inn hk h)
  | simpleType =>
    have ht := tag_of (s := "simpleType") ht
    obtain ⟨h1, h2⟩ := parseSimpleType_inn S hc hkids ht hk h
    refine ⟨h1, fun h => ?_, fun _ => h2⟩
    rw [ht] at h
    exact absurd h (by decide)
  | union => exact hi (tag_of (s := "union") ht) (by decide) (parseUnion_inn S hc hk h)
  | _ => cases h

end

/-- The names in what `parse_node` yields. -/
theorem parseNode_inn {G : Node → Prop} {U : UnicodeTable} (S : Supplies U G K) {n p : Node} {above : List Node}
    {e : RsEntity} (hn : G n) (hp : G p) (ha : ∀ a ∈ above, G a) (h : parseNode U n p above = .ok e) : Fine K n e :=
  parse_ind (P := fun n _ e => Fine K n e) S.hered (fun _ h => h)
    (fun _ hkids hc hk _ h => parsePlace_inn S hc hkids hk h) n p above e hn hp ha h

end Verif.Lemmas.Syn
