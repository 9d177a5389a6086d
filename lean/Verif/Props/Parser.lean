import Verif.Lemmas.ParseSchema
import Verif.Lemmas.ParseComplex

/-! # C40–C43, C46–C48: what the parser makes of the elements of a schema -/

namespace Verif.Props

open Verif Verif.Model Verif.Spec Verif.RoXml Verif.Lemmas Verif.Lemmas.Parse

/-- An element for examples. -/
abbrev el (tag : String) (attrs : List (String × String)) (cs : List Node) : Node :=
  .element (some xsdUri) tag.toList (attrs.map fun a => ⟨none, a.1.toList, a.2.toList⟩) [] cs

private abbrev A := UnicodeTable.ascii

/-! ## C40 -/

/-- **C40** The wrapper of an element, from its occurrences. -/
theorem C40_wrapper (n : Node) (m : TypeModifier) : elementModifier n = m ↔ WrapperOf n m := elementModifier_iff

/-- **C40** The wrapper can hold every legal number of occurrences exactly if the element is not an optional one with
an explicit `maxOccurs` of at most 1. -/
theorem C40_holds_partial {n : Node} {lo : Nat} {hi : Option Nat} (h1 : MinOf n lo) (h2 : MaxOf n hi) :
    (∀ k, LegalCount lo hi k → Holds (elementModifier n) k) ↔
      ¬ (lo = 0 ∧ n.attr "maxOccurs".toList ≠ none ∧ ∃ h, hi = some h ∧ h ≤ 1) := by
  have hlo : MinRead n lo := by
    cases h1 with
    | default h => exact .missing h
    | given h hk => exact .number h hk
  have hw : ∀ {mx m}, MaxRead n mx → WrapperFor lo mx m → elementModifier n = m := fun h w =>
    elementModifier_iff.2 ⟨lo, _, hlo, h, w⟩
  cases h2 with
  | default h =>
    have hno : ¬ (lo = 0 ∧ n.attr "maxOccurs".toList ≠ none ∧ ∃ h, some 1 = some h ∧ h ≤ 1) := fun ⟨_, e, _⟩ => e h
    refine ⟨fun _ => hno, fun _ k hk => ?_⟩
    obtain ⟨hk1, hk2⟩ := hk
    have hk2 : k ≤ 1 := hk2 1 rfl
    rcases Nat.lt_or_ge lo 2 with hl | hl
    · rcases (by omega : lo = 0 ∨ lo = 1) with rfl | rfl
      · rw [hw (.missing h) .optional]; exact hk2
      · rw [hw (.missing h) .single]; show k = 1; omega
    · rw [hw (.missing h) (.many hl)]; trivial
  | unbounded h =>
    have hno : ¬ (lo = 0 ∧ n.attr "maxOccurs".toList ≠ none ∧ ∃ h, none = some h ∧ h ≤ 1) := fun ⟨_, _, _, e, _⟩ =>
      (nomatch e)
    refine ⟨fun _ => hno, fun _ k _ => ?_⟩
    rw [hw (.unbounded h) .unbounded]
    trivial
  | @given s mx h hk =>
    have hr : MaxRead n (.bounded mx) := .number h hk
    by_cases hm : 2 ≤ mx
    · have hno : ¬ (lo = 0 ∧ n.attr "maxOccurs".toList ≠ none ∧ ∃ h, some mx = some h ∧ h ≤ 1) := by
        rintro ⟨_, _, h, e, hle⟩
        have := Option.some.inj e
        omega
      refine ⟨fun _ => hno, fun _ k _ => ?_⟩
      rw [hw hr (.bounded hm)]
      trivial
    · by_cases hl : 2 ≤ lo
      · refine ⟨fun _ ⟨e, _⟩ => by omega, fun _ k _ => ?_⟩
        rw [hw hr (.many hl)]
        trivial
      · rw [hw hr (.atMostOne (by omega) (by omega))]
        constructor
        · rintro hall ⟨rfl, -⟩
          have : (0 : Nat) = 1 := hall 0 ⟨by omega, fun _ _ => by omega⟩
          omega
        · intro hno k ⟨hk1, hk2⟩
          have hk2 : k ≤ mx := hk2 mx rfl
          show k = 1
          by_cases h0 : lo = 0
          · exact absurd ⟨h0, by rw [h]; exact fun e => (nomatch e), mx, rfl, by omega⟩ hno
          · omega

example : ∃ n, MinOf n 0 ∧ MaxOf n none ∧ elementModifier n = .array :=
  ⟨el "element" [("minOccurs", "0"), ("maxOccurs", "unbounded")] [],
    .given rfl (parse_u64.1 (by decide)), .unbounded (by decide), by decide⟩

/-- **C40** `Option` is used for nothing but at most one occurrence: what it can hold is legal. -/
theorem C40_option {n : Node} {lo : Nat} {hi : Option Nat} (h1 : MinOf n lo) (h2 : MaxOf n hi)
    (h : elementModifier n = .option) (k : Nat) : Holds .option k ↔ LegalCount lo hi k := by
  obtain ⟨l, mx, hl, hm, w⟩ := elementModifier_iff.1 h
  cases w
  have hlo : lo = 0 := by
    cases h1 with
    | default h' => cases hl with
      | number h2 => rw [h'] at h2; cases h2
    | given h' hk => cases hl with
      | number h2 hk2 => rw [h'] at h2; cases h2; exact u64_unique hk hk2
  have hhi : hi = some 1 := by
    cases h2 with
    | default h' => rfl
    | given h' hk => cases hm with
      | missing h2 => rw [h'] at h2; cases h2
      | unreadable h2 _ h3 => rw [h'] at h2; cases h2; exact absurd hk (h3 _)
    | unbounded h' => cases hm with
      | missing h2 => rw [h'] at h2; cases h2
      | unreadable h2 h3 _ => rw [h'] at h2; exact absurd (Option.some.inj h2).symm h3
  subst hlo hhi
  exact ⟨fun h => ⟨Nat.zero_le _, fun x e => by cases e; exact h⟩, fun h => h.2 1 rfl⟩

example : elementModifier (el "element" [("minOccurs", "0")] []) = .option := by decide

/-- **C40** (violated) An optional element with `maxOccurs="1"` gets a mandatory field. -/
theorem C40_violated : ∃ n, MinOf n 0 ∧ MaxOf n (some 1) ∧ LegalCount 0 (some 1) 0 ∧ ¬ Holds (elementModifier n) 0 := by
  refine ⟨el "element" [("minOccurs", "0"), ("maxOccurs", "1")] [], .given rfl (parse_u64.1 (by decide)),
    .given rfl (parse_u64.1 (by decide)), ⟨Nat.le_refl _, fun _ _ => Nat.zero_le _⟩, ?_⟩
  have : elementModifier (el "element" [("minOccurs", "0"), ("maxOccurs", "1")] []) = .none := by decide
  rw [this]
  exact fun h => by cases h

/-- **C40** (violated) Numbers with spaces around them, which XML Schema permits, and numbers beyond 64 bits are
ignored. -/
theorem C40_numbers_violated :
    elementModifier (el "element" [("minOccurs", " 0 ")] []) = .none ∧
    elementModifier (el "element" [("maxOccurs", " unbounded ")] []) = .none ∧
    elementModifier (el "element" [("maxOccurs", "18446744073709551616")] []) = .none := by decide

/-- **C40** (violated) The occurrences of a choice are ignored: its field has no wrapper. -/
theorem C40_choice_violated {Inline : Node → RsEntity → Prop} {owner : Str} {c : Node} {f : StructField}
    (hc : c.tag = "choice".toList) (h : MemberField Inline owner c f) : f.typeModifiers = [] := by
  cases h with
  | typed h => exact absurd (hc.symm.trans h) (by decide)
  | ref h => exact absurd (hc.symm.trans h) (by decide)
  | inline h => exact absurd (hc.symm.trans h) (by decide)
  | any h => exact absurd (hc.symm.trans h) (by decide)
  | choice => rfl

/-! ## C41 -/

/-- **C41** A sequence (or `all`) is parsed exactly if each of its members has a field; the fields are in the order of
the members. -/
theorem C41_sequence {U : UnicodeTable} {n p : Node} {above : List Node} {e : RsEntity}
    (hn : n.tag = "sequence".toList ∨ n.tag = "all".toList) (hm : ∀ c ∈ members n, SequenceMember c)
    (ha : ∀ a ∈ p :: above, NotFacet a) :
    parseNode U n p above = .ok e ↔ ∃ owner fields, OwnerName (p :: above) owner ∧ Readable n ∧
      List.Forall₂ (fun c f => MemberField (fun t e => parseNode U t c (n :: p :: above) = .ok e) owner c f)
        (members n) fields ∧ e = .struct (.mk owner (docOf p) fields [] []) :=
  sequence_iff hn hm ha

example : parseNode A
    (el "sequence" [] [.text [' '], el "element" [("name", "a"), ("type", "xs:int")] [], .other,
      el "any" [] [], el "choice" [] [el "element" [("name", "b"), ("type", "T")] []]])
    (el "complexType" [("name", "T")] []) [el "schema" [] []] =
  .ok (.struct (.mk ['T'] none
    [.mk ['a'] "xs:int".toList none [] .element [.none],
     .mk "any".toList "String".toList none [] .element [.empty],
     .mk "TChoice".toList "TChoice".toList none
       [.enum (.mk "TChoice".toList [⟨['b'], none, [], some ['T'], [.none], .choice⟩] none "String".toList [] .choice)]
       .element []] [] [])) := rfl

/-- **C41** One field for each member: nothing is dropped. -/
theorem C41_count {U : UnicodeTable} {n p : Node} {above : List Node} {s : RStruct}
    (hn : n.tag = "sequence".toList ∨ n.tag = "all".toList) (h : parseNode U n p above = .ok (.struct s)) :
    s.fields.length = (members n).length := by
  have : parseSequence (placeOf U n p above) = .ok (.struct s) := by
    rcases hn with hn | hn
    · rw [parseNode_tag (s := "sequence") (t := .sequence) (by decide) hn] at h; exact h
    · rw [parseNode_tag (s := "all") (t := .all) (by decide) hn] at h; exact h
  obtain ⟨owner, fields, -, -, h2, h3⟩ := parseSequence_iff.1 this
  obtain rfl := RsEntity.struct.inj h3
  exact h2.length_eq.symm

/-- **C41** The members which are refused: a sequence with a nested sequence, a reference to a group, or a local
element which has neither a type nor an inline one. -/
theorem C41_refused {U : UnicodeTable} {n p c : Node} {above : List Node}
    (hn : n.tag = "sequence".toList ∨ n.tag = "all".toList) (ha : ∀ a ∈ p :: above, NotFacet a)
    (hm : ∀ c ∈ members n, SequenceMember c) (hc : c ∈ members n)
    (hbad : c.tag = "sequence".toList ∨ c.tag = "group".toList ∨
      (c.tag = "element".toList ∧ c.attr "type".toList = none ∧ c.attr "ref".toList = none ∧
        withTags c ["simpleType", "complexType"] = [])) :
    parseNode U n p above = .panic := by
  rw [panic_iff]
  intro e he
  obtain ⟨owner, fields, -, -, h, -⟩ := (sequence_iff hn hm ha).1 he
  have : ∃ f, MemberField (fun t e => parseNode U t c (n :: p :: above) = .ok e) owner c f := by
    clear hm he
    generalize members n = l at h hc
    induction h with
    | nil => cases hc
    | cons h1 h2 ih =>
      rcases List.mem_cons.1 hc with rfl | hc
      · exact ⟨_, h1⟩
      · exact ih hc
  obtain ⟨f, hf⟩ := this
  rcases hbad with hb | hb | ⟨hb, h1, h2, h3⟩
  · cases hf with
    | typed h => exact absurd (hb.symm.trans h) (by decide)
    | ref h => exact absurd (hb.symm.trans h) (by decide)
    | inline h => exact absurd (hb.symm.trans h) (by decide)
    | any h => exact absurd (hb.symm.trans h) (by decide)
    | choice h => exact absurd (hb.symm.trans h) (by decide)
  · cases hf with
    | typed h => exact absurd (hb.symm.trans h) (by decide)
    | ref h => exact absurd (hb.symm.trans h) (by decide)
    | inline h => exact absurd (hb.symm.trans h) (by decide)
    | any h => exact absurd (hb.symm.trans h) (by decide)
    | choice h => exact absurd (hb.symm.trans h) (by decide)
  · cases hf with
    | typed _ _ h => rw [h1] at h; cases h
    | ref _ _ h => rw [h2] at h; cases h
    | inline _ _ _ _ h => rw [h3] at h; cases h
    | any h => exact absurd (hb.symm.trans h) (by decide)
    | choice h => exact absurd (hb.symm.trans h) (by decide)

/-- **C41** (violated) A local element without a type is legal (its type is `anyType`), but the parser panics. -/
theorem C41_untyped_violated :
    parseNode A (el "sequence" [] [el "element" [("name", "a")] []]) (el "complexType" [("name", "T")] []) [] =
      .panic := rfl

/-- **C41** (violated) An inline type of an element in a choice is lost: the variant has no type. -/
theorem C41_choice_violated {c : Node} {k : EnumCase} (h : ChoiceCase c k) (hr : c.attr "ref".toList = none)
    (ht : c.attr "type".toList = none) : k.typeName = none := by
  cases h with
  | ref h => rw [hr] at h; cases h
  | named => exact ht

/-! ## C42 -/

/-- **C42** The field for a local attribute. -/
theorem C42_attribute {U : UnicodeTable} {n p : Node} {above : List Node} {e : RsEntity}
    (hn : n.tag = "attribute".toList) (hp : p.tag ≠ "schema".toList) (hf : NotFacet p) :
    parseNode U n p above = .ok e ↔ ∃ f, AttributeField n f ∧ e = .structField f := attribute_iff hn hp hf

example : parseNode A (el "attribute" [("name", "a"), ("type", "xs:int"), ("use", "required")] [])
    (el "complexType" [] []) [] = .ok (.structField (.mk ['a'] "xs:int".toList none [] .attribute [.none])) := rfl

/-- **C42** (violated) The inline type of a local attribute is ignored; the field is a `String`. -/
theorem C42_inline_violated : ∃ n, withTags n ["simpleType"] ≠ [] ∧
    parseNode A n (el "complexType" [] []) [] =
      .ok (.structField (.mk ['a'] "String".toList none [] .attribute [.option])) :=
  ⟨el "attribute" [("name", "a")] [el "simpleType" [] [el "restriction" [("base", "xs:int")] []]],
    by unfold withTags; exact fun h => (by cases h), rfl⟩

/-! ## C43 -/

/-- **C43** A schema gives one entity for each global declaration and, apart from these, one for each attribute group,
all in their order. -/
theorem C43_schema {U : UnicodeTable} {n : Node} {above : List Node} {f : RsFile} :
    parseSchema U n above = .ok f ↔ Readable n ∧ ∃ types groups,
      List.Forall₂ (fun c e => parseNode U c n above = .ok e) (globals n) types ∧
      List.Forall₂ (fun c e => parseNode U c n above = .ok e) (withTags n ["attributeGroup"]) groups ∧
      f = ⟨[], none, types, groups, targetNamespace n, xsdNamespace n⟩ := schema_iff

example : parseSchema A (el "schema" [] [el "annotation" [] [], el "element" [("name", "a"), ("type", "T")] [],
    el "attributeGroup" [("name", "G")] [], el "complexType" [("name", "T")] []]) [] =
  .ok ⟨[], none, [.alias (.mk ['a'] ['T'] none []), .struct (.mk ['T'] none [] [] [])],
    [.struct (.mk ['G'] none [] [] [])], none, none⟩ := rfl

/-- **C43** A global element. -/
theorem C43_element {U : UnicodeTable} {n p : Node} {above : List Node} {e : RsEntity}
    (hn : n.tag = "element".toList) (hp : p.tag = "schema".toList) :
    parseNode U n p above = .ok e ↔
      Global (fun c x => parseNode U c n (p :: above) = .ok x) ["simpleType", "complexType"] n (docOf n) e :=
  globalElement_iff hn hp

/-- **C43** A global attribute. -/
theorem C43_attribute {U : UnicodeTable} {n p : Node} {above : List Node} {e : RsEntity}
    (hn : n.tag = "attribute".toList) (hp : p.tag = "schema".toList) (hr : n.attr "ref".toList = none) :
    parseNode U n p above = .ok e ↔
      Global (fun c x => parseNode U c n (p :: above) = .ok x) ["simpleType"] n none e :=
  globalAttribute_iff hn hp hr

/-- **C43** A global attribute group. -/
theorem C43_attributeGroup {U : UnicodeTable} {n p : Node} {above : List Node} {e : RsEntity}
    (hn : n.tag = "attributeGroup".toList) (hp : p.tag = "schema".toList) :
    parseNode U n p above = .ok e ↔ Readable n ∧ ∃ nm fs, n.attr "name".toList = some nm ∧ AttrFields n fs ∧
      e = .struct (.mk nm none fs [] []) := globalGroup_iff hn hp

/-- **C43** A complex type, global or inline. -/
theorem C43_complexType {U : UnicodeTable} {n p : Node} {above : List Node} {e : RsEntity}
    (hn : n.tag = "complexType".toList) (ha : ∀ a ∈ p :: above, NotFacet a) :
    parseNode U n p above = .ok e ↔
      ComplexType (fun c x => parseNode U c n (p :: above) = .ok x) n p above e := complexType_iff hn ha

example : parseNode A (el "complexType" [("name", "T")] [el "choice" [] [el "element" [("name", "a"), ("type", "X")] []],
    el "attribute" [("name", "b")] []]) (el "schema" [] []) [] =
  .ok (.enum (.mk "TChoice".toList [⟨['a'], none, [], some ['X'], [.none], .choice⟩] none "String".toList
    [.struct (.mk ['T'] none [.mk ['b'] "String".toList none [] .attribute [.option],
      .mk "TChoice".toList "TChoice".toList none [] .choice []] [] [])] .choice)) := rfl

/-- **C43** The entity of a global element or attribute has the declared name. -/
theorem C43_declared_name {Inline : Node → RsEntity → Prop} {types : List String} {n : Node} {doc : Option Str}
    {e : RsEntity} (h : Global Inline types n doc e) : n.attr "name".toList = some e.name := by
  cases h with
  | typed h => exact h
  | inline h _ _ _ _ hr =>
    rw [renamed_iff.1 hr, setName_name]
    exact h
  | empty h => exact h

/-- **C43** The entity of a global complex type has the declared name, if it is a struct; the enum for a choice has
this name with `Choice` appended, and a struct of the declared name inside. -/
theorem C43_type_name {Inline : Node → RsEntity → Prop} {n p : Node} {above : List Node} {e : RsEntity} {nm : Str}
    (hp : p.tag = "schema".toList) (hn : n.attr "name".toList = some nm) (h : ComplexType Inline n p above e) :
    (∀ s, e = .struct s → s.name = nm) ∧
    (∀ s, e = .enum s → s.name = nm ++ "Choice".toList ∧ ∃ t, s.subtypes = [.struct t] ∧ t.name = nm) := by
  have hty : ∀ {x}, TypeName n p above x → x = nm := fun h => by
    cases h with
    | global _ h => rw [hn] at h; exact (Option.some.inj h).symm
    | inline h => exact absurd hp h
  cases h with
  | plain h =>
    obtain rfl := hty h
    exact ⟨fun s e => by cases e; rfl, fun s e => (by cases e)⟩
  | content h _ _ _ _ _ hc =>
    obtain rfl := hty h
    cases hc with
    | struct => exact ⟨fun s e => by cases e; rfl, fun s e => (by cases e)⟩
    | «enum» =>
      refine ⟨fun s e => (by cases e), fun s e => ?_⟩
      obtain rfl := RsEntity.enum.inj e
      exact ⟨rfl, _, rfl, rfl⟩
    | other h1 h2 => exact ⟨fun s e => absurd e (h1 s), fun s e => absurd e (h2 s)⟩

/-- **C43** (violated) A global element whose inline type is a choice: the enum is renamed to the name of the element,
but the struct inside still refers to it by its old name. -/
theorem C43_choice_element_violated :
    parseNode A (el "element" [("name", "E")] [el "complexType" []
      [el "choice" [] [el "element" [("name", "a"), ("type", "X")] []]]]) (el "schema" [] []) [] =
    .ok (.enum (.mk ['E'] [⟨['a'], none, [], some ['X'], [.none], .choice⟩] none "String".toList
      [.struct (.mk ['E'] none [.mk "EChoice".toList "EChoice".toList none [] .choice []] [] [])] .choice)) := rfl

/-- **C43** (violated) Some kinds of top-level elements (`group`, `notation`, `redefine`) make the parser panic. -/
theorem C43_group_violated : parseNode A (el "group" [("name", "G")] [el "sequence" [] []]) (el "schema" [] []) [] =
    .panic ∧ parseNode A (el "notation" [("name", "N")] []) (el "schema" [] []) [] = .panic ∧
    parseNode A (el "redefine" [] []) (el "schema" [] []) [] = .panic := ⟨rfl, rfl, rfl⟩

/-! ## C46 -/

/-- **C46** What the restriction in a simple type gives. -/
theorem C46_restriction {U : UnicodeTable} {n p : Node} {above : List Node} {e : RsEntity}
    (hn : n.tag = "restriction".toList) (hp : p.tag = "simpleType".toList) (ha : ∀ a ∈ p :: above, NotFacet a) :
    parseNode U n p above = .ok e ↔ ∃ base fs, n.attr "base".toList = some base ∧ FacetsOf n.tag n.children fs ∧
      RestrictionOf U (p :: above) base fs e := restriction_iff hn hp ha

/-- **C46** What a simple type gives: the entity of its content, with its name and documentation. -/
theorem C46_simpleType {U : UnicodeTable} {n p : Node} {above : List Node} {e : RsEntity}
    (hn : n.tag = "simpleType".toList) (ha : NotFacet p) :
    parseNode U n p above = .ok e ↔ (p.tag = "schema".toList ↔ (n.attr "name".toList).isSome = true) ∧ Readable n ∧
      ∃ c x y, (members n).getLast? = some c ∧ parseNode U c n (p :: above) = .ok x ∧
        RenamedIf (n.attr "name".toList) x y ∧ Redocumented (docOf n) y e := simpleType_iff hn ha

example : parseNode A (el "simpleType" [("name", "C")] [el "restriction" [("base", "xs:string")]
    [el "enumeration" [("value", "a-1")] [], el "enumeration" [("value", "b")] []]]) (el "schema" [] []) [] =
  .ok (.enum (.mk ['C'] [⟨"a-1".toList, none, "a-1".toList, none, [], .restriction⟩,
    ⟨['b'], none, ['b'], none, [], .restriction⟩] none "xs:string".toList [] .restriction)) := rfl

example : parseNode A (el "simpleType" [("name", "C")] [el "restriction" [("base", "xs:string")]
    [el "enumeration" [("value", "a b")] [], el "maxLength" [("value", "7")] []]]) (el "schema" [] []) [] =
  .ok (.tupleStruct (.mk ['C'] none "xs:string".toList [] []
    [⟨.enumeration "a b".toList, none⟩, ⟨.maxLength ['7'], none⟩])) := rfl

/-- **C46** (violated) A restriction of an inline type has no `base`; the parser panics. -/
theorem C46_inline_base_violated : parseNode A (el "simpleType" [("name", "C")] [el "restriction" []
    [el "simpleType" [] [el "restriction" [("base", "xs:string")] []]]]) (el "schema" [] []) [] = .panic := rfl

/-- **C46** A list. -/
theorem C46_list {U : UnicodeTable} {n p : Node} {above : List Node} {e : RsEntity} (hn : n.tag = "list".toList) :
    parseNode U n p above = .ok e ↔
      (∃ t, n.attr "itemType".toList = some t ∧ e = .tupleStruct (.mk [] none t [] [.array] [])) ∨
      (n.attr "itemType".toList = none ∧ ∃ c x, (withTags n ["simpleType"]).head? = some c ∧
        parseNode U c n (p :: above) = .ok x ∧ ListOf x e) := list_iff hn

/-- **C46** (violated) The facets of the items of a list are kept as facets of the list. -/
theorem C46_list_violated : parseNode A (el "list" [] [el "simpleType" [] [el "restriction" [("base", "xs:string")]
    [el "maxLength" [("value", "7")] []]]]) (el "simpleType" [("name", "C")] []) [] =
    .ok (.tupleStruct (.mk [] none "xs:string".toList [] [.array] [⟨.maxLength ['7'], none⟩])) := rfl

/-! ## C47 -/

/-- **C47** What a union gives. -/
theorem C47_union {U : UnicodeTable} {n p : Node} {above : List Node} {e : RsEntity} (hn : n.tag = "union".toList)
    (hattr : withTags n ["attribute", "anyAttribute"] = []) :
    parseNode U n p above = .ok e ↔ Readable n ∧ ∃ ws subs, MemberTypes n ws ∧
      List.Forall₂ (fun c s => ∃ x, parseNode U c.1 n (p :: above) = .ok x ∧
        Renamed ("EnumCaseType_".toList ++ numeral c.2) x s) (withTags n ["simpleType"]).zipIdx subs ∧
      e = .enum (.mk [] (unionCasesOf ws subs.length) (docOf n) "String".toList subs .union) := union_iff hn hattr

example : parseNode A (el "union" [("memberTypes", " a  x:b")] [el "simpleType" [] [el "list" [("itemType", "c")] []]])
    (el "simpleType" [("name", "C")] []) [] =
  .ok (.enum (.mk [] [⟨['a'], none, [], some ['a'], [], .union⟩, ⟨"x:b".toList, none, [], some "x:b".toList, [], .union⟩,
    ⟨"EnumCase_0".toList, none, [], some "EnumCaseType_0".toList, [], .union⟩] none "String".toList
    [.tupleStruct (.mk "EnumCaseType_0".toList none ['c'] [] [.array] [])] .union)) := rfl

/-- **C47** (violated) Only spaces separate the names in `memberTypes`; XML permits a tab or a line feed, given as a
character reference, too. -/
theorem C47_separator_violated : SpaceSeparated "a\tb".toList ["a\tb".toList] :=
  .last (by decide) (by decide)

/-! ## C48 -/

/-- `x` is the first of the list with this property. -/
def FirstSuch {α : Type} (P : α → Prop) (l : List α) (x : α) : Prop :=
  P x ∧ ∃ pre post, l = pre ++ x :: post ∧ ∀ y ∈ pre, ¬ P y

theorem find?_iff {α : Type} {P : α → Prop} [DecidablePred P] {l : List α} {x : α} :
    l.find? (fun a => P a) = some x ↔ FirstSuch P l x := by
  rw [List.find?_eq_some_iff_append]
  unfold FirstSuch
  simp only [decide_eq_true_eq, Bool.not_eq_eq_eq_not, Bool.not_true, decide_eq_false_iff_not]

/-- **C48** The target namespace is the first declared one with the URI given by `targetNamespace`. -/
theorem C48_target (n : Node) (x : Namespace) : targetNamespace n = some x ↔
    ∃ uri, n.attr "targetNamespace".toList = some uri ∧ FirstSuch (fun a : Namespace => a.uri = uri) n.namespaces x := by
  unfold targetNamespace
  cases n.attr "targetNamespace".toList with
  | none => exact ⟨fun h => (by cases h), fun ⟨_, h, _⟩ => (by cases h)⟩
  | some uri =>
    dsimp only
    rw [find?_iff]
    exact ⟨fun h => ⟨uri, rfl, h⟩, fun ⟨_, e, h⟩ => by cases e; exact h⟩

/-- **C48** The namespace of XML Schema is the first one with a prefix which has its URI, or, if there is no such prefix,
the default namespace. -/
theorem C48_xsd (n : Node) (x : Namespace) : xsdNamespace n = some x ↔
    FirstSuch (fun a : Namespace => a.uri = "http://www.w3.org/2001/XMLSchema".toList ∧ a.name ≠ none) n.namespaces x ∨
    ((∀ a ∈ n.namespaces, a.uri = "http://www.w3.org/2001/XMLSchema".toList → a.name = none) ∧
      FirstSuch (fun a : Namespace => a.uri = "http://www.w3.org/2001/XMLSchema".toList) n.namespaces x) := by
  unfold xsdNamespace xsdUri
  generalize "http://www.w3.org/2001/XMLSchema".toList = uri
  dsimp only
  have h1 : (n.namespaces.filter fun a => decide (a.uri = uri)).find? (fun a => a.name.isSome) =
      n.namespaces.find? fun a => decide (a.uri = uri ∧ a.name ≠ none) := by
    rw [List.find?_filter]
    congr 1
    funext a
    cases h : a.name <;> simp
  have h2 : (n.namespaces.filter fun a => decide (a.uri = uri)).head? =
      n.namespaces.find? fun a => decide (a.uri = uri) := by
    rw [List.head?_filter]
  rw [h1, h2]
  cases hf : n.namespaces.find? fun a => decide (a.uri = uri ∧ a.name ≠ none) with
  | none =>
    have hno := List.find?_eq_none.1 hf
    rw [Option.none_or, find?_iff]
    constructor
    · intro h
      refine .inr ⟨fun a ha hu => ?_, h⟩
      have := hno a ha
      simpa [hu] using this
    · rintro (⟨⟨h, h'⟩, pre, post, e, -⟩ | h)
      · have := hno x (by rw [e]; simp)
        exact absurd (decide_eq_true ⟨h, h'⟩) this
      · exact h.2
  | some y =>
    have hy := find?_iff.1 hf
    rw [Option.some_or]
    constructor
    · intro h
      obtain rfl := Option.some.inj h
      exact .inl hy
    · rintro (h | ⟨h, -⟩)
      · exact hf.symm.trans (find?_iff.2 h)
      · obtain ⟨⟨hu, hn⟩, pre, post, e, -⟩ := hy
        exact absurd (h y (by rw [e]; simp) hu) hn

example : xsdNamespace (.element none "schema".toList [] [⟨none, xsdUri⟩, ⟨some "t".toList, "u".toList⟩,
    ⟨some "xs".toList, xsdUri⟩] []) = some ⟨some "xs".toList, xsdUri⟩ := by decide

/-- **C48** (violated) With two prefixes for the namespace of XML Schema, or with a prefix and the default namespace,
only one of them is recognised in the names of built-in types. -/
theorem C48_second_prefix_violated : ∃ n : Node, ∃ a ∈ n.namespaces, a.uri = xsdUri ∧ a.name = some "xsd".toList ∧
    matchBuiltInType "xsd:int".toList (xsdNamespace n) = none ∧
    matchBuiltInType "xs:int".toList (xsdNamespace n) = some "i32".toList :=
  ⟨.element none "schema".toList [] [⟨some "xs".toList, xsdUri⟩, ⟨some "xsd".toList, xsdUri⟩] [],
    ⟨some "xsd".toList, xsdUri⟩, by decide, rfl, rfl, by decide, by decide⟩

end Verif.Props
