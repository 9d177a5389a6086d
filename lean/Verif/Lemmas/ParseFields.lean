import Verif.Lemmas.ParseOccurs

/-! # What `parse_node` gives for elements, attributes, sequences and choices -/

namespace Verif.Lemmas.Parse

open Verif Verif.Model Verif.RoXml Verif.Spec

/-- The branches of `parse_node`. -/
def branch (U : UnicodeTable) (c : Place) : ElementType → Res RsEntity
  | .all => parseSequence c
  | .any => .ok (parseAny c.node)
  | .anyAttribute => .ok (parseAnyAttribute c.node)
  | .attribute => parseAttribute c
  | .attributeGroup => parseAttributeGroup c
  | .choice => parseChoice c
  | .complexContent => parseContent c
  | .complexType => parseComplexType c
  | .element => parseElement c
  | .extension _ => parseExtension c
  | .import => .ok (parseImport c.node)
  | .include => .ok (parseImport c.node)
  | .list => parseList c
  | .restriction _ => parseRestriction U c
  | .sequence => parseSequence c
  | .simpleContent => parseContent c
  | .simpleType => parseSimpleType c
  | .union => parseUnion c
  | _ => .panic

theorem parsePlace_branch (U : UnicodeTable) (c : Place) : parsePlace U c = c.type.bind (branch U c) := by
  unfold parsePlace
  congr 1

theorem parseNode_of {U : UnicodeTable} {n p : Node} {above : List Node} {t : ElementType} (h : KindOf (some p.tag) n t) :
    parseNode U n p above = branch U (placeOf U n p above) t := by
  rw [parseNode_eq, parsePlace_branch, show (placeOf U n p above).type = xsdType (some p.tag) n from rfl, kind_xsdType h]
  rfl

theorem parseNode_tag {U : UnicodeTable} {n p : Node} {above : List Node} {s : String} {t : ElementType}
    (h : (s, t) ∈ plainTags) (ht : n.tag = s.toList) : parseNode U n p above = branch U (placeOf U n p above) t :=
  parseNode_of (.plain h ht)

theorem parentType_tag {U : UnicodeTable} {n p : Node} {above : List Node} {s : String} {t : ElementType}
    (h : (s, t) ∈ plainTags) (ht : p.tag = s.toList) : (placeOf U n p above).parentType = .ok t :=
  (type_iff h).2 ht

theorem kind_total {p : Option Str} {n : Node} (h : NotFacet n) : ∃ t, KindOf p n t := by
  by_cases hk : ∀ s ∈ knownTags, n.tag ≠ s.toList
  · exact ⟨_, .unknown hk⟩
  · simp only [not_forall, Classical.not_not] at hk
    obtain ⟨s, hs, ht⟩ := hk
    unfold knownTags at hs
    rcases List.mem_append.1 hs with hs | hs
    · rcases List.mem_append.1 hs with hs | hs
      · obtain ⟨r, hr, rfl⟩ := List.mem_map.1 hs
        exact ⟨_, .plain hr ht⟩
      · obtain ⟨r, hr, rfl⟩ := List.mem_map.1 hs
        exact absurd ht (h.2 r hr)
    · rcases List.mem_cons.1 hs with rfl | hs
      · exact absurd ht h.1
      · rcases List.mem_cons.1 hs with rfl | hs
        · exact ⟨_, extensionType_kind ht⟩
        · obtain rfl := List.mem_singleton.1 hs
          exact ⟨_, restrictionType_kind ht⟩

theorem ownerName_iff : ∀ {l : List Node} {s : Str}, (∀ a ∈ l, NotFacet a) → (getParentName l = .ok s ↔ OwnerName l s)
  | [], s, _ => ⟨getParentName_ok, fun h => by cases h; rfl⟩
  | p :: above, s, hf => by
    refine ⟨getParentName_ok, fun h => ?_⟩
    rw [getParentName]
    obtain ⟨t, ht⟩ := kind_total (p := above.head?.map Node.tag) (hf p List.mem_cons_self)
    rw [kind_xsdType ht]
    show (if t = .schema then _ else _) = _
    have hs : t = .schema ↔ p.tag = "schema".toList := by
      constructor
      · rintro rfl; exact (plain_iff (s := "schema") (by decide)).1 ht
      · intro e
        have := (plain_iff (s := "schema") (t := .schema) (by decide) (p := above.head?.map Node.tag)).2 e
        exact Res.ok.inj ((kind_xsdType ht).symm.trans (kind_xsdType this))
    cases h with
    | schema h => rw [if_pos (hs.2 h)]
    | named h ha => rw [if_neg (fun e => h (hs.1 e))]; unfold attrName; rw [ha]
    | up h ha ho =>
      rw [if_neg (fun e => h (hs.1 e))]; unfold attrName; rw [ha]
      exact (ownerName_iff fun a hm => hf a (List.mem_cons_of_mem _ hm)).2 ho

theorem renamed_iff {nm : Str} {e e' : RsEntity} : Renamed nm e e' ↔ e' = e.setName nm := by
  constructor
  · intro h; cases h <;> rfl
  · rintro rfl
    match e with
    | .struct (.mk ..) => exact .struct
    | .tupleStruct (.mk ..) => exact .tupleStruct
    | .enum (.mk ..) => exact .enum
    | .enumCase ⟨_, _, _, _, _, _⟩ => exact .enumCase
    | .alias (.mk ..) => exact .alias
    | .structField (.mk ..) => exact .structField
    | .import ⟨_, _, _⟩ => exact .import

theorem setName_name (nm : Str) (e : RsEntity) : (e.setName nm).name = nm := by
  match e with
  | .struct (.mk ..) => rfl
  | .tupleStruct (.mk ..) => rfl
  | .enum (.mk ..) => rfl
  | .enumCase ⟨_, _, _, _, _, _⟩ => rfl
  | .alias (.mk ..) => rfl
  | .structField (.mk ..) => rfl
  | .import ⟨_, _, _⟩ => rfl

theorem boxed_iff {owner t : Str} {ms r : List TypeModifier} :
    (if owner.isSuffixOf t then ms ++ [.recursive] else ms) = r ↔ Boxed owner t ms r := by
  have hs : owner.isSuffixOf t = true ↔ ∃ pre, t = pre ++ owner := by
    rw [List.isSuffixOf_iff_suffix]
    exact ⟨fun ⟨p, h⟩ => ⟨p, h.symm⟩, fun ⟨p, h⟩ => ⟨p, h.symm⟩⟩
  constructor
  · rintro rfl
    by_cases h : owner.isSuffixOf t = true
    · rw [if_pos h]; obtain ⟨pre, hp⟩ := hs.1 h; exact .yes hp
    · rw [if_neg h]; exact .no fun pre hp => h (hs.2 ⟨pre, hp⟩)
  · intro h
    cases h with
    | yes hp => rw [if_pos (hs.2 ⟨_, hp⟩)]
    | no hn => rw [if_neg]; intro h; obtain ⟨pre, hp⟩ := hs.1 h; exact hn pre hp

/-- The children of some plain kind are those with its tag. -/
theorem kind_filter {s : String} {t : ElementType} (h : (s, t) ∈ plainTags) (n : Node) :
    (n.children.filter fun c => decide (kindD (some n.tag) c = t)) = withTags n [s] := by
  unfold withTags
  refine List.filter_congr fun c _ => ?_
  rw [List.any_cons, List.any_nil, Bool.or_false]
  exact decide_eq_decide.2 (kindD_iff h)

theorem tag_isElement {c : Node} (h : c.tag ≠ []) : c.isElement = true := by
  cases c with
  | element => rfl
  | text => exact absurd rfl h
  | other => exact absurd rfl h

/-- What `forall₂` over a mapped filter says. -/
theorem mapM'_kids {β : Type} {U : UnicodeTable} {n p : Node} {above : List Node} (q : ElementType → Node → Bool)
    (f : RsEntity → Res β) {r : List β} :
    Res.mapM' (fun k => k.2.2.bind f) ((kidsOf U n p above).filter fun k => q k.1 k.2.1) = .ok r ↔
      List.Forall₂ (fun c b => (parseNode U c n (p :: above)).bind f = .ok b)
        (n.children.filter fun c => q (kindD (some n.tag) c) c) r := by
  rw [filter_kids, mapM'_map, mapM'_ok]

theorem members_eq (n : Node) :
    (n.children.filter fun c => isMember (kindD (some n.tag) c) c) = members n := by
  unfold members
  refine List.filter_congr fun c _ => ?_
  unfold isMember
  rw [Bool.decide_and, Bool.decide_eq_true]
  congr 1
  exact decide_eq_decide.2 (not_congr (kindD_iff (s := "annotation") (by decide)))

/-! ## Choices -/

theorem choiceCase_iff {c : Node} {k : EnumCase} (h : ElementForm c) :
    asCase (parseCaseOfChoice c) = .ok k ↔ ChoiceCase c k := by
  unfold parseCaseOfChoice attrRef attrName attrType
  constructor
  · intro hk
    cases hr : c.attr "ref".toList with
    | some r =>
      rw [hr] at hk
      obtain rfl := Res.ok.inj hk
      rw [documentation_eq]
      exact .ref hr (wrapperOf c)
    | none =>
      rw [hr] at hk
      rcases h with ⟨nm, hn, -⟩ | ⟨r, hr', -⟩
      · rw [hn] at hk
        obtain rfl := Res.ok.inj hk
        rw [documentation_eq]
        exact .named hr hn (wrapperOf c)
      · rw [hr] at hr'; cases hr'
  · intro hk
    cases hk with
    | ref hr hm => rw [hr, elementModifier_iff.2 hm, documentation_eq]; rfl
    | named hr hn hm => rw [hr, hn, elementModifier_iff.2 hm, documentation_eq]; rfl

theorem element_in_choice {U : UnicodeTable} {c n : Node} {above : List Node} (hc : c.tag = "element".toList)
    (hn : n.tag = "choice".toList) : parseNode U c n above = .ok (parseCaseOfChoice c) := by
  rw [parseNode_tag (s := "element") (t := .element) (by decide) hc]
  show parseElement _ = _
  unfold parseElement
  rw [parentType_tag (s := "choice") (t := .choice) (by decide) hn]
  rfl

theorem tags_eq (n : Node) (s : String) (t : ElementType) (h : (s, t) ∈ plainTags) (hs : s.toList ≠ []) :
    (n.children.filter fun c => decide (c.isElement = true ∧ kindD (some n.tag) c = t)) = withTags n [s] := by
  rw [← kind_filter h]
  refine List.filter_congr fun c _ => decide_eq_decide.2 ⟨fun h => h.2, fun hk => ⟨?_, hk⟩⟩
  refine tag_isElement ?_
  rw [(kindD_iff h).1 hk]
  exact hs

theorem mem_withTags {n c : Node} {s : String} : c ∈ withTags n [s] ↔ c ∈ n.children ∧ c.tag = s.toList := by
  unfold withTags
  rw [List.mem_filter, List.any_cons, List.any_nil, Bool.or_false, decide_eq_true_iff]

/-- Pointwise equivalent relations. -/
theorem forall₂_congr {α β : Type} {R S : α → β → Prop} : ∀ {l : List α} {r : List β},
    (∀ a ∈ l, ∀ b, R a b ↔ S a b) → (List.Forall₂ R l r ↔ List.Forall₂ S l r)
  | [], r, _ => by
    constructor <;> intro h <;> cases h <;> exact .nil
  | a :: l, r, h => by
    have ih := fun r' => forall₂_congr (l := l) (r := r') fun a ha => h a (List.mem_cons_of_mem _ ha)
    constructor
    · intro hf
      cases hf with
      | cons h1 h2 => exact .cons ((h a List.mem_cons_self _).1 h1) ((ih _).1 h2)
    · intro hf
      cases hf with
      | cons h1 h2 => exact .cons ((h a List.mem_cons_self _).2 h1) ((ih _).2 h2)

theorem parseChoice_iff {U : UnicodeTable} {n p : Node} {above : List Node} {e : RsEntity} (hn : n.tag = "choice".toList)
    (he : ∀ x ∈ withTags n ["element"], ElementForm x) :
    parseNode U n p above = .ok e ↔ Readable n ∧ ∃ cases, List.Forall₂ ChoiceCase (withTags n ["element"]) cases ∧
      e = .enum (.mk [] cases none "String".toList [] .choice) := by
  rw [parseNode_tag (s := "choice") (t := .choice) (by decide) hn]
  show parseChoice _ = _ ↔ _
  have hcongr : ∀ cases, List.Forall₂ (fun c b => (parseNode U c n (p :: above)).bind asCase = .ok b)
        (withTags n ["element"]) cases ↔ List.Forall₂ ChoiceCase (withTags n ["element"]) cases := by
    intro cases
    refine forall₂_congr fun c hc k => ?_
    rw [element_in_choice (mem_withTags.1 hc).2 hn]
    exact choiceCase_iff (he c hc)
  unfold parseChoice
  constructor
  · intro h
    obtain ⟨ks, hk, h⟩ := Res.bind_eq_ok.1 h
    obtain ⟨hr, rfl⟩ := typedKids_ok.1 hk
    obtain ⟨cases, hc, h⟩ := Res.bind_eq_ok.1 h
    obtain rfl := Res.ok.inj h
    have := (mapM'_kids (fun t c => decide (c.isElement = true ∧ t = .element)) asCase).1 hc
    rw [tags_eq n "element" .element (by decide) (by decide)] at this
    exact ⟨hr, cases, (hcongr _).1 this, rfl⟩
  · rintro ⟨hr, cases, hc, rfl⟩
    rw [typedKids_ok.2 ⟨hr, rfl⟩, Res.ok_bind]
    have := (mapM'_kids (U := U) (p := p) (above := above) (n := n) (r := cases)
      (fun t c => decide (c.isElement = true ∧ t = .element)) asCase).2
      (by rw [tags_eq n "element" .element (by decide) (by decide)]; exact (hcongr _).2 hc)
    rw [this]
    rfl

/-! ## Elements of a sequence -/

theorem element_in_sequence {U : UnicodeTable} {c n : Node} {above : List Node} (hc : c.tag = "element".toList)
    (hn : n.tag = "sequence".toList ∨ n.tag = "all".toList) :
    parseNode U c n above = parseFieldOfSequence (placeOf U c n above) := by
  rw [parseNode_tag (s := "element") (t := .element) (by decide) hc]
  show parseElement _ = _
  unfold parseElement
  rcases hn with hn | hn
  · rw [parentType_tag (s := "sequence") (t := .sequence) (by decide) hn]; rfl
  · rw [parentType_tag (s := "all") (t := .all) (by decide) hn]; rfl

theorem content_eq (n : Node) :
    (n.children.filter fun c => isContentType (kindD (some n.tag) c) c) = withTags n ["simpleType", "complexType"] := by
  unfold withTags
  refine List.filter_congr fun c _ => ?_
  rw [List.any_cons, List.any_cons, List.any_nil, Bool.or_false]
  unfold isContentType
  rw [Bool.decide_or]
  exact congr (congrArg or (decide_eq_decide.2 (kindD_iff (s := "simpleType") (by decide))))
    (decide_eq_decide.2 (kindD_iff (s := "complexType") (by decide)))

theorem memberField_field (owner : Str) (n t : Str) (c : Option Str) (s : List RsEntity) (src : FieldSource)
    (ms : List TypeModifier) : memberField owner (.structField (.mk n t c s src ms)) =
      .ok (.mk n t c s src (if owner.isSuffixOf t then ms ++ [.recursive] else ms)) := rfl

theorem hasAttribute_eq (n : Node) (s : Str) : n.hasAttribute s = (n.attr s).isSome := rfl

theorem elementField_iff {U : UnicodeTable} {c n : Node} {above : List Node} {owner : Str} {f : StructField}
    (hc : c.tag = "element".toList) (hf : ElementForm c) :
    (parseFieldOfSequence (placeOf U c n above)).bind (memberField owner) = .ok f ↔
      MemberField (fun t e => parseNode U t c (n :: above) = .ok e) owner c f := by
  have hnode : (placeOf U c n above).node = c := rfl
  have hnot : ∀ s : String, s.toList ≠ "element".toList → c.tag ≠ s.toList := fun s hs e => hs (e.symm.trans hc)
  unfold parseFieldOfSequence
  dsimp only
  rw [hnode, hasAttribute_eq, hasAttribute_eq]
  unfold attrName attrRef attrType
  rcases hf with ⟨nm, hn, hr⟩ | ⟨r, hr, hn, ht⟩
  · cases ht : c.attr "type".toList with
    | some t =>
      rw [if_pos (by rfl), hn, hr, Res.ok_bind, Option.getD_some, Option.getD_some, memberField_field,
        documentation_eq]
      constructor
      · intro h
        obtain rfl := Res.ok.inj h
        exact .typed hc hn ht (wrapperOf c) (boxed_iff.1 rfl)
      · intro h
        cases h with
        | typed _ hn' ht' hw hb =>
          obtain rfl := Option.some.inj (hn.symm.trans hn')
          obtain rfl := Option.some.inj (ht.symm.trans ht')
          rw [elementModifier_iff.2 hw, boxed_iff.2 hb]
        | ref _ hn' => rw [hn] at hn'; cases hn'
        | inline _ _ _ ht' => rw [ht] at ht'; cases ht'
        | any ha => exact absurd ha (hnot _ (by decide))
        | choice ha => exact absurd ha (hnot _ (by decide))
    | none =>
      rw [hr, if_neg (by decide), hn, Option.getD_some]
      constructor
      · intro h
        obtain ⟨sf, hsf, h⟩ := Res.bind_eq_ok.1 h
        obtain ⟨k, hk, hsf⟩ := Res.bind_eq_ok.1 hsf
        obtain ⟨hread, rfl⟩ := lastKid_ok.1 hk
        obtain ⟨k, hk, hsf⟩ := Res.bind_eq_ok.1 hsf
        have hk := unwrap_ok.1 hk
        rw [content_eq] at hk
        obtain ⟨x, hx, rfl⟩ := Option.map_eq_some_iff.1 hk
        obtain ⟨e, he, hsf⟩ := Res.bind_eq_ok.1 hsf
        obtain rfl := Res.ok.inj hsf
        rw [setName_name, memberField_field, documentation_eq] at h
        obtain rfl := Res.ok.inj h
        exact .inline hc hread hn ht hx he (renamed_iff.2 rfl) (wrapperOf c) (boxed_iff.1 rfl)
      · intro h
        cases h with
        | typed _ _ ht' => rw [ht] at ht'; cases ht'
        | ref _ hn' => rw [hn] at hn'; cases hn'
        | inline _ hread hn' _ hx he hren hw hb =>
          obtain rfl := Option.some.inj (hn.symm.trans hn')
          rw [lastKid_ok.2 ⟨hread, rfl⟩, Res.ok_bind, content_eq, hx]
          dsimp only [Option.map_some, Res.unwrap, Res.ok_bind]
          rw [he, Res.ok_bind, Res.ok_bind, setName_name, memberField_field, documentation_eq, elementModifier_iff.2 hw,
            boxed_iff.2 hb, renamed_iff.1 hren]
        | any ha => exact absurd ha (hnot _ (by decide))
        | choice ha => exact absurd ha (hnot _ (by decide))
  · rw [hr, Option.isSome_some, Bool.or_true, if_pos rfl, hn, ht, Res.ok_bind, Option.getD_none, Option.getD_some,
      Option.getD_none, Option.getD_some, memberField_field, documentation_eq]
    constructor
    · intro h
      obtain rfl := Res.ok.inj h
      exact .ref hc hn hr (wrapperOf c) (boxed_iff.1 rfl)
    · intro h
      cases h with
      | typed _ hn' => rw [hn] at hn'; cases hn'
      | ref _ _ hr' hw hb =>
        obtain rfl := Option.some.inj (hr.symm.trans hr')
        rw [elementModifier_iff.2 hw, boxed_iff.2 hb]
      | inline _ _ hn' => rw [hn] at hn'; cases hn'
      | any ha => exact absurd ha (hnot _ (by decide))
      | choice ha => exact absurd ha (hnot _ (by decide))

/-! ## Sequences -/

theorem parseSequence_iff {U : UnicodeTable} {n p : Node} {above : List Node} {e : RsEntity} :
    parseSequence (placeOf U n p above) = .ok e ↔ ∃ owner fields, getParentName (p :: above) = .ok owner ∧ Readable n ∧
      List.Forall₂ (fun c f => (parseNode U c n (p :: above)).bind (memberField owner) = .ok f) (members n) fields ∧
      e = .struct (.mk owner (docOf p) fields [] []) := by
  unfold parseSequence elementsToFields
  rw [show (placeOf U n p above).parentName = getParentName (p :: above) from rfl,
    show (placeOf U n p above).parent = p from rfl, documentation_eq]
  constructor
  · intro h
    obtain ⟨owner, ho, h⟩ := Res.bind_eq_ok.1 h
    obtain ⟨fields, hf, h⟩ := Res.bind_eq_ok.1 h
    obtain ⟨ks, hk, hf⟩ := Res.bind_eq_ok.1 hf
    obtain ⟨hr, rfl⟩ := typedKids_ok.1 hk
    have := (mapM'_kids isMember (memberField owner)).1 hf
    rw [members_eq] at this
    exact ⟨owner, fields, ho, hr, this, (Res.ok.inj h).symm⟩
  · rintro ⟨owner, fields, ho, hr, hf, rfl⟩
    rw [ho, Res.ok_bind, typedKids_ok.2 ⟨hr, rfl⟩, Res.ok_bind,
      (mapM'_kids isMember (memberField owner)).2 (by rw [members_eq]; exact hf)]
    rfl

theorem sequence_struct {U : UnicodeTable} {n p : Node} {above : List Node} {e : RsEntity}
    (hn : n.tag = "sequence".toList ∨ n.tag = "all".toList) (h : parseNode U n p above = .ok e) : ∃ s, e = .struct s := by
  have h' : parseSequence (placeOf U n p above) = .ok e := by
    rcases hn with hn | hn
    · rw [parseNode_tag (s := "sequence") (t := .sequence) (by decide) hn] at h; exact h
    · rw [parseNode_tag (s := "all") (t := .all) (by decide) hn] at h; exact h
  obtain ⟨_, _, _, _, _, rfl⟩ := parseSequence_iff.1 h'
  exact ⟨_, rfl⟩

/-- A member of a sequence. -/
theorem member_iff {U : UnicodeTable} {c n : Node} {above : List Node} {owner : Str} {f : StructField}
    (hn : n.tag = "sequence".toList ∨ n.tag = "all".toList) (hc : SequenceMember c) :
    (parseNode U c n above).bind (memberField owner) = .ok f ↔
      MemberField (fun t e => parseNode U t c (n :: above) = .ok e) owner c f := by
  have hcontra : ∀ s : String, c.tag = s.toList → s.toList ≠ "element".toList → s.toList ≠ "any".toList →
      s.toList ≠ "choice".toList → ¬ MemberField (fun t e => parseNode U t c (n :: above) = .ok e) owner c f := by
    intro s hs h1 h2 h3 h
    cases h with
    | typed hc => exact h1 (hs.symm.trans hc)
    | ref hc => exact h1 (hs.symm.trans hc)
    | inline hc => exact h1 (hs.symm.trans hc)
    | any hc => exact h2 (hs.symm.trans hc)
    | choice hc => exact h3 (hs.symm.trans hc)
  rcases hc with hc | ⟨hc, hf⟩ | ⟨hc, hf⟩
  · rcases List.mem_cons.1 hc with hc | hc
    · refine ⟨fun h => ?_, fun h => absurd h (hcontra "group" hc (by decide) (by decide) (by decide))⟩
      rw [parseNode_tag (s := "group") (t := .group) (by decide) hc] at h
      cases h
    · rcases List.mem_cons.1 hc with hc | hc
      · refine ⟨fun h => ?_, fun h => absurd h (hcontra "sequence" hc (by decide) (by decide) (by decide))⟩
        obtain ⟨e, he, h⟩ := Res.bind_eq_ok.1 h
        obtain ⟨s, rfl⟩ := sequence_struct (.inl hc) he
        cases h
      · have hc := List.mem_singleton.1 hc
        rw [parseNode_tag (s := "any") (t := .any) (by decide) hc]
        show memberField owner (parseAny c) = .ok f ↔ _
        unfold parseAny
        rw [memberField_field, documentation_eq]
        constructor
        · intro h
          obtain rfl := Res.ok.inj h
          exact .any hc (boxed_iff.1 rfl)
        · intro h
          cases h with
          | typed h' => exact absurd (hc.symm.trans h') (by decide)
          | ref h' => exact absurd (hc.symm.trans h') (by decide)
          | inline h' => exact absurd (hc.symm.trans h') (by decide)
          | any _ hb => rw [boxed_iff.2 hb]
          | choice h' => exact absurd (hc.symm.trans h') (by decide)
  · rw [element_in_sequence hc hn]
    exact elementField_iff hc hf
  · constructor
    · intro h
      obtain ⟨e, he, h⟩ := Res.bind_eq_ok.1 h
      obtain ⟨hr, cases, hcs, rfl⟩ := (parseChoice_iff hc hf).1 he
      obtain rfl := Res.ok.inj h
      exact .choice hc hr hcs
    · intro h
      cases h with
      | typed h' => exact absurd (hc.symm.trans h') (by decide)
      | ref h' => exact absurd (hc.symm.trans h') (by decide)
      | inline h' => exact absurd (hc.symm.trans h') (by decide)
      | any h' => exact absurd (hc.symm.trans h') (by decide)
      | choice _ hr hcs =>
        rw [(parseChoice_iff hc hf).2 ⟨hr, _, hcs, rfl⟩]
        rfl

theorem sequence_iff {U : UnicodeTable} {n p : Node} {above : List Node} {e : RsEntity}
    (hn : n.tag = "sequence".toList ∨ n.tag = "all".toList) (hm : ∀ c ∈ members n, SequenceMember c)
    (ha : ∀ a ∈ p :: above, NotFacet a) :
    parseNode U n p above = .ok e ↔ ∃ owner fields, OwnerName (p :: above) owner ∧ Readable n ∧
      List.Forall₂ (fun c f => MemberField (fun t e => parseNode U t c (n :: p :: above) = .ok e) owner c f)
        (members n) fields ∧ e = .struct (.mk owner (docOf p) fields [] []) := by
  have hp : parseNode U n p above = parseSequence (placeOf U n p above) := by
    rcases hn with hn | hn
    · rw [parseNode_tag (s := "sequence") (t := .sequence) (by decide) hn]; rfl
    · rw [parseNode_tag (s := "all") (t := .all) (by decide) hn]; rfl
  rw [hp, parseSequence_iff]
  refine exists_congr fun owner => exists_congr fun fields => ?_
  rw [ownerName_iff ha]
  exact and_congr_right fun _ => and_congr_right fun _ => and_congr_left fun _ =>
    forall₂_congr fun c hc f => member_iff hn (hm c hc)

/-! ## Attributes -/

theorem attrUse_iff {n : Node} {u : UseType} : attrUse n = .ok u → UseOf n (useModifier u) := by
  unfold attrUse
  dsimp only
  intro h
  cases ha : n.attr "use".toList with
  | none =>
    rw [ha, Option.getD_none, if_pos rfl] at h
    obtain rfl := Res.ok.inj h
    exact .default ha
  | some v =>
    rw [ha, Option.getD_some] at h
    by_cases h1 : v = "optional".toList
    · rw [if_pos h1] at h
      obtain rfl := Res.ok.inj h
      exact .optional (ha.trans (congrArg some h1))
    · rw [if_neg h1] at h
      by_cases h2 : v = "prohibited".toList
      · rw [if_pos h2] at h
        obtain rfl := Res.ok.inj h
        exact .prohibited (ha.trans (congrArg some h2))
      · rw [if_neg h2] at h
        by_cases h3 : v = "required".toList
        · rw [if_pos h3] at h
          obtain rfl := Res.ok.inj h
          exact .required (ha.trans (congrArg some h3))
        · rw [if_neg h3] at h
          cases h

theorem attrUse_of {n : Node} {m : TypeModifier} (h : UseOf n m) : ∃ u, attrUse n = .ok u ∧ useModifier u = m := by
  unfold attrUse
  dsimp only
  cases h with
  | default ha => rw [ha, Option.getD_none, if_pos rfl]; exact ⟨_, rfl, rfl⟩
  | optional ha => rw [ha, Option.getD_some, if_pos rfl]; exact ⟨_, rfl, rfl⟩
  | required ha => rw [ha, Option.getD_some, if_neg (by decide), if_neg (by decide), if_pos rfl]; exact ⟨_, rfl, rfl⟩
  | prohibited ha => rw [ha, Option.getD_some, if_neg (by decide), if_pos rfl]; exact ⟨_, rfl, rfl⟩

theorem or_some_getD {α : Type} (a : Option α) (r d : α) : (a.or (some r)).getD d = a.getD r := by
  cases a <;> rfl

/-- A local attribute. -/
theorem attribute_iff {U : UnicodeTable} {n p : Node} {above : List Node} {e : RsEntity} (hn : n.tag = "attribute".toList)
    (hp : p.tag ≠ "schema".toList) (hf : NotFacet p) :
    parseNode U n p above = .ok e ↔ ∃ f, AttributeField n f ∧ e = .structField f := by
  rw [parseNode_tag (s := "attribute") (t := .attribute) (by decide) hn]
  show parseAttribute _ = _ ↔ _
  unfold parseAttribute
  obtain ⟨t, ht⟩ := kind_total (p := above.head?.map Node.tag) hf
  rw [show (placeOf U n p above).parentType = .ok t from kind_xsdType ht, Res.ok_bind,
    if_neg (fun e => hp ((plain_iff (s := "schema") (by decide)).1 (e ▸ ht))),
    show (placeOf U n p above).node = n from rfl, documentation_eq]
  unfold attrName attrRef attrType
  constructor
  · intro h
    obtain ⟨nm, hnm, h⟩ := Res.bind_eq_ok.1 h
    obtain ⟨u, hu, h⟩ := Res.bind_eq_ok.1 h
    have hnm := unwrap_ok.1 hnm
    obtain rfl := Res.ok.inj h
    refine ⟨_, ?_, rfl⟩
    cases h1 : n.attr "name".toList with
    | some v =>
      rw [h1, Option.some_or] at hnm
      obtain rfl := Option.some.inj hnm
      exact .named h1 (attrUse_iff hu)
    | none =>
      rw [h1, Option.none_or] at hnm
      rw [hnm, or_some_getD]
      exact .ref h1 hnm (attrUse_iff hu)
  · rintro ⟨f, hf, rfl⟩
    cases hf with
    | named h1 hu =>
      obtain ⟨u, hu', rfl⟩ := attrUse_of hu
      rw [h1, Option.some_or, Res.unwrap, Res.ok_bind, hu']
      rfl
    | ref h1 h2 hu =>
      obtain ⟨u, hu', rfl⟩ := attrUse_of hu
      rw [h1, h2, Option.none_or, Res.unwrap, Res.ok_bind, hu', or_some_getD]
      rfl

end Verif.Lemmas.Parse
