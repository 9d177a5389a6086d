import Verif.Lemmas.ParseFields
import Verif.Lemmas.GenComment

/-! # What `parse_node` gives for simple types -/

namespace Verif.Lemmas.Parse

open Verif Verif.Model Verif.RoXml Verif.Spec

theorem redocumented_iff {d : Option Str} {e e' : RsEntity} : Redocumented d e e' ↔ e' = e.setComment d := by
  constructor
  · intro h; cases h <;> rfl
  · rintro rfl
    match e with
    | .struct (.mk ..) => exact .struct
    | .tupleStruct (.mk ..) => exact .tupleStruct
    | .enum (.mk ..) => exact .enum
    | .enumCase ⟨_, _, _, _, _, _⟩ => exact .enumCase
    | .alias (.mk ..) => exact .alias
    | .structField (.mk ..) => exact .structField
    | .import ⟨_, _, _⟩ => exact .import

theorem renamedIf_iff {o : Option Str} {e e' : RsEntity} : RenamedIf o e e' ↔ e' = setNameIf o e := by
  constructor
  · intro h
    cases h with
    | none => rfl
    | some h => exact renamed_iff.1 h
  · rintro rfl
    cases o with
    | none => exact .none
    | some n => exact .some (renamed_iff.2 rfl)

/-- The facet of a child. -/
def facetOf (k : ElementType × Node × Res RsEntity) : Option Facet :=
  match k.1 with
  | .facet f => some ⟨f, getDocumentation k.2.1⟩
  | _ => none

theorem facets_eq (c : Place) : facets c = c.typedKids.bind fun ks => .ok (ks.filterMap facetOf) := rfl

theorem facetOf_facet (f : FacetType) (c : Node) (r : Res RsEntity) : facetOf (.facet f, c, r) = some ⟨f, docOf c⟩ := by
  rw [← documentation_eq]; rfl

theorem facetOf_other {t : ElementType} (h : ∀ f, t ≠ .facet f) (c : Node) (r : Res RsEntity) :
    facetOf (t, c, r) = none := by
  cases t with
  | facet f => exact absurd rfl (h f)
  | _ => rfl

theorem facetsOf_iff (U : UnicodeTable) (n p : Node) (above : List Node) {fs : List Facet} :
    FacetsOf n.tag n.children fs ↔ Readable n ∧ fs = (kidsOf U n p above).filterMap facetOf := by
  unfold kidsOf Readable
  generalize n.tag = tg
  generalize hg : (fun c => parseNode U c n (p :: above)) = g
  have hg' : ∀ c, parseNode U c n (p :: above) = g c := fun c => by rw [← hg]
  simp only [hg']
  clear hg hg'
  induction n.children generalizing fs with
  | nil =>
    constructor
    · intro h; cases h; exact ⟨fun _ h => absurd h List.not_mem_nil, rfl⟩
    · rintro ⟨-, rfl⟩; exact .nil
  | cons c cs ih =>
    rw [List.map_cons, List.filterMap_cons]
    constructor
    · intro h
      cases h with
      | facet hk h =>
        obtain ⟨h1, h2⟩ := ih.1 h
        refine ⟨?_, ?_⟩
        · intro x hx
          rcases List.mem_cons.1 hx with rfl | hx
          · exact ⟨_, hk⟩
          · exact h1 x hx
        · rw [kindD_of hk, facetOf_facet, h2]
      | skip hk hn h =>
        obtain ⟨h1, h2⟩ := ih.1 h
        refine ⟨?_, ?_⟩
        · intro x hx
          rcases List.mem_cons.1 hx with rfl | hx
          · exact ⟨_, hk⟩
          · exact h1 x hx
        · rw [kindD_of hk, facetOf_other hn, h2]
    · rintro ⟨hr, rfl⟩
      obtain ⟨t, ht⟩ := hr c List.mem_cons_self
      have h := ih.2 ⟨fun x hx => hr x (List.mem_cons_of_mem _ hx), rfl⟩
      rw [kindD_of ht]
      by_cases hf : ∃ f, t = .facet f
      · obtain ⟨f, rfl⟩ := hf
        rw [facetOf_facet]
        exact .facet ht h
      · have hf : ∀ f, t ≠ .facet f := fun f e => hf ⟨f, e⟩
        rw [facetOf_other hf]
        exact .skip ht hf h

theorem facetCases_eq (fs : List Facet) :
    facetCases fs = (enumValues fs).map fun v => ⟨v.1, v.2, v.1, none, [], .restriction⟩ := by
  unfold facetCases enumValues
  rw [List.map_filterMap]
  congr 1
  funext f
  cases f.facetType <;> rfl

theorem simpleValue_iff (U : UnicodeTable) (v : Str) : isSimpleEnumeration U v = true ↔ SimpleValue U v := by
  unfold isSimpleEnumeration SimpleValue
  rw [Bool.and_eq_true, List.all_eq_true]
  refine and_congr ?_ (forall_congr' fun c => imp_congr_right fun _ => ?_)
  · cases v <;> simp
  · rw [Bool.or_eq_true, decide_eq_true_iff]

/-- Whether the children include an enumerated value which is not simple. -/
theorem simple_iff (U : UnicodeTable) (ks : List (ElementType × Node × Res RsEntity)) :
    (ks.all fun k => match k.1 with
      | .facet (.enumeration v) => isSimpleEnumeration U v
      | _ => true) = true ↔ ∀ v ∈ enumValues (ks.filterMap facetOf), SimpleValue U v.1 := by
  rw [List.all_eq_true]
  constructor
  · intro h v hv
    unfold enumValues at hv
    obtain ⟨f, hf, hv⟩ := List.mem_filterMap.1 hv
    obtain ⟨k, hk, hf⟩ := List.mem_filterMap.1 hf
    have := h k hk
    unfold facetOf at hf
    split at hf
    · rename_i ft hft
      obtain rfl := Option.some.inj hf
      rw [hft] at this
      dsimp only at hv
      split at hv
      · obtain rfl := Option.some.inj hv
        exact (simpleValue_iff U _).1 this
      · cases hv
    · cases hf
  · intro h k hk
    split
    · rename_i v hv
      refine (simpleValue_iff U _).2 (h (v, getDocumentation k.2.1) ?_)
      unfold enumValues
      refine List.mem_filterMap.2 ⟨⟨.enumeration v, getDocumentation k.2.1⟩, ?_, rfl⟩
      refine List.mem_filterMap.2 ⟨k, hk, ?_⟩
      unfold facetOf
      rw [hv]
    · rfl

theorem restriction_iff {U : UnicodeTable} {n p : Node} {above : List Node} {e : RsEntity}
    (hn : n.tag = "restriction".toList) (hp : p.tag = "simpleType".toList) (ha : ∀ a ∈ p :: above, NotFacet a) :
    parseNode U n p above = .ok e ↔ ∃ base fs, n.attr "base".toList = some base ∧ FacetsOf n.tag n.children fs ∧
      RestrictionOf U (p :: above) base fs e := by
  have hk : KindOf (some p.tag) n (.restriction .simpleType) :=
    .restriction (s := "simpleType") hn (by decide) (congrArg some hp)
  have hp : parseNode U n p above = simpleTypeRestriction U (placeOf U n p above) := by
    rw [parseNode_of hk]
    show (xsdType (some p.tag) n).bind _ = _
    rw [kind_xsdType hk]
    rfl
  rw [hp]
  unfold simpleTypeRestriction isSimpleEnumerations
  rw [facets_eq, show (placeOf U n p above).node = n from rfl,
    show (placeOf U n p above).parentName = getParentName (p :: above) from rfl]
  unfold attrBase
  constructor
  · intro h
    obtain ⟨base, hb, h⟩ := Res.bind_eq_ok.1 h
    obtain ⟨fs, hfs, h⟩ := Res.bind_eq_ok.1 h
    obtain ⟨ks, hks, hfs⟩ := Res.bind_eq_ok.1 hfs
    obtain rfl := Res.ok.inj hfs
    obtain ⟨simple, hs, h⟩ := Res.bind_eq_ok.1 h
    rw [hks, Res.ok_bind] at hs
    obtain ⟨hr, rfl⟩ := typedKids_ok.1 hks
    have hs := Res.ok.inj hs
    refine ⟨base, _, unwrap_ok.1 hb, (facetsOf_iff U n p above).2 ⟨hr, rfl⟩, ?_⟩
    by_cases hc : simple = true ∧ facetCases ((kidsOf U n p above).filterMap facetOf) ≠ []
    · rw [if_pos hc] at h
      obtain ⟨owner, ho, h⟩ := Res.bind_eq_ok.1 h
      obtain rfl := Res.ok.inj h
      rw [facetCases_eq] at hc ⊢
      exact .enum (fun h => hc.2 (by rw [h]; rfl)) ((simple_iff U _).1 (hs.trans hc.1)) ((ownerName_iff ha).1 ho)
    · rw [if_neg hc] at h
      obtain rfl := Res.ok.inj h
      refine .wrapper ?_
      by_cases he : enumValues ((kidsOf U n p above).filterMap facetOf) = []
      · exact .inl he
      · refine .inr ?_
        have : ¬ ∀ v ∈ enumValues ((kidsOf U n p above).filterMap facetOf), SimpleValue U v.1 := by
          intro h
          refine hc ⟨hs.symm.trans ((simple_iff U _).2 h), fun h' => he ?_⟩
          rw [facetCases_eq] at h'
          exact List.map_eq_nil_iff.1 h'
        simp only [not_forall] at this
        obtain ⟨v, hv, h⟩ := this
        exact ⟨v, hv, h⟩
  · rintro ⟨base, fs, hb, hf, h⟩
    obtain ⟨hr, rfl⟩ := (facetsOf_iff U n p above).1 hf
    rw [hb, typedKids_ok.2 ⟨hr, rfl⟩, Res.unwrap, Res.ok_bind, Res.ok_bind, Res.ok_bind, Res.ok_bind, Res.ok_bind]
    cases h with
    | enum hne hall ho =>
      rw [if_pos ⟨(simple_iff U _).2 hall, fun h => hne (List.map_eq_nil_iff.1 (by rw [facetCases_eq] at h; exact h))⟩,
        (ownerName_iff ha).2 ho, facetCases_eq]
      rfl
    | wrapper hw =>
      rw [if_neg]
      rintro ⟨h1, h2⟩
      rcases hw with hw | ⟨v, hv, hw⟩
      · exact h2 (by rw [facetCases_eq, hw]; rfl)
      · exact hw ((simple_iff U _).1 h1 v hv)

/-- A simple type: the entity of its only member, under its name. -/
theorem simpleType_iff {U : UnicodeTable} {n p : Node} {above : List Node} {e : RsEntity}
    (hn : n.tag = "simpleType".toList) (ha : NotFacet p) :
    parseNode U n p above = .ok e ↔ (p.tag = "schema".toList ↔ (n.attr "name".toList).isSome = true) ∧ Readable n ∧
      ∃ c x y, (members n).getLast? = some c ∧ parseNode U c n (p :: above) = .ok x ∧
        RenamedIf (n.attr "name".toList) x y ∧ Redocumented (docOf n) y e := by
  rw [parseNode_tag (s := "simpleType") (t := .simpleType) (by decide) hn]
  show parseSimpleType _ = _ ↔ _
  unfold parseSimpleType
  obtain ⟨t, ht⟩ := kind_total (p := above.head?.map Node.tag) ha
  have hs : t = .schema ↔ p.tag = "schema".toList := by
    constructor
    · rintro rfl; exact (plain_iff (s := "schema") (by decide)).1 ht
    · intro e
      have := (plain_iff (s := "schema") (t := .schema) (by decide) (p := above.head?.map Node.tag)).2 e
      exact Res.ok.inj ((kind_xsdType ht).symm.trans (kind_xsdType this))
  rw [show (placeOf U n p above).parentType = .ok t from kind_xsdType ht, Res.ok_bind,
    show (placeOf U n p above).node = n from rfl, documentation_eq]
  unfold attrName
  by_cases hc : decide (t = .schema) ≠ (n.attr "name".toList).isSome
  · rw [if_pos hc]
    refine ⟨fun h => (nomatch h), fun h => absurd ?_ hc⟩
    rw [← hs] at h
    rw [Bool.eq_iff_iff, decide_eq_true_iff]
    exact h.1
  · rw [if_neg hc]
    have hc' : p.tag = "schema".toList ↔ (n.attr "name".toList).isSome = true := by
      rw [← hs, ← decide_eq_true_iff (p := t = .schema), Classical.not_not.1 hc]
    constructor
    · intro h
      obtain ⟨k, hk, h⟩ := Res.bind_eq_ok.1 h
      obtain ⟨hr, rfl⟩ := lastKid_ok.1 hk
      obtain ⟨k, hk, h⟩ := Res.bind_eq_ok.1 h
      have hk := unwrap_ok.1 hk
      rw [members_eq] at hk
      obtain ⟨x, hx, rfl⟩ := Option.map_eq_some_iff.1 hk
      obtain ⟨y, hy, h⟩ := Res.bind_eq_ok.1 h
      exact ⟨hc', hr, x, y, _, hx, hy, renamedIf_iff.2 rfl, redocumented_iff.2 (Res.ok.inj h).symm⟩
    · rintro ⟨-, hr, c, x, y, hc, hx, hy, he⟩
      rw [lastKid_ok.2 ⟨hr, rfl⟩, Res.ok_bind, members_eq, hc]
      dsimp only [Option.map_some, Res.unwrap, Res.ok_bind]
      rw [hx, Res.ok_bind, redocumented_iff.1 he, renamedIf_iff.1 hy]

/-! ## Lists -/

theorem find_kid {U : UnicodeTable} {n p : Node} {above : List Node} (f : Node → Bool) :
    (placeOf U n p above).kids.find? (fun k => f k.1) =
      (n.children.find? f).map fun k => (k, parseNode U k n (p :: above)) := by
  unfold placeOf
  dsimp only
  rw [List.find?_map]
  rfl

theorem listOf_iff {x e : RsEntity} : ListOf x e ↔ ∃ t, listItem x = .ok t ∧ e = pushArray t := by
  constructor
  · intro h; cases h <;> exact ⟨_, rfl, rfl⟩
  · rintro ⟨t, ht, rfl⟩
    match x with
    | .enum (.mk ..) => obtain rfl := Res.ok.inj ht; exact .enum
    | .tupleStruct (.mk ..) => obtain rfl := Res.ok.inj ht; exact .wrapper

theorem list_iff {U : UnicodeTable} {n p : Node} {above : List Node} {e : RsEntity} (hn : n.tag = "list".toList) :
    parseNode U n p above = .ok e ↔
      (∃ t, n.attr "itemType".toList = some t ∧ e = .tupleStruct (.mk [] none t [] [.array] [])) ∨
      (n.attr "itemType".toList = none ∧ ∃ c x, (withTags n ["simpleType"]).head? = some c ∧
        parseNode U c n (p :: above) = .ok x ∧ ListOf x e) := by
  rw [parseNode_tag (s := "list") (t := .list) (by decide) hn]
  show parseList _ = _ ↔ _
  unfold parseList
  rw [show (placeOf U n p above).node = n from rfl]
  have hfind : (placeOf U n p above).kids.find? (fun k => k.1.isElement && decide (k.1.tag = "simpleType".toList)) =
      ((withTags n ["simpleType"]).head?).map fun k => (k, parseNode U k n (p :: above)) := by
    rw [find_kid fun k => k.isElement && decide (k.tag = "simpleType".toList), find_tag _ _ (by decide)]
    unfold withTags
    rw [List.head?_filter]
    congr 2
    funext c
    rw [List.any_cons, List.any_nil, Bool.or_false]
  cases n.attr "itemType".toList with
  | some t =>
    dsimp only
    constructor
    · intro h; exact .inl ⟨t, rfl, (Res.ok.inj h).symm⟩
    · rintro (⟨t', ht, rfl⟩ | ⟨h, -⟩)
      · obtain rfl := Option.some.inj ht; rfl
      · cases h
  | none =>
    dsimp only
    rw [hfind]
    constructor
    · intro h
      obtain ⟨k, hk, h⟩ := Res.bind_eq_ok.1 h
      obtain ⟨c, hc, rfl⟩ := Option.map_eq_some_iff.1 (unwrap_ok.1 hk)
      obtain ⟨x, hx, h⟩ := Res.bind_eq_ok.1 h
      obtain ⟨t, ht, h⟩ := Res.bind_eq_ok.1 h
      exact .inr ⟨rfl, c, x, hc, hx, listOf_iff.2 ⟨t, ht, (Res.ok.inj h).symm⟩⟩
    · rintro (⟨t', ht, rfl⟩ | ⟨-, c, x, hc, hx, h⟩)
      · cases ht
      · obtain ⟨t, ht, rfl⟩ := listOf_iff.1 h
        rw [hc]
        dsimp only [Option.map_some, Res.unwrap, Res.ok_bind]
        rw [hx, Res.ok_bind, ht]
        rfl

/-! ## Attributes of a type -/

theorem asField_iff {x : RsEntity} {f : StructField} : asField x = .ok f ↔ x = .structField f := by
  constructor
  · intro h
    cases x with
    | structField g => obtain rfl := Res.ok.inj h; rfl
    | _ => cases h
  · rintro rfl; rfl

theorem asAlias_iff {x : RsEntity} {a : RAlias} : asAlias x = .ok a ↔ x = .alias a := by
  constructor
  · intro h
    cases x with
    | «alias» g => obtain rfl := Res.ok.inj h; rfl
    | _ => cases h
  · rintro rfl; rfl

theorem tags2_eq (n : Node) (s t : String) (k l : ElementType) (h1 : (s, k) ∈ plainTags) (h2 : (t, l) ∈ plainTags) :
    (n.children.filter fun c => decide (kindD (some n.tag) c = k ∨ kindD (some n.tag) c = l)) = withTags n [s, t] := by
  unfold withTags
  refine List.filter_congr fun c _ => ?_
  rw [List.any_cons, List.any_cons, List.any_nil, Bool.or_false, Bool.decide_or]
  exact congr (congrArg or (decide_eq_decide.2 (kindD_iff h1))) (decide_eq_decide.2 (kindD_iff h2))

theorem mem_withTags2 {n c : Node} {s t : String} :
    c ∈ withTags n [s, t] ↔ c ∈ n.children ∧ (c.tag = s.toList ∨ c.tag = t.toList) := by
  unfold withTags
  rw [List.mem_filter, List.any_cons, List.any_cons, List.any_nil, Bool.or_false, Bool.or_eq_true,
    decide_eq_true_iff, decide_eq_true_iff]

theorem attrField_iff {U : UnicodeTable} {c n : Node} {above : List Node} {f : StructField}
    (hc : c.tag = "attribute".toList ∨ c.tag = "anyAttribute".toList) (hn : n.tag ≠ "schema".toList) (hf : NotFacet n) :
    (parseNode U c n above).bind asField = .ok f ↔ AttrField c f := by
  rcases hc with hc | hc
  · constructor
    · intro h
      obtain ⟨e, he, h⟩ := Res.bind_eq_ok.1 h
      obtain ⟨g, hg, rfl⟩ := (attribute_iff hc hn hf).1 he
      obtain rfl := Res.ok.inj h
      exact .attribute hc hg
    · intro h
      cases h with
      | «attribute» _ h => rw [(attribute_iff hc hn hf).2 ⟨f, h, rfl⟩]; rfl
      | any h => exact absurd (hc.symm.trans h) (by decide)
  · rw [parseNode_tag (s := "anyAttribute") (t := .anyAttribute) (by decide) hc]
    show asField (parseAnyAttribute c) = _ ↔ _
    unfold parseAnyAttribute
    rw [documentation_eq]
    constructor
    · intro h
      obtain rfl := Res.ok.inj h
      exact .any hc
    · intro h
      cases h with
      | «attribute» h => exact absurd (hc.symm.trans h) (by decide)
      | any => rfl

theorem attributesToFields_iff {U : UnicodeTable} {n p : Node} {above : List Node} {fs : List StructField}
    (hn : n.tag ≠ "schema".toList) (hf : NotFacet n) :
    attributesToFields (placeOf U n p above) = .ok fs ↔ Readable n ∧ AttrFields n fs := by
  have hcongr : List.Forall₂ (fun c b => (parseNode U c n (p :: above)).bind asField = .ok b)
      (withTags n ["attribute", "anyAttribute"]) fs ↔ AttrFields n fs :=
    forall₂_congr fun c hc f => attrField_iff (mem_withTags2.1 hc).2 hn hf
  unfold attributesToFields
  constructor
  · intro h
    obtain ⟨ks, hk, h⟩ := Res.bind_eq_ok.1 h
    obtain ⟨hr, rfl⟩ := typedKids_ok.1 hk
    have := (mapM'_kids (fun t _ => decide (t = .attribute ∨ t = .anyAttribute)) asField).1 h
    rw [tags2_eq n "attribute" "anyAttribute" .attribute .anyAttribute (by decide) (by decide)] at this
    exact ⟨hr, hcongr.1 this⟩
  · rintro ⟨hr, h⟩
    rw [typedKids_ok.2 ⟨hr, rfl⟩, Res.ok_bind]
    refine (mapM'_kids (fun t _ => decide (t = .attribute ∨ t = .anyAttribute)) asField).2 ?_
    rw [tags2_eq n "attribute" "anyAttribute" .attribute .anyAttribute (by decide) (by decide)]
    exact hcongr.2 h

theorem schema_kind {q : Option Str} {p : Node} {t : ElementType} (ht : KindOf q p t) :
    t = .schema ↔ p.tag = "schema".toList := by
  constructor
  · rintro rfl; exact (plain_iff (s := "schema") (by decide)).1 ht
  · intro e
    have := (plain_iff (s := "schema") (t := .schema) (by decide) (p := q)).2 e
    exact Res.ok.inj ((kind_xsdType ht).symm.trans (kind_xsdType this))

theorem groupRef_iff {U : UnicodeTable} {c n : Node} {above : List Node} {a : RAlias}
    (hc : c.tag = "attributeGroup".toList) (hn : n.tag ≠ "schema".toList) (hf : NotFacet n) :
    (parseNode U c n above).bind asAlias = .ok a ↔ GroupRef c a := by
  rw [parseNode_tag (s := "attributeGroup") (t := .attributeGroup) (by decide) hc]
  show (parseAttributeGroup _).bind _ = _ ↔ _
  unfold parseAttributeGroup
  obtain ⟨t, ht⟩ := kind_total (p := above.head?.map Node.tag) hf
  rw [show (placeOf U c n above).parentType = .ok t from kind_xsdType ht, Res.ok_bind,
    if_neg (fun e => hn ((schema_kind ht).1 e)), show (placeOf U c n above).node = c from rfl, documentation_eq]
  unfold attrRef GroupRef
  constructor
  · intro h
    obtain ⟨e, he, h⟩ := Res.bind_eq_ok.1 h
    obtain ⟨r, hr, he⟩ := Res.bind_eq_ok.1 he
    obtain rfl := Res.ok.inj he
    exact ⟨r, unwrap_ok.1 hr, (Res.ok.inj h).symm⟩
  · rintro ⟨r, hr, rfl⟩
    rw [hr]
    rfl

theorem groupRefs_iff {U : UnicodeTable} {n p : Node} {above : List Node} {as : List RAlias}
    (hn : n.tag ≠ "schema".toList) (hf : NotFacet n) :
    attributeGroupsToAliases (placeOf U n p above) = .ok as ↔ Readable n ∧ GroupRefs n as := by
  have hcongr : List.Forall₂ (fun c b => (parseNode U c n (p :: above)).bind asAlias = .ok b)
      (withTags n ["attributeGroup"]) as ↔ GroupRefs n as :=
    forall₂_congr fun c hc f => groupRef_iff (mem_withTags.1 hc).2 hn hf
  unfold attributeGroupsToAliases
  constructor
  · intro h
    obtain ⟨ks, hk, h⟩ := Res.bind_eq_ok.1 h
    obtain ⟨hr, rfl⟩ := typedKids_ok.1 hk
    have := (mapM'_kids (fun t _ => decide (t = .attributeGroup)) asAlias).1 h
    rw [kind_filter (s := "attributeGroup") (by decide)] at this
    exact ⟨hr, hcongr.1 this⟩
  · rintro ⟨hr, h⟩
    rw [typedKids_ok.2 ⟨hr, rfl⟩, Res.ok_bind]
    refine (mapM'_kids (fun t _ => decide (t = .attributeGroup)) asAlias).2 ?_
    rw [kind_filter (s := "attributeGroup") (by decide)]
    exact hcongr.2 h

/-! ## Unions -/

theorem spaceSeparated_iff {s : Str} {ws : List Str} :
    SpaceSeparated s ws ↔ ws = (Str.splitOn ' ' s).filter (· ≠ []) := by
  constructor
  · intro h
    induction h with
    | nil => rfl
    | space h ih => rw [Str.splitOn, if_pos rfl, List.filter_cons_of_neg (by simp), ih]
    | @last w h1 h2 => rw [Gen.splitOn_of_not_mem h2, List.filter_cons_of_pos (by simpa using h1)]; rfl
    | @word w s ws h1 h2 h ih => rw [Gen.splitOn_append h2, List.filter_cons_of_pos (by simpa using h1), ih]
  · rintro rfl
    suffices H : ∀ (k : Nat) (s : Str), s.length ≤ k → SpaceSeparated s ((Str.splitOn ' ' s).filter (· ≠ [])) from
      H s.length s (Nat.le_refl _)
    intro k
    induction k with
    | zero =>
      intro s hs
      obtain rfl := List.length_eq_zero_iff.1 (Nat.le_zero.1 hs)
      exact .nil
    | succ k ih =>
      intro s hs
      by_cases hm : ' ' ∈ s
      · obtain ⟨a, b, rfl, ha⟩ := List.eq_append_cons_of_mem hm
        have hb := ih b (by rw [List.length_append, List.length_cons] at hs; omega)
        rw [Gen.splitOn_append ha]
        by_cases he : a = []
        · subst he
          rw [List.filter_cons_of_neg (by simp)]
          exact .space hb
        · rw [List.filter_cons_of_pos (by simpa using he)]
          exact .word he ha hb
      · by_cases he : s = []
        · subst he; exact .nil
        · rw [Gen.splitOn_of_not_mem hm, List.filter_cons_of_pos (by simpa using he)]
          exact .last he hm

theorem numeral_eq (n : Nat) : numeral n = Str.natStr n := by
  unfold numeral Str.natStr
  simp [toString, Nat.repr]

theorem unionSubtypes_iff {rs : List (Res RsEntity)} : ∀ {i : Nat} {es : List RsEntity}, unionSubtypes i rs = .ok es ↔
    List.Forall₂ (fun r e => ∃ x, r.1 = .ok x ∧ Renamed ("EnumCaseType_".toList ++ numeral r.2) x e) (rs.zipIdx i) es := by
  induction rs with
  | nil =>
    intro i es
    rw [List.zipIdx_nil]
    constructor
    · intro h; obtain rfl := Res.ok.inj h; exact .nil
    · intro h; cases h; rfl
  | cons r rs ih =>
    intro i es
    rw [unionSubtypes, List.zipIdx_cons]
    constructor
    · intro h
      obtain ⟨x, hx, h⟩ := Res.bind_eq_ok.1 h
      obtain ⟨ys, hy, h⟩ := Res.bind_eq_ok.1 h
      obtain rfl := Res.ok.inj h
      exact .cons ⟨x, hx, by rw [numeral_eq]; exact renamed_iff.2 rfl⟩ (ih.1 hy)
    · intro h
      cases h with
      | cons h1 h2 =>
        obtain ⟨x, hx, hr⟩ := h1
        rw [numeral_eq] at hr
        rw [show r = .ok x from hx, Res.ok_bind, ih.2 h2, Res.ok_bind, renamed_iff.1 hr]

theorem unionCases_eq {rs : List (Res RsEntity)} : ∀ {i : Nat} {es : List RsEntity},
    List.Forall₂ (fun r e => ∃ x, r.1 = .ok x ∧ Renamed ("EnumCaseType_".toList ++ numeral r.2) x e) (rs.zipIdx i) es →
    unionCases i es = (List.range' i es.length).map fun i =>
      ⟨"EnumCase_".toList ++ numeral i, none, [], some ("EnumCaseType_".toList ++ numeral i), [], .union⟩ := by
  induction rs with
  | nil => intro i es h; rw [List.zipIdx_nil] at h; cases h; rfl
  | cons r rs ih =>
    intro i es h
    rw [List.zipIdx_cons] at h
    cases h with
    | cons h1 h2 =>
      obtain ⟨x, hx, hr⟩ := h1
      rw [unionCases, ih h2, List.length_cons, List.range'_succ, List.map_cons, renamed_iff.1 hr, setName_name,
        ← numeral_eq]

theorem union_iff {U : UnicodeTable} {n p : Node} {above : List Node} {e : RsEntity} (hn : n.tag = "union".toList)
    (hattr : withTags n ["attribute", "anyAttribute"] = []) :
    parseNode U n p above = .ok e ↔ Readable n ∧ ∃ ws subs, MemberTypes n ws ∧
      List.Forall₂ (fun c s => ∃ x, parseNode U c.1 n (p :: above) = .ok x ∧
        Renamed ("EnumCaseType_".toList ++ numeral c.2) x s) (withTags n ["simpleType"]).zipIdx subs ∧
      e = .enum (.mk [] (unionCasesOf ws subs.length) (docOf n) "String".toList subs .union) := by
  have hns : n.tag ≠ "schema".toList := by rw [hn]; decide
  have hnf : NotFacet n := ⟨by rw [hn]; decide, by rw [hn]; decide +kernel⟩
  have hmt : ∀ ws, MemberTypes n ws ↔ ((n.attr "memberTypes".toList).map createEnumCases).getD [] =
      (ws.map fun w => ⟨w, none, [], some w, [], .union⟩) := by
    intro ws
    have hinj : ∀ a b : List Str, ((a.map fun w => (⟨w, none, [], some w, [], .union⟩ : EnumCase)) =
        b.map fun w => ⟨w, none, [], some w, [], .union⟩) → a = b := by
      intro a b h
      have := congrArg (List.map EnumCase.name) h
      rw [List.map_map, List.map_map] at this
      exact (List.map_id a).symm.trans (this.trans (List.map_id b))
    cases ha : n.attr "memberTypes".toList with
    | none =>
      constructor
      · intro h
        cases h with
        | none => rfl
        | some h' => rw [ha] at h'; cases h'
      · intro h
        obtain rfl : ws = [] := List.map_eq_nil_iff.1 h.symm
        exact .none ha
    | some s =>
      rw [Option.map_some, Option.getD_some]
      unfold createEnumCases
      constructor
      · intro h
        cases h with
        | none h' => rw [ha] at h'; cases h'
        | some h' hs =>
          obtain rfl := Option.some.inj (ha.symm.trans h')
          rw [spaceSeparated_iff.1 hs]
      · intro h
        exact .some ha (spaceSeparated_iff.2 (hinj _ _ h).symm)
  have hfil : ((kidsOf U n p above).filter fun k => decide (k.2.1.isElement = true ∧ k.1 = .simpleType)).map (·.2.2) =
      (withTags n ["simpleType"]).map fun c => parseNode U c n (p :: above) := by
    rw [filter_kids U n p above fun t c => decide (c.isElement = true ∧ t = .simpleType),
      tags_eq n "simpleType" .simpleType (by decide) (by decide), List.map_map]
    rfl
  have hz : ∀ subs, List.Forall₂ (fun r e => ∃ x, r.1 = .ok x ∧ Renamed ("EnumCaseType_".toList ++ numeral r.2) x e)
      (((withTags n ["simpleType"]).map fun c => parseNode U c n (p :: above)).zipIdx) subs ↔
      List.Forall₂ (fun c s => ∃ x, parseNode U c.1 n (p :: above) = .ok x ∧
        Renamed ("EnumCaseType_".toList ++ numeral c.2) x s) (withTags n ["simpleType"]).zipIdx subs := by
    intro subs
    rw [List.zipIdx_map, List.forall₂_map_left_iff]
    rfl
  rw [parseNode_tag (s := "union") (t := .union) (by decide) hn]
  show parseUnion _ = _ ↔ _
  unfold parseUnion
  rw [show (placeOf U n p above).node = n from rfl, documentation_eq]
  constructor
  · intro h
    obtain ⟨ks, hk, h⟩ := Res.bind_eq_ok.1 h
    obtain ⟨hr, rfl⟩ := typedKids_ok.1 hk
    obtain ⟨subs, hs, h⟩ := Res.bind_eq_ok.1 h
    rw [hfil, unionSubtypes_iff] at hs
    obtain ⟨fields, hf, h⟩ := Res.bind_eq_ok.1 h
    have := ((attributesToFields_iff hns hnf).1 hf).2
    unfold AttrFields at this
    rw [hattr] at this
    obtain rfl := List.forall₂_nil_left_iff.1 this
    have h : Res.ok (RsEntity.enum (.mk [] (((n.attr "memberTypes".toList).map createEnumCases).getD [] ++
      unionCases 0 subs) (docOf n) "String".toList subs .union)) = .ok e := h
    have hw : ∃ ws, MemberTypes n ws := by
      cases ha : n.attr "memberTypes".toList with
      | none => exact ⟨[], .none ha⟩
      | some v => exact ⟨_, .some ha (spaceSeparated_iff.2 rfl)⟩
    obtain ⟨ws, hw⟩ := hw
    rw [(hmt ws).1 hw, unionCases_eq hs, ← List.range_eq_range'] at h
    exact ⟨hr, ws, subs, hw, (hz _).1 hs, (Res.ok.inj h).symm⟩
  · rintro ⟨hr, ws, subs, hw, hs, rfl⟩
    have hs' := (hz _).2 hs
    have hf := (attributesToFields_iff (U := U) (p := p) (above := above) (fs := []) hns hnf).2
      ⟨hr, by unfold AttrFields; rw [hattr]; exact .nil⟩
    rw [typedKids_ok.2 ⟨hr, rfl⟩, Res.ok_bind, hfil, unionSubtypes_iff.2 hs', Res.ok_bind, hf, Res.ok_bind]
    show Res.ok (RsEntity.enum (.mk [] (((n.attr "memberTypes".toList).map createEnumCases).getD [] ++
      unionCases 0 subs) (docOf n) "String".toList subs .union)) = _
    rw [unionCases_eq hs', (hmt ws).1 hw, ← List.range_eq_range']
    rfl

end Verif.Lemmas.Parse
