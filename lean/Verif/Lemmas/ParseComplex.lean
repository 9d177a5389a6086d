import Verif.Lemmas.ParseSimple

/-! # What `parse_node` gives for complex types and global declarations -/

namespace Verif.Lemmas.Parse

open Verif Verif.Model Verif.RoXml Verif.Spec

theorem tagsL_eq (n : Node) (q : ElementType → Node → Bool) (L : List (String × ElementType))
    (hL : ∀ r ∈ L, r ∈ plainTags) (hne : ∀ r ∈ L, r.1.toList ≠ [])
    (hq : ∀ t c, q t c = true ↔ c.isElement = true ∧ t ∈ L.map (·.2)) :
    (n.children.filter fun c => q (kindD (some n.tag) c) c) = withTags n (L.map (·.1)) := by
  unfold withTags
  refine List.filter_congr fun c _ => ?_
  rw [Bool.eq_iff_iff, hq, List.any_eq_true]
  constructor
  · rintro ⟨-, h⟩
    obtain ⟨r, hr, h⟩ := List.mem_map.1 h
    exact ⟨r.1, List.mem_map.2 ⟨r, hr, rfl⟩, decide_eq_true ((kindD_iff (hL r hr)).1 h.symm)⟩
  · rintro ⟨s, hs, h⟩
    obtain ⟨r, hr, rfl⟩ := List.mem_map.1 hs
    have h := of_decide_eq_true h
    refine ⟨tag_isElement ?_, List.mem_map.2 ⟨r, hr, ((kindD_iff (hL r hr)).2 h).symm⟩⟩
    rw [h]
    exact hne r hr

theorem contentTags_eq (n : Node) :
    (n.children.filter fun c => isComplexContent (kindD (some n.tag) c) c) = withTags n contentTags := by
  refine tagsL_eq n isComplexContent [("all", .all), ("choice", .choice), ("complexContent", .complexContent),
    ("group", .group), ("sequence", .sequence), ("simpleContent", .simpleContent)] (by decide +kernel) (by decide) ?_
  intro t c
  show _ ↔ _ ∧ t ∈ [ElementType.all, .choice, .complexContent, .group, .sequence, .simpleContent]
  unfold isComplexContent
  rw [decide_eq_true_iff]
  simp

theorem extensionContent_eq (n : Node) :
    (n.children.filter fun c => isExtensionContent (kindD (some n.tag) c) c) =
      withTags n ["all", "attributeGroup", "choice", "group", "sequence"] := by
  refine tagsL_eq n isExtensionContent [("all", .all), ("attributeGroup", .attributeGroup), ("choice", .choice),
    ("group", .group), ("sequence", .sequence)] (by decide +kernel) (by decide) ?_
  intro t c
  show _ ↔ _ ∧ t ∈ [ElementType.all, .attributeGroup, .choice, .group, .sequence]
  unfold isExtensionContent
  rw [decide_eq_true_iff]
  cases t <;> simp

theorem restrictionContent_eq (n : Node) :
    (n.children.filter fun c => isRestrictionContent (kindD (some n.tag) c) c) =
      withTags n ["all", "anyAttribute", "attributeGroup", "choice", "group", "sequence"] := by
  refine tagsL_eq n isRestrictionContent [("all", .all), ("anyAttribute", .anyAttribute),
    ("attributeGroup", .attributeGroup), ("choice", .choice), ("group", .group), ("sequence", .sequence)]
    (by decide +kernel) (by decide) ?_
  intro t c
  show _ ↔ _ ∧ t ∈ [ElementType.all, .anyAttribute, .attributeGroup, .choice, .group, .sequence]
  unfold isRestrictionContent
  rw [decide_eq_true_iff]
  cases t <;> simp

theorem facetStrings : ∀ f ∈ facetTags, ∀ s ∈ plainTags.map (·.1) ++ ["extension", "restriction"],
    s.toList ≠ f.1.toList := by decide +kernel

theorem notFacet_of {n : Node} {s : String} (hs : s ∈ plainTags.map (·.1) ++ ["extension", "restriction"])
    (hn : n.tag = s.toList) : NotFacet n := by
  refine ⟨?_, fun f hf e => facetStrings f hf s hs (hn.symm.trans e)⟩
  intro e
  have : ∀ s ∈ plainTags.map (·.1) ++ ["extension", "restriction"], s.toList ≠ "whiteSpace".toList := by
    decide +kernel
  exact this s hs (hn.symm.trans e)

/-! ## Complex types -/

theorem completed_iff {U : UnicodeTable} {n p : Node} {above : List Node} {name : Str} {attrs : List StructField}
    {x e : RsEntity} (hn : n.tag ≠ "schema".toList) (hf : NotFacet n) (hr : Readable n) :
    finishComplexType (placeOf U n p above) name attrs x = .ok e ↔ Completed n name attrs x e := by
  match x with
  | .struct (.mk ..) =>
    refine ⟨fun h => ?_, fun h => ?_⟩
    · obtain rfl := Res.ok.inj h; exact .struct
    · cases h with
      | struct => rfl
      | other h => exact absurd rfl (h _)
  | .enum (.mk ..) =>
    unfold finishComplexType
    dsimp only
    rw [show (placeOf U n p above).node = n from rfl, documentation_eq]
    refine ⟨fun h => ?_, fun h => ?_⟩
    · obtain ⟨ags, ha, h⟩ := Res.bind_eq_ok.1 h
      obtain rfl := Res.ok.inj h
      exact .enum ((groupRefs_iff hn hf).1 ha).2
    · cases h with
      | enum ha => rw [(groupRefs_iff hn hf).2 ⟨hr, ha⟩]; rfl
      | other _ h => exact absurd rfl (h _)
  | .tupleStruct t =>
    refine ⟨fun h => ?_, fun h => ?_⟩
    · obtain rfl := Res.ok.inj h; exact .other (fun _ h => nomatch h) (fun _ h => nomatch h)
    · cases h with
      | other => rfl
  | .enumCase t =>
    refine ⟨fun h => ?_, fun h => ?_⟩
    · obtain rfl := Res.ok.inj h; exact .other (fun _ h => nomatch h) (fun _ h => nomatch h)
    · cases h with
      | other => rfl
  | .alias t =>
    refine ⟨fun h => ?_, fun h => ?_⟩
    · obtain rfl := Res.ok.inj h; exact .other (fun _ h => nomatch h) (fun _ h => nomatch h)
    · cases h with
      | other => rfl
  | .structField t =>
    refine ⟨fun h => ?_, fun h => ?_⟩
    · obtain rfl := Res.ok.inj h; exact .other (fun _ h => nomatch h) (fun _ h => nomatch h)
    · cases h with
      | other => rfl
  | .import t =>
    refine ⟨fun h => ?_, fun h => ?_⟩
    · obtain rfl := Res.ok.inj h; exact .other (fun _ h => nomatch h) (fun _ h => nomatch h)
    · cases h with
      | other => rfl

theorem complexTypeName_iff {U : UnicodeTable} {n p : Node} {above : List Node} {nm : Str}
    (ha : ∀ a ∈ p :: above, NotFacet a) : complexTypeName (placeOf U n p above) = .ok nm ↔ TypeName n p above nm := by
  obtain ⟨t, ht⟩ := kind_total (p := above.head?.map Node.tag) (ha p List.mem_cons_self)
  unfold complexTypeName
  rw [show (placeOf U n p above).parentType = .ok t from kind_xsdType ht, Res.ok_bind,
    show (placeOf U n p above).node = n from rfl,
    show (placeOf U n p above).parentName = getParentName (p :: above) from rfl]
  unfold attrName
  by_cases hs : t = .schema
  · rw [if_pos hs, unwrap_ok]
    have hp := (schema_kind ht).1 hs
    exact ⟨fun h => .global hp h, fun h => by
      cases h with
      | global _ h => exact h
      | inline h => exact absurd hp h⟩
  · rw [if_neg hs, ownerName_iff ha]
    have hp : p.tag ≠ "schema".toList := fun e => hs ((schema_kind ht).2 e)
    exact ⟨fun h => .inline hp h, fun h => by
      cases h with
      | global h => exact absurd h hp
      | inline _ h => exact h⟩

theorem complexType_iff {U : UnicodeTable} {n p : Node} {above : List Node} {e : RsEntity}
    (hn : n.tag = "complexType".toList) (ha : ∀ a ∈ p :: above, NotFacet a) :
    parseNode U n p above = .ok e ↔
      ComplexType (fun c x => parseNode U c n (p :: above) = .ok x) n p above e := by
  have hns : n.tag ≠ "schema".toList := by rw [hn]; decide
  have hnf : NotFacet n := notFacet_of (s := "complexType") (by decide +kernel) hn
  rw [parseNode_tag (s := "complexType") (t := .complexType) (by decide) hn]
  show parseComplexType _ = _ ↔ _
  unfold parseComplexType
  rw [show (placeOf U n p above).node = n from rfl, documentation_eq]
  constructor
  · intro h
    obtain ⟨nm, hnm, h⟩ := Res.bind_eq_ok.1 h
    obtain ⟨attrs, hat, h⟩ := Res.bind_eq_ok.1 h
    obtain ⟨k, hk, h⟩ := Res.bind_eq_ok.1 h
    obtain ⟨hr, rfl⟩ := lastKid_ok.1 hk
    have hnm := (complexTypeName_iff ha).1 hnm
    have hat := ((attributesToFields_iff hns hnf).1 hat).2
    rw [contentTags_eq] at h
    cases hc : (withTags n contentTags).getLast? with
    | none =>
      rw [hc] at h
      dsimp only [Option.map_none] at h
      obtain ⟨ags, hg, h⟩ := Res.bind_eq_ok.1 h
      obtain rfl := Res.ok.inj h
      exact .plain hnm hr hat ((groupRefs_iff hns hnf).1 hg).2 (fun c h => by rw [hc] at h; cases h)
    | some c =>
      rw [hc] at h
      dsimp only [Option.map_some] at h
      by_cases hz : (c.children.filter Node.isElement).length = 0
      · rw [if_pos hz] at h
        obtain ⟨ags, hg, h⟩ := Res.bind_eq_ok.1 h
        obtain rfl := Res.ok.inj h
        refine .plain hnm hr hat ((groupRefs_iff hns hnf).1 hg).2 (fun c' h => ?_)
        obtain rfl := Option.some.inj (hc.symm.trans h)
        exact List.length_eq_zero_iff.1 hz
      · rw [if_neg hz] at h
        obtain ⟨x, hx, h⟩ := Res.bind_eq_ok.1 h
        exact .content hnm hr hat hc (fun h => hz (by rw [h]; rfl)) hx ((completed_iff hns hnf hr).1 h)
  · intro h
    cases h with
    | plain hnm hr hat hg hc =>
      rw [(complexTypeName_iff ha).2 hnm, Res.ok_bind, (attributesToFields_iff hns hnf).2 ⟨hr, hat⟩, Res.ok_bind,
        lastKid_ok.2 ⟨hr, rfl⟩, Res.ok_bind, contentTags_eq, (groupRefs_iff hns hnf).2 ⟨hr, hg⟩]
      cases hl : (withTags n contentTags).getLast? with
      | none => rfl
      | some c =>
        dsimp only [Option.map_some]
        rw [if_pos (by rw [hc c hl]; rfl)]
        rfl
    | content hnm hr hat hl hc hx h =>
      rw [(complexTypeName_iff ha).2 hnm, Res.ok_bind, (attributesToFields_iff hns hnf).2 ⟨hr, hat⟩, Res.ok_bind,
        lastKid_ok.2 ⟨hr, rfl⟩, Res.ok_bind, contentTags_eq, hl]
      dsimp only [Option.map_some]
      rw [if_neg (fun h => hc (List.length_eq_zero_iff.1 h)), hx, Res.ok_bind]
      exact (completed_iff hns hnf hr).2 h

/-- Complex and simple content: the last member. -/
theorem content_iff {U : UnicodeTable} {n p : Node} {above : List Node} {e : RsEntity}
    (hn : n.tag = "complexContent".toList ∨ n.tag = "simpleContent".toList) :
    parseNode U n p above = .ok e ↔ Readable n ∧ ∃ c, (members n).getLast? = some c ∧
      parseNode U c n (p :: above) = .ok e := by
  have hp : parseNode U n p above = parseContent (placeOf U n p above) := by
    rcases hn with hn | hn
    · rw [parseNode_tag (s := "complexContent") (t := .complexContent) (by decide) hn]; rfl
    · rw [parseNode_tag (s := "simpleContent") (t := .simpleContent) (by decide) hn]; rfl
  rw [hp]
  unfold parseContent
  constructor
  · intro h
    obtain ⟨k, hk, h⟩ := Res.bind_eq_ok.1 h
    obtain ⟨hr, rfl⟩ := lastKid_ok.1 hk
    obtain ⟨k, hk, h⟩ := Res.bind_eq_ok.1 h
    have hk := unwrap_ok.1 hk
    rw [members_eq] at hk
    obtain ⟨c, hc, rfl⟩ := Option.map_eq_some_iff.1 hk
    exact ⟨hr, c, hc, h⟩
  · rintro ⟨hr, c, hc, h⟩
    rw [lastKid_ok.2 ⟨hr, rfl⟩, Res.ok_bind, members_eq, hc]
    exact h

/-! ## Derived types -/

/-- The code shared by extension and restriction. -/
theorem derived_iff {U : UnicodeTable} {n p : Node} {above : List Node} {e : RsEntity}
    {q : ElementType → Node → Bool} {content : List String} (hns : n.tag ≠ "schema".toList) (hnf : NotFacet n)
    (hq : (n.children.filter fun c => q (kindD (some n.tag) c) c) = withTags n content) :
    ((Res.unwrap (n.attr "base".toList)).bind fun base =>
      (attributesToFields (placeOf U n p above)).bind fun fields =>
        ((placeOf U n p above).lastKid q).bind fun
          | some k => k.2.bind (derivedWithContent (placeOf U n p above) (fields ++ [baseField n base]))
          | none => derivedWithoutContent (placeOf U n p above) (fields ++ [baseField n base])) = .ok e ↔
      Readable n ∧ Derived (fun c x => parseNode U c n (p :: above) = .ok x) content n e := by
  have hbm : ∀ base, baseField n base = baseMarker n base := fun base => by
    unfold baseField; rw [documentation_eq]; rfl
  have hwo : ∀ {fields e}, Readable n → (derivedWithoutContent (placeOf U n p above) fields = .ok e ↔
      ∃ ags, GroupRefs n ags ∧ e = .struct (.mk [] (docOf n) fields ags [])) := by
    intro fields e hr
    unfold derivedWithoutContent
    rw [show (placeOf U n p above).node = n from rfl, documentation_eq]
    constructor
    · intro h
      obtain ⟨ags, hg, h⟩ := Res.bind_eq_ok.1 h
      exact ⟨ags, ((groupRefs_iff hns hnf).1 hg).2, (Res.ok.inj h).symm⟩
    · rintro ⟨ags, hg, rfl⟩
      rw [(groupRefs_iff hns hnf).2 ⟨hr, hg⟩]
      rfl
  have hnot : ∀ {fields x}, (∀ s, x ≠ RsEntity.struct s) →
      derivedWithContent (placeOf U n p above) fields x = derivedWithoutContent (placeOf U n p above) fields := by
    intro fields x hx
    cases x with
    | struct s => exact absurd rfl (hx s)
    | _ => rfl
  constructor
  · intro h
    obtain ⟨base, hb, h⟩ := Res.bind_eq_ok.1 h
    have hb := unwrap_ok.1 hb
    obtain ⟨attrs, hat, h⟩ := Res.bind_eq_ok.1 h
    have hat := ((attributesToFields_iff hns hnf).1 hat).2
    obtain ⟨k, hk, h⟩ := Res.bind_eq_ok.1 h
    obtain ⟨hr, rfl⟩ := lastKid_ok.1 hk
    rw [hq] at h
    refine ⟨hr, ?_⟩
    cases hl : (withTags n content).getLast? with
    | none =>
      rw [hl] at h
      obtain ⟨ags, hg, rfl⟩ := (hwo hr).1 h
      rw [hbm]
      exact .without hb hat hg hl
    | some c =>
      rw [hl] at h
      obtain ⟨x, hx, h⟩ := Res.bind_eq_ok.1 h
      by_cases hs : ∃ s, x = .struct s
      · obtain ⟨⟨nm, cm, fs, ag, sub⟩, rfl⟩ := hs
        unfold derivedWithContent at h
        rw [show (placeOf U n p above).node = n from rfl, documentation_eq, hbm] at h
        obtain rfl := Res.ok.inj h
        exact .struct hb hat hl hx
      · have hs : ∀ s, x ≠ .struct s := fun s e => hs ⟨s, e⟩
        rw [hnot hs] at h
        obtain ⟨ags, hg, rfl⟩ := (hwo hr).1 h
        rw [hbm]
        exact .lost hb hat hg hl hx hs
  · rintro ⟨hr, h⟩
    cases h with
    | without hb hat hg hl =>
      rw [hb, Res.unwrap, Res.ok_bind, (attributesToFields_iff hns hnf).2 ⟨hr, hat⟩, Res.ok_bind,
        lastKid_ok.2 ⟨hr, rfl⟩, Res.ok_bind, hq, hl]
      exact (hwo hr).2 ⟨_, hg, by rw [hbm]⟩
    | struct hb hat hl hx =>
      rw [hb, Res.unwrap, Res.ok_bind, (attributesToFields_iff hns hnf).2 ⟨hr, hat⟩, Res.ok_bind,
        lastKid_ok.2 ⟨hr, rfl⟩, Res.ok_bind, hq, hl]
      dsimp only [Option.map_some]
      rw [hx, Res.ok_bind]
      unfold derivedWithContent
      rw [show (placeOf U n p above).node = n from rfl, documentation_eq, hbm]
    | lost hb hat hg hl hx hs =>
      rw [hb, Res.unwrap, Res.ok_bind, (attributesToFields_iff hns hnf).2 ⟨hr, hat⟩, Res.ok_bind,
        lastKid_ok.2 ⟨hr, rfl⟩, Res.ok_bind, hq, hl]
      dsimp only [Option.map_some]
      rw [hx, Res.ok_bind, hnot hs]
      exact (hwo hr).2 ⟨_, hg, by rw [hbm]⟩

theorem extension_iff {U : UnicodeTable} {n p : Node} {above : List Node} {e : RsEntity}
    (hn : n.tag = "extension".toList) (hp : p.tag = "complexContent".toList) :
    parseNode U n p above = .ok e ↔ Readable n ∧ Derived (fun c x => parseNode U c n (p :: above) = .ok x)
      ["all", "attributeGroup", "choice", "group", "sequence"] n e := by
  have hk : KindOf (some p.tag) n (.extension .complexContent) :=
    .extension (s := "complexContent") hn (by decide) (congrArg some hp)
  have hns : n.tag ≠ "schema".toList := by rw [hn]; decide
  have hnf : NotFacet n := notFacet_of (s := "extension") (by decide +kernel) hn
  have h1 : parseNode U n p above = complexContentExtension (placeOf U n p above) := by
    rw [parseNode_of hk]
    show (xsdType (some p.tag) n).bind _ = _
    rw [kind_xsdType hk]
    rfl
  rw [h1, ← derived_iff hns hnf (extensionContent_eq n)]
  rfl

theorem complexRestriction_iff {U : UnicodeTable} {n p : Node} {above : List Node} {e : RsEntity}
    (hn : n.tag = "restriction".toList) (hp : p.tag = "complexContent".toList) :
    parseNode U n p above = .ok e ↔ Readable n ∧ Derived (fun c x => parseNode U c n (p :: above) = .ok x)
      ["all", "anyAttribute", "attributeGroup", "choice", "group", "sequence"] n e := by
  have hk : KindOf (some p.tag) n (.restriction .complexContent) :=
    .restriction (s := "complexContent") hn (by decide) (congrArg some hp)
  have hns : n.tag ≠ "schema".toList := by rw [hn]; decide
  have hnf : NotFacet n := notFacet_of (s := "restriction") (by decide +kernel) hn
  have h1 : parseNode U n p above = complexContentRestriction (placeOf U n p above) := by
    rw [parseNode_of hk]
    show (xsdType (some p.tag) n).bind _ = _
    rw [kind_xsdType hk]
    rfl
  rw [h1, ← derived_iff hns hnf (restrictionContent_eq n)]
  rfl

theorem simpleExtension_iff {U : UnicodeTable} {n p : Node} {above : List Node} {e : RsEntity}
    (hn : n.tag = "extension".toList) (hp : p.tag = "simpleContent".toList) :
    parseNode U n p above = .ok e ↔ Readable n ∧ ∃ base attrs ags, n.attr "base".toList = some base ∧
      AttrFields n attrs ∧ GroupRefs n ags ∧
      e = .struct (.mk [] (docOf n) (attrs ++ [baseMarker n base]) ags []) := by
  have hk : KindOf (some p.tag) n (.extension .simpleContent) :=
    .extension (s := "simpleContent") hn (by decide) (congrArg some hp)
  have hns : n.tag ≠ "schema".toList := by rw [hn]; decide
  have hnf : NotFacet n := notFacet_of (s := "extension") (by decide +kernel) hn
  have h1 : parseNode U n p above = simpleContentExtension (placeOf U n p above) := by
    rw [parseNode_of hk]
    show (xsdType (some p.tag) n).bind _ = _
    rw [kind_xsdType hk]
    rfl
  rw [h1]
  unfold simpleContentExtension baseField attrBase
  rw [show (placeOf U n p above).node = n from rfl, documentation_eq]
  constructor
  · intro h
    obtain ⟨base, hb, h⟩ := Res.bind_eq_ok.1 h
    obtain ⟨attrs, hat, h⟩ := Res.bind_eq_ok.1 h
    obtain ⟨ags, hg, h⟩ := Res.bind_eq_ok.1 h
    have hat := (attributesToFields_iff hns hnf).1 hat
    exact ⟨hat.1, base, attrs, ags, unwrap_ok.1 hb, hat.2, ((groupRefs_iff hns hnf).1 hg).2, (Res.ok.inj h).symm⟩
  · rintro ⟨hr, base, attrs, ags, hb, hat, hg, rfl⟩
    rw [hb, Res.unwrap, Res.ok_bind, (attributesToFields_iff hns hnf).2 ⟨hr, hat⟩, Res.ok_bind,
      (groupRefs_iff hns hnf).2 ⟨hr, hg⟩]
    rfl

theorem simpleRestriction_panic {U : UnicodeTable} {n p : Node} {above : List Node}
    (hn : n.tag = "restriction".toList) (hp : p.tag = "simpleContent".toList) : parseNode U n p above = .panic := by
  have hk : KindOf (some p.tag) n (.restriction .simpleContent) :=
    .restriction (s := "simpleContent") hn (by decide) (congrArg some hp)
  rw [parseNode_of hk]
  show (xsdType (some p.tag) n).bind _ = _
  rw [kind_xsdType hk]
  rfl

/-! ## Global declarations -/

theorem globalElement_iff {U : UnicodeTable} {n p : Node} {above : List Node} {e : RsEntity}
    (hn : n.tag = "element".toList) (hp : p.tag = "schema".toList) :
    parseNode U n p above = .ok e ↔
      Global (fun c x => parseNode U c n (p :: above) = .ok x) ["simpleType", "complexType"] n (docOf n) e := by
  rw [parseNode_tag (s := "element") (t := .element) (by decide) hn]
  show parseElement _ = _ ↔ _
  unfold parseElement
  rw [parentType_tag (s := "schema") (t := .schema) (by decide) hp, Res.ok_bind]
  show parseGlobalElement _ = _ ↔ _
  unfold parseGlobalElement attrName attrType
  rw [show (placeOf U n p above).node = n from rfl, documentation_eq]
  constructor
  · intro h
    obtain ⟨nm, hnm, h⟩ := Res.bind_eq_ok.1 h
    have hnm := unwrap_ok.1 hnm
    cases ht : n.attr "type".toList with
    | some t =>
      rw [ht] at h
      obtain rfl := Res.ok.inj h
      exact .typed hnm ht
    | none =>
      rw [ht] at h
      dsimp only at h
      obtain ⟨k, hk, h⟩ := Res.bind_eq_ok.1 h
      obtain ⟨hr, rfl⟩ := lastKid_ok.1 hk
      rw [content_eq] at h
      cases hl : (withTags n ["simpleType", "complexType"]).getLast? with
      | none =>
        rw [hl] at h
        obtain rfl := Res.ok.inj h
        exact .empty hnm ht hr hl
      | some c =>
        rw [hl] at h
        obtain ⟨x, hx, h⟩ := Res.bind_eq_ok.1 h
        exact .inline hnm ht hr hl hx (renamed_iff.2 (Res.ok.inj h).symm)
  · intro h
    cases h with
    | typed hnm ht => rw [hnm, ht]; rfl
    | inline hnm ht hr hl hx hre =>
      rw [hnm, ht, Res.unwrap, Res.ok_bind, lastKid_ok.2 ⟨hr, rfl⟩, Res.ok_bind, content_eq, hl]
      dsimp only [Option.map_some]
      rw [hx, Res.ok_bind, renamed_iff.1 hre]
    | empty hnm ht hr hl =>
      rw [hnm, ht, Res.unwrap, Res.ok_bind, lastKid_ok.2 ⟨hr, rfl⟩, Res.ok_bind, content_eq, hl]
      rfl

theorem globalAttribute_iff {U : UnicodeTable} {n p : Node} {above : List Node} {e : RsEntity}
    (hn : n.tag = "attribute".toList) (hp : p.tag = "schema".toList) (hr : n.attr "ref".toList = none) :
    parseNode U n p above = .ok e ↔
      Global (fun c x => parseNode U c n (p :: above) = .ok x) ["simpleType"] n none e := by
  have htags : (n.children.filter fun c => decide (c.isElement = true ∧ kindD (some n.tag) c = .simpleType)) =
      withTags n ["simpleType"] := tags_eq n "simpleType" .simpleType (by decide) (by decide)
  have hlast : ∀ k, ((placeOf U n p above).lastKid fun t n => decide (n.isElement = true ∧ t = .simpleType)) = .ok k ↔
      Readable n ∧ k = ((withTags n ["simpleType"]).getLast?).map fun c => (c, parseNode U c n (p :: above)) := by
    intro k
    rw [lastKid_ok, htags]
  rw [parseNode_tag (s := "attribute") (t := .attribute) (by decide) hn]
  show parseAttribute _ = _ ↔ _
  unfold parseAttribute
  rw [parentType_tag (s := "schema") (t := .schema) (by decide) hp, Res.ok_bind, if_pos rfl]
  unfold parseGlobalAttribute attrName attrType attrRef
  rw [show (placeOf U n p above).node = n from rfl, documentation_eq, hr]
  dsimp only
  constructor
  · intro h
    obtain ⟨nm, hnm, h⟩ := Res.bind_eq_ok.1 h
    have hnm := unwrap_ok.1 hnm
    cases ht : n.attr "type".toList with
    | some t =>
      rw [ht] at h
      obtain rfl := Res.ok.inj h
      exact .typed hnm ht
    | none =>
      rw [ht] at h
      dsimp only at h
      obtain ⟨k, hk, h⟩ := Res.bind_eq_ok.1 h
      obtain ⟨hr, rfl⟩ := (hlast _).1 hk
      cases hl : (withTags n ["simpleType"]).getLast? with
      | none =>
        rw [hl] at h
        obtain rfl := Res.ok.inj h
        exact .empty hnm ht hr hl
      | some c =>
        rw [hl] at h
        obtain ⟨x, hx, h⟩ := Res.bind_eq_ok.1 h
        exact .inline hnm ht hr hl hx (renamed_iff.2 (Res.ok.inj h).symm)
  · intro h
    cases h with
    | typed hnm ht => rw [hnm, ht]; rfl
    | inline hnm ht hr hl hx hre =>
      rw [hnm, ht, Res.unwrap, Res.ok_bind, (hlast _).2 ⟨hr, rfl⟩, Res.ok_bind, hl]
      dsimp only [Option.map_some]
      rw [hx, Res.ok_bind, renamed_iff.1 hre]
    | empty hnm ht hr hl =>
      rw [hnm, ht, Res.unwrap, Res.ok_bind, (hlast _).2 ⟨hr, rfl⟩, Res.ok_bind, hl]
      rfl

theorem globalGroup_iff {U : UnicodeTable} {n p : Node} {above : List Node} {e : RsEntity}
    (hn : n.tag = "attributeGroup".toList) (hp : p.tag = "schema".toList) :
    parseNode U n p above = .ok e ↔ Readable n ∧ ∃ nm fs, n.attr "name".toList = some nm ∧ AttrFields n fs ∧
      e = .struct (.mk nm none fs [] []) := by
  have hns : n.tag ≠ "schema".toList := by rw [hn]; decide
  have hnf : NotFacet n := notFacet_of (s := "attributeGroup") (by decide +kernel) hn
  rw [parseNode_tag (s := "attributeGroup") (t := .attributeGroup) (by decide) hn]
  show parseAttributeGroup _ = _ ↔ _
  unfold parseAttributeGroup attrName
  rw [parentType_tag (s := "schema") (t := .schema) (by decide) hp, Res.ok_bind, if_pos rfl,
    show (placeOf U n p above).node = n from rfl]
  constructor
  · intro h
    obtain ⟨nm, hnm, h⟩ := Res.bind_eq_ok.1 h
    obtain ⟨fs, hfs, h⟩ := Res.bind_eq_ok.1 h
    have hfs := (attributesToFields_iff hns hnf).1 hfs
    exact ⟨hfs.1, nm, fs, unwrap_ok.1 hnm, hfs.2, (Res.ok.inj h).symm⟩
  · rintro ⟨hr, nm, fs, hnm, hfs, rfl⟩
    rw [hnm, Res.unwrap, Res.ok_bind, (attributesToFields_iff hns hnf).2 ⟨hr, hfs⟩]
    rfl

end Verif.Lemmas.Parse
