import Verif.Lemmas.ParseComplex
import Verif.Model.Extend

/-! # Schemas; the parser never gives an error value -/

namespace Verif.Lemmas.Parse

open Verif Verif.Model Verif.RoXml Verif.Spec

/-! ## No error values -/

/-- What is asked of the children of a place. -/
def KidsFine (c : Place) : Prop := ∀ k ∈ c.kids, k.2 ≠ .err

theorem typedKids_mem {c : Place} {ks} (h : c.typedKids = .ok ks) : ∀ k ∈ ks, k.2 ∈ c.kids := by
  unfold Place.typedKids at h
  replace h := mapM'_ok.1 h
  generalize c.kids = l at h
  induction h with
  | nil => intro k hk; cases hk
  | cons h1 _ ih =>
    obtain ⟨t, -, h1⟩ := Res.bind_eq_ok.1 h1
    obtain rfl := Res.ok.inj h1
    intro k hk
    rcases List.mem_cons.1 hk with rfl | hk
    · exact List.mem_cons_self
    · exact List.mem_cons_of_mem _ (ih k hk)

theorem typedKids_ne_err' {c : Place} : c.typedKids ≠ .err := by
  unfold Place.typedKids
  exact mapM'_ne_err fun a _ => bind_ne_err xsdType_ne_err fun _ _ h => nomatch h

theorem kids_mapM_ne_err {β : Type} {c : Place} (hc : KidsFine c) {f : RsEntity → Res β} (hf : ∀ e, f e ≠ .err)
    (q : ElementType × Node × Res RsEntity → Bool) :
    (c.typedKids.bind fun ks => Res.mapM' (fun k => k.2.2.bind f) (ks.filter q)) ≠ .err := by
  refine bind_ne_err typedKids_ne_err' fun ks hks => mapM'_ne_err fun k hk => bind_ne_err ?_ fun e _ => hf e
  exact hc _ (typedKids_mem hks k (List.mem_filter.1 hk).1)

theorem lastKid_ne_err {c : Place} {q} : c.lastKid q ≠ .err :=
  bind_ne_err typedKids_ne_err' fun _ _ h => nomatch h

theorem lastKid_mem {c : Place} {q} {k : Node × Res RsEntity} (h : c.lastKid q = .ok (some k)) : k ∈ c.kids := by
  unfold Place.lastKid at h
  obtain ⟨ks, hks, h⟩ := Res.bind_eq_ok.1 h
  obtain ⟨x, hx, rfl⟩ := Option.map_eq_some_iff.1 (Res.ok.inj h)
  exact typedKids_mem hks x (List.mem_filter.1 (List.mem_of_getLast? hx)).1

theorem ok_ne_err {α : Type} {a : α} : Res.ok a ≠ .err := fun h => nomatch h
theorem panic_ne_err {α : Type} : (Res.panic : Res α) ≠ .err := fun h => nomatch h

theorem asField_ne_err (e : RsEntity) : asField e ≠ .err := by cases e <;> exact fun h => nomatch h
theorem asAlias_ne_err (e : RsEntity) : asAlias e ≠ .err := by cases e <;> exact fun h => nomatch h
theorem asCase_ne_err (e : RsEntity) : asCase e ≠ .err := by cases e <;> exact fun h => nomatch h
theorem memberField_ne_err (s : Str) (e : RsEntity) : memberField s e ≠ .err := by
  match e with
  | .struct _ => exact fun h => nomatch h
  | .tupleStruct _ => exact fun h => nomatch h
  | .enum (.mk ..) => exact fun h => nomatch h
  | .enumCase _ => exact fun h => nomatch h
  | .alias _ => exact fun h => nomatch h
  | .structField (.mk ..) => exact fun h => nomatch h
  | .import _ => exact fun h => nomatch h
theorem listItem_ne_err (e : RsEntity) : listItem e ≠ .err := by
  match e with
  | .struct _ => exact fun h => nomatch h
  | .tupleStruct _ => exact fun h => nomatch h
  | .enum (.mk ..) => exact fun h => nomatch h
  | .enumCase _ => exact fun h => nomatch h
  | .alias _ => exact fun h => nomatch h
  | .structField (.mk ..) => exact fun h => nomatch h
  | .import _ => exact fun h => nomatch h

theorem attributes_ne_err {c : Place} (hc : KidsFine c) : attributesToFields c ≠ .err :=
  kids_mapM_ne_err hc asField_ne_err _

theorem groups_ne_err {c : Place} (hc : KidsFine c) : attributeGroupsToAliases c ≠ .err :=
  kids_mapM_ne_err hc asAlias_ne_err _

theorem without_ne_err {c : Place} (hc : KidsFine c) (fs : List StructField) : derivedWithoutContent c fs ≠ .err :=
  bind_ne_err (groups_ne_err hc) fun _ _ => ok_ne_err

theorem with_ne_err {c : Place} (hc : KidsFine c) (fs : List StructField) (e : RsEntity) :
    derivedWithContent c fs e ≠ .err := by
  match e with
  | .struct (.mk ..) => exact ok_ne_err
  | .tupleStruct _ => exact without_ne_err hc fs
  | .enum _ => exact without_ne_err hc fs
  | .enumCase _ => exact without_ne_err hc fs
  | .alias _ => exact without_ne_err hc fs
  | .structField _ => exact without_ne_err hc fs
  | .import _ => exact without_ne_err hc fs

theorem parentName_ne_err {c : Place} : c.parentName ≠ .err := getParentName_ne_err

theorem lastThen_ne_err {c : Place} {β : Type} (hc : KidsFine c) {q} {f : RsEntity → Res β} {g : Res β}
    (hf : ∀ e, f e ≠ .err) (hg : g ≠ .err) {k : Option (Node × Res RsEntity)} (hk : c.lastKid q = .ok k) :
    (match k with
      | some k => k.2.bind f
      | none => g) ≠ .err := by
  cases k with
  | none => exact hg
  | some k => exact bind_ne_err (hc _ (lastKid_mem hk)) fun e _ => hf e

theorem unionSubtypes_ne_err : ∀ {rs : List (Res RsEntity)} {i : Nat}, (∀ r ∈ rs, r ≠ .err) → unionSubtypes i rs ≠ .err
  | [], _, _ => ok_ne_err
  | r :: rs, i, h => by
    rw [unionSubtypes]
    exact bind_ne_err (h r List.mem_cons_self) fun _ _ =>
      bind_ne_err (unionSubtypes_ne_err fun r hr => h r (List.mem_cons_of_mem _ hr)) fun _ _ => ok_ne_err

theorem attrUse_ne_err {n : Node} : attrUse n ≠ .err := by
  unfold attrUse
  dsimp only
  generalize (n.attr "use".toList).getD "optional".toList = u
  by_cases h1 : u = "optional".toList
  · rw [if_pos h1]; exact ok_ne_err
  · rw [if_neg h1]
    by_cases h2 : u = "prohibited".toList
    · rw [if_pos h2]; exact ok_ne_err
    · rw [if_neg h2]
      by_cases h3 : u = "required".toList
      · rw [if_pos h3]; exact ok_ne_err
      · rw [if_neg h3]; exact panic_ne_err

theorem sequence_ne_err {c : Place} (hc : KidsFine c) : parseSequence c ≠ .err :=
  bind_ne_err parentName_ne_err fun nm _ =>
    bind_ne_err (kids_mapM_ne_err hc (memberField_ne_err nm) _) fun _ _ => ok_ne_err

theorem globalElement_ne_err {c : Place} (hc : KidsFine c) : parseGlobalElement c ≠ .err := by
  refine bind_ne_err unwrap_ne_err fun nm _ => ?_
  cases attrType c.node with
  | some t => exact ok_ne_err
  | none => exact bind_ne_err lastKid_ne_err fun k hk => lastThen_ne_err hc (fun _ => ok_ne_err) ok_ne_err hk

theorem fieldOfSequence_ne_err {c : Place} (hc : KidsFine c) : parseFieldOfSequence c ≠ .err := by
  unfold parseFieldOfSequence
  dsimp only
  generalize (c.node.hasAttribute "type".toList || c.node.hasAttribute "ref".toList) = b
  cases b with
  | true => rw [if_pos rfl]; exact ok_ne_err
  | false =>
    rw [if_neg (by decide)]
    refine bind_ne_err lastKid_ne_err fun k hk => bind_ne_err unwrap_ne_err fun k' hk' => ?_
    obtain rfl := unwrap_ok.1 hk'
    exact bind_ne_err (hc _ (lastKid_mem hk)) fun e _ => ok_ne_err

theorem element_ne_err {c : Place} (hc : KidsFine c) : parseElement c ≠ .err := by
  refine bind_ne_err xsdType_ne_err fun t _ => ?_
  cases t with
  | schema => exact globalElement_ne_err hc
  | all => exact fieldOfSequence_ne_err hc
  | sequence => exact fieldOfSequence_ne_err hc
  | _ => exact ok_ne_err

theorem globalAttribute_ne_err {c : Place} (hc : KidsFine c) : parseGlobalAttribute c ≠ .err := by
  unfold parseGlobalAttribute
  cases attrRef c.node with
  | some r => exact ok_ne_err
  | none =>
    refine bind_ne_err unwrap_ne_err fun nm _ => ?_
    cases attrType c.node with
    | some t => exact ok_ne_err
    | none => exact bind_ne_err lastKid_ne_err fun k hk => lastThen_ne_err hc (fun _ => ok_ne_err) ok_ne_err hk

theorem attribute_ne_err {c : Place} (hc : KidsFine c) : parseAttribute c ≠ .err := by
  refine bind_ne_err xsdType_ne_err fun t _ => ?_
  by_cases hs : t = .schema
  · rw [if_pos hs]; exact globalAttribute_ne_err hc
  · rw [if_neg hs]
    exact bind_ne_err unwrap_ne_err fun nm _ => bind_ne_err attrUse_ne_err fun _ _ => ok_ne_err

theorem attributeGroup_ne_err {c : Place} (hc : KidsFine c) : parseAttributeGroup c ≠ .err := by
  refine bind_ne_err xsdType_ne_err fun t _ => ?_
  by_cases hs : t = .schema
  · rw [if_pos hs]
    exact bind_ne_err unwrap_ne_err fun nm _ => bind_ne_err (attributes_ne_err hc) fun _ _ => ok_ne_err
  · rw [if_neg hs]
    exact bind_ne_err unwrap_ne_err fun nm _ => ok_ne_err

theorem finish_ne_err {c : Place} (hc : KidsFine c) (nm : Str) (fs : List StructField) (e : RsEntity) :
    finishComplexType c nm fs e ≠ .err := by
  match e with
  | .struct (.mk ..) => exact ok_ne_err
  | .enum (.mk ..) => exact bind_ne_err (groups_ne_err hc) fun _ _ => ok_ne_err
  | .tupleStruct _ => exact ok_ne_err
  | .enumCase _ => exact ok_ne_err
  | .alias _ => exact ok_ne_err
  | .structField _ => exact ok_ne_err
  | .import _ => exact ok_ne_err

theorem complexType_ne_err {c : Place} (hc : KidsFine c) : parseComplexType c ≠ .err := by
  have hg : ∀ nm fs, ((attributeGroupsToAliases c).bind fun ag =>
      Res.ok (RsEntity.struct (.mk nm (getDocumentation c.node) fs ag []))) ≠ .err :=
    fun nm fs => bind_ne_err (groups_ne_err hc) fun _ _ => ok_ne_err
  refine bind_ne_err ?_ fun nm _ => bind_ne_err (attributes_ne_err hc) fun fs _ =>
    bind_ne_err lastKid_ne_err fun k hk => ?_
  · refine bind_ne_err xsdType_ne_err fun t _ => ?_
    by_cases hs : t = .schema
    · rw [if_pos hs]; exact unwrap_ne_err
    · rw [if_neg hs]; exact parentName_ne_err
  · cases k with
    | none => exact hg nm fs
    | some k =>
      dsimp only
      by_cases hz : (k.1.children.filter Node.isElement).length = 0
      · rw [if_pos hz]; exact hg nm fs
      · rw [if_neg hz]
        exact bind_ne_err (hc _ (lastKid_mem hk)) fun e _ => finish_ne_err hc nm fs e

theorem content_ne_err {c : Place} (hc : KidsFine c) : parseContent c ≠ .err := by
  refine bind_ne_err lastKid_ne_err fun k hk => bind_ne_err unwrap_ne_err fun k' hk' => ?_
  obtain rfl := unwrap_ok.1 hk'
  exact hc _ (lastKid_mem hk)

theorem extension_ne_err {c : Place} (hc : KidsFine c) : parseExtension c ≠ .err := by
  refine bind_ne_err xsdType_ne_err fun t _ => ?_
  match t with
  | .extension .simpleContent =>
    exact bind_ne_err unwrap_ne_err fun _ _ => bind_ne_err (attributes_ne_err hc) fun _ _ =>
      bind_ne_err (groups_ne_err hc) fun _ _ => ok_ne_err
  | .extension .complexContent =>
    exact bind_ne_err unwrap_ne_err fun _ _ => bind_ne_err (attributes_ne_err hc) fun _ _ =>
      bind_ne_err lastKid_ne_err fun k hk => lastThen_ne_err hc (with_ne_err hc _) (without_ne_err hc _) hk
  | .all | .annotation | .any | .anyAttribute | .appInfo | .attribute | .attributeGroup | .choice | .complexContent
  | .complexType | .documentation | .element | .field | .group | .import | .include
  | .key | .keyRef | .list | .notation | .redefine | .restriction _ | .schema | .selector
  | .sequence | .simpleContent | .simpleType | .union | .unique | .facet _
  | .unknownElement _ | .xsdError => exact panic_ne_err

theorem restriction_ne_err {U : UnicodeTable} {c : Place} (hc : KidsFine c) : parseRestriction U c ≠ .err := by
  refine bind_ne_err xsdType_ne_err fun t _ => ?_
  match t with
  | .restriction .simpleType =>
    refine bind_ne_err unwrap_ne_err fun _ _ =>
      bind_ne_err (bind_ne_err typedKids_ne_err' fun _ _ => ok_ne_err) fun fs _ =>
      bind_ne_err (bind_ne_err typedKids_ne_err' fun _ _ => ok_ne_err) fun s _ => ?_
    by_cases h : s = true ∧ facetCases fs ≠ []
    · rw [if_pos h]; exact bind_ne_err parentName_ne_err fun _ _ => ok_ne_err
    · rw [if_neg h]; exact ok_ne_err
  | .restriction .simpleContent => exact panic_ne_err
  | .restriction .complexContent =>
    exact bind_ne_err unwrap_ne_err fun _ _ => bind_ne_err (attributes_ne_err hc) fun _ _ =>
      bind_ne_err lastKid_ne_err fun k hk => lastThen_ne_err hc (with_ne_err hc _) (without_ne_err hc _) hk
  | .all | .annotation | .any | .anyAttribute | .appInfo | .attribute | .attributeGroup | .choice | .complexContent
  | .complexType | .documentation | .element | .field | .group | .import | .include
  | .key | .keyRef | .list | .notation | .redefine | .extension _ | .schema | .selector
  | .sequence | .simpleContent | .simpleType | .union | .unique | .facet _
  | .unknownElement _ | .xsdError => exact panic_ne_err

theorem list_ne_err {c : Place} (hc : KidsFine c) : parseList c ≠ .err := by
  unfold parseList
  cases c.node.attr "itemType".toList with
  | some t => exact ok_ne_err
  | none =>
    refine bind_ne_err unwrap_ne_err fun k hk => ?_
    exact bind_ne_err (hc _ (List.mem_of_find?_eq_some (unwrap_ok.1 hk))) fun e _ =>
      bind_ne_err (listItem_ne_err e) fun _ _ => ok_ne_err

theorem union_ne_err {c : Place} (hc : KidsFine c) : parseUnion c ≠ .err := by
  refine bind_ne_err typedKids_ne_err' fun ks hks => bind_ne_err (unionSubtypes_ne_err fun r hr => ?_) fun subs _ =>
    bind_ne_err (attributes_ne_err hc) fun fs _ => ?_
  · obtain ⟨k, hk, rfl⟩ := List.mem_map.1 hr
    exact hc _ (typedKids_mem hks k (List.mem_filter.1 hk).1)
  · dsimp only
    cases fs with
    | nil => exact ok_ne_err
    | cons f fs => exact bind_ne_err parentName_ne_err fun _ _ => ok_ne_err

theorem simpleType_ne_err {c : Place} (hc : KidsFine c) : parseSimpleType c ≠ .err := by
  refine bind_ne_err xsdType_ne_err fun t _ => ?_
  by_cases h : decide (t = .schema) ≠ (attrName c.node).isSome
  · rw [if_pos h]; exact panic_ne_err
  · rw [if_neg h]
    refine bind_ne_err lastKid_ne_err fun k hk => bind_ne_err unwrap_ne_err fun k' hk' => ?_
    obtain rfl := unwrap_ok.1 hk'
    exact bind_ne_err (hc _ (lastKid_mem hk)) fun e _ => ok_ne_err

theorem branch_ne_err {U : UnicodeTable} {c : Place} (hc : KidsFine c) (t : ElementType) : branch U c t ≠ .err := by
  cases t with
  | all => exact sequence_ne_err hc
  | any => exact ok_ne_err
  | anyAttribute => exact ok_ne_err
  | «attribute» => exact attribute_ne_err hc
  | attributeGroup => exact attributeGroup_ne_err hc
  | choice => exact bind_ne_err typedKids_ne_err' fun ks hks => bind_ne_err (mapM'_ne_err fun k hk =>
      bind_ne_err (hc _ (typedKids_mem hks k (List.mem_filter.1 hk).1)) fun e _ => asCase_ne_err e) fun _ _ => ok_ne_err
  | complexContent => exact content_ne_err hc
  | complexType => exact complexType_ne_err hc
  | element => exact element_ne_err hc
  | extension => exact extension_ne_err hc
  | «import» => exact ok_ne_err
  | «include» => exact ok_ne_err
  | list => exact list_ne_err hc
  | restriction => exact restriction_ne_err hc
  | sequence => exact sequence_ne_err hc
  | simpleContent => exact content_ne_err hc
  | simpleType => exact simpleType_ne_err hc
  | union => exact union_ne_err hc
  | _ => exact panic_ne_err

theorem place_ne_err {U : UnicodeTable} {c : Place} (hc : KidsFine c) : parsePlace U c ≠ .err := by
  rw [parsePlace_branch]
  exact bind_ne_err xsdType_ne_err fun t _ => branch_ne_err hc t

mutual
theorem parseNode_ne_err (U : UnicodeTable) : ∀ (n p : Node) (above : List Node), parseNode U n p above ≠ .err
  | .element u t as ns cs, p, above => by
    rw [parseNode]
    exact place_ne_err (parseKids_ne_err U cs (.element u t as ns cs) (p :: above))
  | .text s, p, above => by rw [parseNode]; exact place_ne_err fun k hk => by cases hk
  | .other, p, above => by rw [parseNode]; exact place_ne_err fun k hk => by cases hk
theorem parseKids_ne_err (U : UnicodeTable) : ∀ (cs : List Node) (p : Node) (above : List Node),
    ∀ k ∈ parseKids U cs p above, k.2 ≠ .err
  | [], p, above => by rw [parseKids]; intro k hk; cases hk
  | c :: cs, p, above => by
    rw [parseKids]
    intro k hk
    rcases List.mem_cons.1 hk with rfl | hk
    · exact parseNode_ne_err U c p above
    · exact parseKids_ne_err U cs p above k hk
end

/-- What is not parsed panics. -/
theorem panic_iff {U : UnicodeTable} {n p : Node} {above : List Node} :
    parseNode U n p above = .panic ↔ ∀ e, parseNode U n p above ≠ .ok e := by
  cases h : parseNode U n p above with
  | ok e => exact ⟨fun h => (nomatch h), fun h => absurd rfl (h e)⟩
  | err => exact absurd h (parseNode_ne_err U n p above)
  | panic => exact ⟨fun _ _ h => (nomatch h), fun _ => rfl⟩

/-! ## Schemas -/

theorem schemaKids {U : UnicodeTable} {n : Node} {above : List Node} (q : ElementType → Node → Bool) {r : List RsEntity} :
    Res.mapM' (fun k : ElementType × Node => parseNode U k.2 n above)
      ((n.children.map fun c => (kindD (some n.tag) c, c)).filter fun k => q k.1 k.2) = .ok r ↔
      List.Forall₂ (fun c e => parseNode U c n above = .ok e)
        (n.children.filter fun c => q (kindD (some n.tag) c) c) r := by
  rw [List.filter_map, mapM'_map, mapM'_ok]
  rfl

theorem schemaTyped {n : Node} {ks} :
    Res.mapM' (fun c => (xsdType (some n.tag) c).bind fun t => .ok (t, c)) n.children = .ok ks ↔
      Readable n ∧ ks = n.children.map fun c => (kindD (some n.tag) c, c) := by
  unfold Readable
  generalize n.tag = tg
  induction n.children generalizing ks with
  | nil =>
    constructor
    · intro h; obtain rfl := Res.ok.inj h; exact ⟨fun _ h => absurd h List.not_mem_nil, rfl⟩
    · rintro ⟨-, rfl⟩; rfl
  | cons c cs ih =>
    rw [Res.mapM', Res.bind_eq_ok]
    constructor
    · rintro ⟨b, hb, h⟩
      obtain ⟨t, ht, hb⟩ := Res.bind_eq_ok.1 hb
      obtain rfl := Res.ok.inj hb
      obtain ⟨bs, hbs, h⟩ := Res.bind_eq_ok.1 h
      obtain rfl := Res.ok.inj h
      obtain ⟨h1, h2⟩ := ih.1 hbs
      refine ⟨?_, ?_⟩
      · intro x hx
        rcases List.mem_cons.1 hx with rfl | hx
        · exact ⟨t, xsdType_kind ht⟩
        · exact h1 x hx
      · rw [h2, List.map_cons, kindD_of (xsdType_kind ht)]
    · rintro ⟨hr, rfl⟩
      obtain ⟨t, ht⟩ := hr c List.mem_cons_self
      refine ⟨(t, c), by rw [kind_xsdType ht]; rfl, ?_⟩
      rw [ih.2 ⟨fun x hx => hr x (List.mem_cons_of_mem _ hx), rfl⟩, List.map_cons, kindD_of ht]
      rfl

theorem globals_eq (n : Node) :
    (n.children.filter fun c => decide (c.isElement = true ∧ kindD (some n.tag) c ≠ .annotation ∧
      kindD (some n.tag) c ≠ .attributeGroup)) = globals n := by
  unfold globals members
  rw [List.filter_filter]
  refine List.filter_congr fun c _ => ?_
  rw [Bool.eq_iff_iff, decide_eq_true_iff, Bool.and_eq_true, Bool.and_eq_true, decide_eq_true_iff, decide_eq_true_iff,
    Ne, Ne, kindD_iff (s := "annotation") (by decide), kindD_iff (s := "attributeGroup") (by decide)]
  exact ⟨fun ⟨a, b, c⟩ => ⟨c, a, b⟩, fun ⟨a, b, c⟩ => ⟨b, c, a⟩⟩

theorem schema_iff {U : UnicodeTable} {n : Node} {above : List Node} {f : RsFile} :
    parseSchema U n above = .ok f ↔ Readable n ∧ ∃ types groups,
      List.Forall₂ (fun c e => parseNode U c n above = .ok e) (globals n) types ∧
      List.Forall₂ (fun c e => parseNode U c n above = .ok e) (withTags n ["attributeGroup"]) groups ∧
      f = ⟨[], none, types, groups, targetNamespace n, xsdNamespace n⟩ := by
  unfold parseSchema
  constructor
  · intro h
    obtain ⟨ks, hk, h⟩ := Res.bind_eq_ok.1 h
    obtain ⟨hr, rfl⟩ := schemaTyped.1 hk
    obtain ⟨types, h1, h⟩ := Res.bind_eq_ok.1 h
    obtain ⟨groups, h2, h⟩ := Res.bind_eq_ok.1 h
    have h1 := (schemaKids fun t c => decide (c.isElement = true ∧ t ≠ .annotation ∧ t ≠ .attributeGroup)).1 h1
    have h2 := (schemaKids fun t c => decide (c.isElement = true ∧ t = .attributeGroup)).1 h2
    rw [globals_eq] at h1
    rw [tags_eq n "attributeGroup" .attributeGroup (by decide) (by decide)] at h2
    exact ⟨hr, types, groups, h1, h2, (Res.ok.inj h).symm⟩
  · rintro ⟨hr, types, groups, h1, h2, rfl⟩
    rw [schemaTyped.2 ⟨hr, rfl⟩, Res.ok_bind,
      (schemaKids fun t c => decide (c.isElement = true ∧ t ≠ .annotation ∧ t ≠ .attributeGroup)).2
        (by rw [globals_eq]; exact h1), Res.ok_bind,
      (schemaKids fun t c => decide (c.isElement = true ∧ t = .attributeGroup)).2
        (by rw [tags_eq n "attributeGroup" .attributeGroup (by decide) (by decide)]; exact h2)]
    rfl

end Verif.Lemmas.Parse
