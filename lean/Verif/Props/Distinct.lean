import Verif.Props.Syntax
import Verif.Props.Pipeline
import Verif.Props.Denote
import Verif.Props.GenNames
import Verif.Lemmas.DistinctFile

/-! # C98: nothing is defined twice -/

namespace Verif.Props

open Verif Verif.Model Verif.Spec Verif.RoXml Verif.Lemmas Verif.Lemmas.Parse

open Verif.Props.Sample

/-- **C98** In the code for a schema whose definitions differ in more than case and punctuation nothing is defined twice in a
module, neither types nor modules, at any depth. -/
theorem C98_definitions_partial (U : UnicodeTable) (root : Node) (t : Str) (hg : Grammatical root) (hs : CopySafe root)
    (hf : ProperForms root) (hr : RegularSchema root) (hn : Syn.PlainNames U root) (hd : Separate U root)
    (h : convertXsd U root = .ok t) : DefinedOnce t := by
  obtain ⟨g, hp, h⟩ := Res.bind_eq_ok.1 h
  obtain ⟨h1, h2⟩ := parseFile_safe hs hp
  refine ⟨_, C36_definitions U g t h1 (fun x hx => ⟨h2 x hx, parseFile_items hg hp x hx⟩) h, ?_⟩
  rw [(parseFile_namespaces hp).2]
  exact Dis.parseFile_nodup hg hf hr hn hd hp _

private theorem names_nodup {U : UnicodeTable} {N : Naming} (hN : N.name = defaultFormatName U) {pfx : Option Str} {md : Str}
    {fs : List StructField} {ms : List Spec.Member} (h : List.Forall₂ (FieldMember N pfx md) fs ms) (hu : UnlikeFields U fs) :
    (ms.map (·.name)).Nodup := by
  induction h with
  | nil => exact List.nodup_nil
  | @cons f m fs ms h1 h2 ih =>
    obtain ⟨k1, k2⟩ := List.pairwise_cons.1 hu
    refine List.nodup_cons.2 ⟨fun hm => ?_, ih k2⟩
    obtain ⟨m', hm', e⟩ := List.mem_map.1 hm
    obtain ⟨f', hf', hfm⟩ := forall₂_left h2 m' hm'
    have seg : ∀ v : Str, ∃ s, AfterLastColon v s := fun v => ⟨_, Gen.lastSegment_iff.1 rfl⟩
    obtain ⟨s, hs⟩ := seg f.name
    obtain ⟨s', hs'⟩ := seg f'.name
    refine C31_field_partial U f.name f'.name s s' hs hs' (k1 f' hf' s s' hs hs') ?_
    have := h1.1.symm.trans (e.symm.trans hfm.1)
    rwa [hN] at this

/-- **C98** Nor does the struct of a complex type have two fields of the same name, if the names of its fields differ in more
than case and punctuation. -/
theorem C98_fields_partial (U : UnicodeTable) (root : Node) (t : Str) (hg : Grammatical root) (hs : CopySafe root)
    (hr : RegularSchema root) (h : convertXsd U root = .ok t) (c n : Node) (nm : Str) (hc : Declares root c nm n)
    (hd : ∀ F, (∀ c nm n, Declares root c nm n → TypeFields root F c nm n (F c)) → UnlikeFields U (written (F c))) :
    ∃ ms, HasStruct t (formatTypeName U (targetNamespace root) (xsdNamespace root) nm) ms ∧ (ms.map (·.name)).Nodup := by
  obtain ⟨F, hF⟩ := C68_fields_partial U root t hg hs hr h
  obtain ⟨-, ms, h1, h2⟩ := hF c nm n hc
  exact ⟨ms, h1, names_nodup rfl h2 (hd F fun c nm n hd => (hF c nm n hd).1)⟩

/-! ## Examples -/

instance (vs : List Str) : Decidable (Unlike vs) := by unfold Unlike; infer_instance

/-- An inline type whose content is a sequence without choices. -/
def PlainInline (t q : Node) : Prop :=
  Is q ["sequence", "all"] ∧ (q.children.filter Node.isElement).isEmpty = false ∧ (∀ c ∈ members q, ¬ Is c ["choice"]) ∧
  Unlike (Dis.inlineNames q) ∧ ∀ c ∈ members q ++ t.children, ∀ a ∈ ["name", "ref"], c.attr a.toList ≠ some "__base__".toList

instance (t q : Node) : Decidable (PlainInline t q) := by unfold PlainInline; infer_instance

/-- A schema is separate if this can be computed. -/
theorem separate_of {root : Node} (hg : Grammatical root) (hr : RegularSchema root)
    (h0 : convertXsd A root ≠ .panic ∧ convertXsd A root ≠ .err)
    (h1 : Unlike ((entTops Gen.hasDoc (okFile (parseFile A root)).types).map (·.2)))
    (h2 : ∀ x ∈ (okFile (parseFile A root)).types, ∀ s ∈ structOf x, Unlike (innerTypes s.fields))
    (h3 : ∀ s ∈ elements root, Is s ["sequence", "all"] → ∀ c ∈ members s, Is c ["element"] → ∀ t ∈ (inlineType c).toList,
      Is t ["complexType"] → ¬ ChoiceContent t ∧ ∃ q ∈ (withTags t contentTags).getLast?.toList, PlainInline t q)
    (h4 : ∀ s ∈ elements root, Is s ["sequence", "all"] → ∀ c ∈ members s, Is c ["element"] → ∀ t ∈ (inlineType c).toList,
      Is t ["simpleType"] → ∀ r ∈ members t, (withTags r ["simpleType"]).isEmpty = true) : Separate A root := by
  obtain ⟨t, ht⟩ := ok_of h0
  obtain ⟨g, hp, -⟩ := Res.bind_eq_ok.1 ht
  rw [hp] at h1 h2
  refine ⟨fun dss hd => ?_, fun F hF c nm n hc => ?_, fun s c t k1 k2 k3 k4 k5 k6 => ?_, fun s c t k1 k2 k3 k4 k5 k6 r hr => ?_⟩
  · have := forall₂_unique (R := GlobalDefs A root) (fun _ _ _ => globalDefs_unique) hd (parseFile_top hg hp)
    rw [this, ← entTops_flatten]
    exact h1
  · obtain ⟨F', hF'⟩ := parseFile_fields hg hr hp
    rw [Dis.sames_inner (typeFields_same hr hF (fun c nm n hd => (hF' c nm n hd).1) hc)]
    obtain ⟨-, i, cm, ag, -, hi⟩ := hF' c nm n hc
    exact h2 _ (List.mem_of_getElem? hi) _ (List.mem_singleton.2 rfl)
  · obtain ⟨m1, q, m2, m3, m4, m5, m6, m7⟩ := h3 s (partOf_elements k1) k2 c k3 k4 t (Option.mem_toList.2 k5) k6
    refine ⟨m1, fun owner fs gs ho => ?_⟩
    obtain ⟨e, n⟩ := Dis.own_inner ho (Option.mem_toList.1 m2) m3 (fun e => by rw [e] at m4; cases m4) m5 m7
    exact ⟨by rw [e]; exact m6, n⟩
  · exact List.isEmpty_iff.1 (h4 s (partOf_elements k1) k2 c k3 k4 t (Option.mem_toList.2 k5) k6 r hr)

private def house : Node := doc
  [el "complexType" [("name", "House")] [el "sequence" []
      [el "element" [("name", "door")] [el "complexType" [] [el "sequence" []
        [el "element" [("name", "color")] [el "simpleType" [] [el "restriction" [("base", "xs:string")]
          [el "enumeration" [("value", "red")] [], el "enumeration" [("value", "green")] []]]],
         el "element" [("name", "width"), ("type", "xs:int")] []]]],
       el "element" [("name", "roof")] [el "complexType" [] [el "sequence" []
         [el "element" [("name", "color")] [el "simpleType" [] [el "restriction" [("base", "xs:string")] []]]]]],
       el "choice" [] [el "element" [("name", "stairs"), ("type", "xs:int")] [], el "element" [("name", "lift"), ("type", "xs:string")] []]],
    el "attribute" [("name", "number"), ("type", "xs:int")] []],
   el "complexType" [("name", "Tower")] [el "complexContent" [] [el "extension" [("base", "tns:House")]
     [el "sequence" [] [el "element" [("name", "bell")] [el "simpleType" [] [el "restriction" [("base", "xs:string")] []]]]]]],
   el "complexType" [("name", "Way")] [el "choice" [] [el "element" [("name", "by_car"), ("type", "xs:int")] [],
     el "element" [("name", "by_train"), ("type", "xs:int")] []]],
   el "simpleType" [("name", "color")] [el "restriction" [("base", "xs:string")] [el "enumeration" [("value", "blue")] []]],
   el "element" [("name", "house"), ("type", "tns:House")] []]

private theorem house_grammatical : Grammatical house := grammatical_of rfl (by decide +kernel)
private theorem house_copySafe : CopySafe house :=
  copySafe_of (by decide +kernel) (by decide +kernel) (by decide +kernel) (by decide +kernel) (by decide +kernel)
private theorem house_regular : RegularSchema house := regular_of (by decide +kernel) (by decide +kernel) (by decide +kernel)

/-- Types of types, an enum for a choice, types which are inherited; types of the same name in different modules. -/
private theorem house_once : ∃ t, convertXsd A house = .ok t ∧ DefinedOnce t := by
  obtain ⟨t, ht⟩ := ok_of (r := convertXsd A house) (by decide +kernel)
  refine ⟨t, ht, C98_definitions_partial A house t house_grammatical house_copySafe
    (properForms_of (by decide +kernel) (by decide +kernel) (by decide +kernel)) house_regular
    (plainNames_of (by decide +kernel) (by decide +kernel) (by decide +kernel) (by decide +kernel) (by decide +kernel)
      (by decide +kernel) (by decide +kernel))
    (separate_of house_grammatical house_regular (by decide +kernel) (by decide +kernel) (by decide +kernel) (by decide +kernel)
      (by decide +kernel)) ht⟩

/-- The definitions in it: types of the same name, but in different modules. -/
example : ((defsFor house).map fun d => (d.1, d.2.2)).filter (fun d => d.2 = "ColorType".toList ∨ d.2 = "DoorType".toList) =
    [(["house".toList], "DoorType".toList), (["house".toList, "door_type".toList], "ColorType".toList),
     (["house".toList, "roof_type".toList], "ColorType".toList), (["tower".toList], "DoorType".toList),
     (["tower".toList, "door_type".toList], "ColorType".toList), (["tower".toList, "roof_type".toList], "ColorType".toList)] := by
  decide +kernel

private theorem sames_names {fs gs : List StructField} (h : List.Forall₂ SameField fs gs) :
    (written fs).map (·.name) = (written gs).map (·.name) := by
  induction h with
  | nil => rfl
  | @cons f g fs gs h _ ih =>
    obtain ⟨h1, -, -, -, h2, -⟩ := h
    unfold written at ih ⊢
    rw [List.filter_cons, List.filter_cons, h2]
    split
    · rw [List.map_cons, List.map_cons, h1, ih]
    · exact ih

theorem unlikeFields_of {root : Node} (hg : Grammatical root) (hr : RegularSchema root)
    (h0 : convertXsd A root ≠ .panic ∧ convertXsd A root ≠ .err)
    (h : ∀ x ∈ (okFile (parseFile A root)).types, ∀ s ∈ structOf x,
      ((written s.fields).map (·.name)).Pairwise fun a b =>
        skeleton A.isAlphanumeric (lastSegment a) ≠ skeleton A.isAlphanumeric (lastSegment b)) {c n : Node} {nm : Str}
    (hc : Declares root c nm n) (F : Node → List StructField)
    (hF : ∀ c nm n, Declares root c nm n → TypeFields root F c nm n (F c)) : UnlikeFields A (written (F c)) := by
  obtain ⟨t, ht⟩ := ok_of h0
  obtain ⟨g, hp, -⟩ := Res.bind_eq_ok.1 ht
  rw [hp] at h
  obtain ⟨F', hF'⟩ := parseFile_fields hg hr hp
  have e := sames_names (typeFields_same hr hF (fun c nm n hd => (hF' c nm n hd).1) hc)
  obtain ⟨-, i, cm, ag, -, hi⟩ := hF' c nm n hc
  have h := h _ (List.mem_of_getElem? hi) _ (List.mem_singleton.2 rfl)
  have h : ((written (F c)).map (·.name)).Pairwise fun a b =>
      skeleton A.isAlphanumeric (lastSegment a) ≠ skeleton A.isAlphanumeric (lastSegment b) := by rw [e]; exact h
  refine (List.pairwise_map.1 h).imp fun h s t hs ht => ?_
  rwa [Gen.lastSegment_iff.2 hs, Gen.lastSegment_iff.2 ht] at h

/-- The fields of the derived type, with those which are inherited. -/
example : ∃ t, convertXsd A house = .ok t ∧ ∃ c n, Declares house c "Tower".toList n ∧
    ∃ ms, HasStruct t (formatTypeName A (targetNamespace house) (xsdNamespace house) "Tower".toList) ms ∧ (ms.map (·.name)).Nodup := by
  obtain ⟨t, ht⟩ := ok_of (r := convertXsd A house) (by decide +kernel)
  obtain ⟨c, n, hc⟩ : ∃ c n, Declares house c "Tower".toList n := by
    refine ⟨_, _, List.mem_of_getElem? (i := 1) rfl, rfl, .type rfl, ?_⟩
    decide +kernel
  exact ⟨t, ht, _, _, hc, C98_fields_partial A house t house_grammatical house_copySafe house_regular ht _ _ _ hc
    (unlikeFields_of house_grammatical house_regular (by decide +kernel) (by decide +kernel) hc)⟩

/-! ## Violations -/

private def twoChoices : Node := doc
  [el "complexType" [("name", "Foo")] [el "sequence" []
    [el "choice" [] [el "element" [("name", "a"), ("type", "xs:int")] []],
     el "choice" [] [el "element" [("name", "b"), ("type", "xs:int")] []]]]]

private def likeAttribute : Node := doc
  [el "complexType" [("name", "Foo")] [el "sequence" [] [el "element" [("name", "id"), ("type", "xs:int")] []],
    el "attribute" [("name", "id"), ("type", "xs:string")] []]]

private def likeType : Node := doc
  [el "complexType" [("name", "Foo")] [el "sequence" [] []],
   el "element" [("name", "foo"), ("type", "tns:Foo")] [el "annotation" [] [el "documentation" [] [.text "A foo.".toList]]]]

private theorem not_once {t : Str} {ds : List (List Str × DefKind × Str)} (h : HasDefs t ds)
    (hn : ¬ (ds.map fun d => (d.1, d.2.2)).Nodup) : ¬ DefinedOnce t := by
  rintro ⟨ds', ⟨ls, h1, rfl, -⟩, h2⟩
  obtain ⟨ls', h3, rfl, -⟩ := h
  rw [Gen.lines_unique h1] at h2
  rw [Gen.lines_unique h3] at hn
  exact hn h2

/-- **C98** (violated) The enums of two choices in a sequence have the same name. So have a type and the alias for a documented
element of this type, called like it but in lower case. -/
theorem C98_definitions_violated :
    (Grammatical twoChoices ∧ CopySafe twoChoices ∧ ProperForms twoChoices ∧ RegularSchema twoChoices ∧ Syn.PlainNames A twoChoices ∧
      ∃ t, convertXsd A twoChoices = .ok t ∧ ¬ DefinedOnce t) ∧
    (Grammatical likeType ∧ CopySafe likeType ∧ ProperForms likeType ∧ RegularSchema likeType ∧ Syn.PlainNames A likeType ∧
      ∃ t, convertXsd A likeType = .ok t ∧ ¬ DefinedOnce t) := by
  have g1 : Grammatical twoChoices := grammatical_of rfl (by decide +kernel)
  have g2 : Grammatical likeType := grammatical_of rfl (by decide +kernel)
  have s1 : CopySafe twoChoices :=
    copySafe_of (by decide +kernel) (by decide +kernel) (by decide +kernel) (by decide +kernel) (by decide +kernel)
  have s2 : CopySafe likeType :=
    copySafe_of (by decide +kernel) (by decide +kernel) (by decide +kernel) (by decide +kernel) (by decide +kernel)
  refine ⟨⟨g1, s1, properForms_of (by decide +kernel) (by decide +kernel) (by decide +kernel),
      regular_of (by decide +kernel) (by decide +kernel) (by decide +kernel), ?_, ?_⟩,
    ⟨g2, s2, properForms_of (by decide +kernel) (by decide +kernel) (by decide +kernel),
      regular_of (by decide +kernel) (by decide +kernel) (by decide +kernel), ?_, ?_⟩⟩
  · exact plainNames_of (by decide +kernel) (by decide +kernel) (by decide +kernel) (by decide +kernel) (by decide +kernel)
      (by decide +kernel) (by decide +kernel)
  · obtain ⟨t, h1, h2⟩ := defsFor_has g1 s1 (by decide +kernel)
    exact ⟨t, h1, not_once h2 (by decide +kernel)⟩
  · exact plainNames_of (by decide +kernel) (by decide +kernel) (by decide +kernel) (by decide +kernel) (by decide +kernel)
      (by decide +kernel) (by decide +kernel)
  · obtain ⟨t, h1, h2⟩ := defsFor_has g2 s2 (by decide +kernel)
    exact ⟨t, h1, not_once h2 (by decide +kernel)⟩

private theorem top_sublist : ∀ ds : List (List Str × DefKind × Str),
    ((topLevel ds).map fun x => (([] : List Str), x.2)).Sublist (ds.map fun d => (d.1, d.2.2))
  | [] => .slnil
  | (p, k, n) :: ds => by
    unfold topLevel
    rw [List.filterMap_cons, List.map_cons]
    by_cases h : p = [] ∧ k ≠ .mod
    · rw [if_pos h, List.map_cons, h.1]
      exact (top_sublist ds).cons₂ _
    · rw [if_neg h]
      exact (top_sublist ds).cons _

/-- **C98** Conversely, if nothing is defined twice then the global declarations define different names. -/
theorem C98_top (U : UnicodeTable) (root : Node) (t : Str) (hg : Grammatical root) (hs : CopySafe root)
    (h : convertXsd U root = .ok t) (hd : DefinedOnce t) (dss : List (List Def))
    (hds : List.Forall₂ (GlobalDefs U root) (globals root) dss) :
    (dss.flatten.map fun d => formatTypeName U (targetNamespace root) (xsdNamespace root) d.2).Nodup := by
  obtain ⟨ds, dss', ⟨ls, h1, rfl, -⟩, h2, h3⟩ := C65_definitions_partial U root t hg hs h
  obtain ⟨ds', ⟨ls', h4, rfl, -⟩, h5⟩ := hd
  rw [Gen.lines_unique h4, ← Gen.lines_unique h1] at h5
  rw [forall₂_unique (R := GlobalDefs U root) (fun _ _ _ => globalDefs_unique) hds h2]
  have h6 := h5.sublist (top_sublist _)
  rw [h3, List.map_map] at h6
  have : (dss'.flatten.map fun d => formatTypeName U (targetNamespace root) (xsdNamespace root) d.2).map (fun n => (([] : List Str), n)) =
      dss'.flatten.map ((fun x => (([] : List Str), x.2)) ∘ fun d : Def => (d.1, formatTypeName U (targetNamespace root) (xsdNamespace root) d.2)) := by
    rw [List.map_map]
    rfl
  rw [← this] at h6
  exact List.Nodup.of_map _ h6

/-- A schema in which nothing is defined twice. -/
example : ∃ t, Grammatical house ∧ CopySafe house ∧ convertXsd A house = .ok t ∧ DefinedOnce t ∧
    ∃ dss, List.Forall₂ (GlobalDefs A house) (globals house) dss ∧
      (dss.flatten.map fun d => formatTypeName A (targetNamespace house) (xsdNamespace house) d.2).Nodup := by
  obtain ⟨t, h1, h2⟩ := house_once
  obtain ⟨-, dss, -, h3, -⟩ := C65_definitions_partial A house t house_grammatical house_copySafe h1
  exact ⟨t, house_grammatical, house_copySafe, h1, h2, dss, h3, C98_top A house t house_grammatical house_copySafe h1 h2 dss h3⟩

private def choiceRoot : Node := doc [el "element" [("name", "way")] [el "complexType" [] [el "choice" []
  [el "element" [("name", "car"), ("type", "xs:int")] [], el "element" [("name", "train"), ("type", "xs:int")] []]]]]

/-- **C98** (violated) So there is no schema in which a global element has a choice as its inline type and nothing is defined twice:
the element and its choice are always called the same. -/
theorem C98_choice_violated (U : UnicodeTable) (root : Node) (t : Str) (hg : Grammatical root) (hs : CopySafe root)
    (h : convertXsd U root = .ok t) {c ty : Node} (hc : c ∈ globals root) (he : Is c ["element"])
    (hty : c.attr "type".toList = none) (hi : inlineType c = some ty) (hct : Is ty ["complexType"]) (hch : ChoiceContent ty) :
    ¬ DefinedOnce t := by
  intro hd
  obtain ⟨-, dss, -, h2, -⟩ := C65_definitions_partial U root t hg hs h
  have h3 := C98_top U root t hg hs h hd dss h2
  obtain ⟨ds, hm, hgd⟩ := forall₂_right h2 c hc
  have hsub : (ds.map fun d => formatTypeName U (targetNamespace root) (xsdNamespace root) d.2).Nodup :=
    h3.sublist ((List.sublist_flatten_of_mem hm).map _)
  have htag : c.tag = "element".toList := List.mem_singleton.1 he
  have htt : ty.tag = "complexType".toList := List.mem_singleton.1 hct
  cases hgd with
  | inlineChoice => exact (List.nodup_cons.1 hsub).1 List.mem_cons_self
  | inlineComplex _ _ _ k _ k' => rw [hi] at k; obtain rfl := Option.some.inj k; exact k' hch
  | inlineSimple _ _ _ _ k k' => rw [hi] at k; obtain rfl := Option.some.inj k; rw [htt] at k'; exact absurd k' (by decide)
  | typed _ _ _ k => rw [hty] at k; cases k
  | typedSilent _ _ _ k => rw [hty] at k; cases k
  | empty _ _ _ _ k => rw [hi] at k; cases k
  | complexType k => rw [htag] at k; exact absurd k (by decide)
  | choiceType k => rw [htag] at k; exact absurd k (by decide)
  | simpleType k => rw [htag] at k; exact absurd k (by decide)
  | reference k => rw [htag] at k; exact absurd k (by decide)
  | referenceSilent k => rw [htag] at k; exact absurd k (by decide)
  | «import» k => rw [htag] at k; exact absurd k (by decide)

/-- Such a schema. -/
example : ∃ t, convertXsd A choiceRoot = .ok t ∧ ¬ DefinedOnce t := by
  obtain ⟨t, ht⟩ := ok_of (r := convertXsd A choiceRoot) (by decide +kernel)
  refine ⟨t, ht, C98_choice_violated A choiceRoot t (grammatical_of rfl (by decide +kernel))
    (copySafe_of (by decide +kernel) (by decide +kernel) (by decide +kernel) (by decide +kernel) (by decide +kernel)) ht
    List.mem_cons_self (by unfold Is; decide) rfl rfl (by unfold Is; decide) (by decide +kernel)⟩

/-- **C98** (violated) An element and an attribute of the same name are two fields of the same name. -/
theorem C98_fields_violated : ∃ t, convertXsd A likeAttribute = .ok t ∧ ∃ ms,
    HasStruct t "Foo".toList ms ∧ ms.map (·.name) = ["id".toList, "id".toList] := by
  obtain ⟨t, h, ms, h1, h2⟩ := struct_for (root := likeAttribute) (grammatical_of rfl (by decide +kernel))
    (copySafe_of (by decide +kernel) (by decide +kernel) (by decide +kernel) (by decide +kernel) (by decide +kernel))
    (by decide +kernel) 0 "Foo".toList ["id".toList, "id".toList] (by decide +kernel)
  refine ⟨t, h, ms, ?_, h2⟩
  have e : formatTypeName A (targetNamespace likeAttribute) (xsdNamespace likeAttribute) "Foo".toList = "Foo".toList := by decide +kernel
  rwa [e] at h1

end Verif.Props
