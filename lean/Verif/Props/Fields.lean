import Verif.Props.Sample
import Verif.Lemmas.FieldsUnique
import Verif.Lemmas.GenFile

/-! # C68: the fields of the structs for a schema -/

namespace Verif.Props

open Verif Verif.Model Verif.Spec Verif.RoXml Verif.Lemmas Verif.Lemmas.Parse

open Verif.Props.Sample

/-- How the code for a schema is written. -/
abbrev naming (U : UnicodeTable) (root : Node) : Naming :=
  ⟨formatTypeName U (targetNamespace root) (xsdNamespace root), defaultFormatName U,
    fun n => caseName ⟨U, targetNamespace root, xsdNamespace root⟩ { name := n }, defaultModifyType⟩

/-- **C68** For each complex type which is not a choice there is a struct, whose members are the elements, attributes,
inherited fields and fields of attribute groups in the schema, in order, each with its name, type and XML name. -/
theorem C68_fields_partial (U : UnicodeTable) (root : Node) (t : Str) (hg : Grammatical root) (hs : CopySafe root)
    (hr : RegularSchema root) (h : convertXsd U root = .ok t) : ∃ F : Node → List StructField,
      ∀ c nm n, Declares root c nm n → TypeFields root F c nm n (F c) ∧
        ∃ ms, HasStruct t (formatTypeName U (targetNamespace root) (xsdNamespace root) nm) ms ∧
          List.Forall₂ (FieldMember (naming U root) ((targetNamespace root).bind (·.name)) (defaultFormatName U nm))
            (written (F c)) ms := by
  obtain ⟨g, hp, h⟩ := Res.bind_eq_ok.1 h
  obtain ⟨h1, h2⟩ := parseFile_safe hs hp
  obtain ⟨F, hF⟩ := parseFile_fields hg hr hp
  refine ⟨F, fun c nm n hd => ?_⟩
  obtain ⟨k1, i, cm, ag, -, k2⟩ := hF c nm n hd
  obtain ⟨ms, k3, k4⟩ := Gen.file_struct h1 (fun x hx => ⟨h2 x hx, parseFile_items hg hp x hx⟩) h k2
  rw [(parseFile_namespaces hp).1, (parseFile_namespaces hp).2] at k3 k4
  exact ⟨k1, ms, k3, k4⟩

private theorem written_same {N : Naming} {pfx : Option Str} {md : Str} {a b : List StructField} {ms : List Spec.Member}
    (h : List.Forall₂ SameField a b) (hm : List.Forall₂ (FieldMember N pfx md) (written a) ms) :
    List.Forall₂ (FieldMember N pfx md) (written b) ms := by
  have hw : List.Forall₂ SameField (written a) (written b) := sames_filter (fun f f' h => by rw [h.2.2.2.2.1]) h
  generalize written a = x at hm hw
  generalize written b = y at hw
  induction hm generalizing y with
  | nil => cases hw; exact .nil
  | cons h1 _ ih =>
    cases hw with
    | cons h2 h3 => exact .cons (fieldMember_same h2 h1) (ih _ h3)

/-- **C68** These fields are determined by the schema: whatever satisfies the description is what is in the code. -/
theorem C68_determined_partial (U : UnicodeTable) (root : Node) (t : Str) (F : Node → List StructField)
    (hg : Grammatical root) (hs : CopySafe root) (hr : RegularSchema root) (h : convertXsd U root = .ok t)
    (hF : ∀ c nm n, Declares root c nm n → TypeFields root F c nm n (F c)) (c : Node) (nm : Str) (n : Node)
    (hc : Declares root c nm n) :
    ∃ ms, HasStruct t (formatTypeName U (targetNamespace root) (xsdNamespace root) nm) ms ∧
      List.Forall₂ (FieldMember (naming U root) ((targetNamespace root).bind (·.name)) (defaultFormatName U nm))
        (written (F c)) ms := by
  obtain ⟨F', hF'⟩ := C68_fields_partial U root t hg hs hr h
  obtain ⟨-, ms, h1, h2⟩ := hF' c nm n hc
  exact ⟨ms, h1, written_same (typeFields_same hr (fun c nm n h => (hF' c nm n h).1) hF hc) h2⟩

theorem own_not_marker {root s n : Node} {o : Str} {fs attrs : List StructField} (hs : PartOf root s)
    (hn : PartOf root n)
    (hb : ∀ n a, PartOf root n → a ∈ ["name", "ref"] → n.attr a.toList ≠ some "__base__".toList)
    (h1 : SequenceFields o s fs) (h2 : AttrFields n attrs) : ∀ f ∈ fs ++ attrs, ¬ Marker f := by
  intro f hf
  rcases List.mem_append.1 hf with hf | hf
  · obtain ⟨c, hc, hm⟩ := forall₂_left h1 f hf
    have hcp : PartOf root c := .child hs hc
    cases hm with
    | typed _ h => exact fun e => hb c "name" hcp (by decide) (h.trans (congrArg some e))
    | ref _ _ h => exact fun e => hb c "ref" hcp (by decide) (h.trans (congrArg some e))
    | inline _ _ h => exact fun e => hb c "name" hcp (by decide) (h.trans (congrArg some e))
    | any => exact fun e => absurd (show "any".toList = "__base__".toList from e) (by decide)
    | choice =>
      intro e
      have := congrArg List.getLast? (show o ++ "Choice".toList = "__base__".toList from e)
      rw [List.getLast?_append] at this
      exact absurd this (by simp)
  · obtain ⟨c, hc, hm⟩ := forall₂_left h2 f hf
    obtain ⟨hc1, hc2⟩ := mem_withTags2.1 hc
    have hcp : PartOf root c := by
      rcases hc2 with hc2 | hc2
      · exact .child hn (member_of_tag hc1 hc2 (by decide) (by decide))
      · exact .child hn (member_of_tag hc1 hc2 (by decide) (by decide))
    cases hm with
    | «attribute» _ h =>
      cases h with
      | named h => exact fun e => hb c "name" hcp (by decide) (h.trans (congrArg some e))
      | ref _ h => exact fun e => hb c "ref" hcp (by decide) (h.trans (congrArg some e))
    | any => exact fun e => absurd (show "any_attribute".toList = "__base__".toList from e) (by decide)

theorem inherit_nil {own : List StructField} (h : ∀ f ∈ own, ¬ Marker f) : bases own = [] ∧ inherit own [] = own := by
  constructor
  · unfold bases
    rw [List.filter_eq_nil_iff.2 fun f hf => by simpa using h f hf]
    rfl
  · unfold inherit
    rw [List.filter_nil, List.append_nil]
    exact List.filter_eq_self.2 fun f hf => by simpa using h f hf

/-- **C68** A type with a sequence: its members and then its attributes, in order, and nothing else. -/
theorem C68_sequence_partial (U : UnicodeTable) (root : Node) (t : Str) (hg : Grammatical root) (hs : CopySafe root)
    (hr : RegularSchema root) (h : convertXsd U root = .ok t)
    (hb : ∀ n a, PartOf root n → a ∈ ["name", "ref"] → n.attr a.toList ≠ some "__base__".toList)
    (c : Node) (nm : Str) (n s : Node) (hc : Declares root c nm n) (h1 : (withTags n contentTags).getLast? = some s)
    (h2 : Is s ["sequence", "all"]) (h3 : s.children.filter Node.isElement ≠ []) :
    ∃ fs attrs ms, SequenceFields nm s fs ∧ AttrFields n attrs ∧
      HasStruct t (formatTypeName U (targetNamespace root) (xsdNamespace root) nm) ms ∧
      List.Forall₂ (FieldMember (naming U root) ((targetNamespace root).bind (·.name)) (defaultFormatName U nm))
        (written (fs ++ attrs)) ms := by
  obtain ⟨F, hF⟩ := C68_fields_partial U root t hg hs hr h
  obtain ⟨⟨own, gs, inh, grp, k1, k2, k3, k4⟩, ms, k5, k6⟩ := hF c nm n hc
  have hnp : PartOf root n := by
    have hcp : PartOf root c := .child .root (List.mem_filter.1 hc.1).1
    cases hc.2.2.1 with
    | type => exact hcp
    | element _ _ hi _ => exact .child hcp (inline_mem hi).1
  have hsp : PartOf root s := .child hnp (mem_contentTags h1).1
  have htags : ∀ {s' : Node} {l : List String}, (withTags n contentTags).getLast? = some s' → Is s' l →
      (∀ x ∈ ["sequence", "all"].map String.toList, x ∉ l.map String.toList) → False := by
    intro s' l h hl hd
    obtain rfl := Option.some.inj (h1.symm.trans h)
    exact hd _ h2 hl
  cases k1 with
  | plain q => exact absurd (q s h1) h3
  | simple q1 q2 => exact (htags q1 q2 (by decide)).elim
  | derived q1 q2 => exact (htags q1 q2 (by decide)).elim
  | derivedSequence q1 q2 => exact (htags q1 q2 (by decide)).elim
  | @sequence s' fs attrs q1 _ _ q4 q5 =>
    obtain rfl := Option.some.inj (h1.symm.trans q1)
    refine ⟨fs, attrs, ms, q4, q5, k5, ?_⟩
    obtain ⟨e1, e2⟩ := inherit_nil (own_not_marker hsp hnp hb q4 q5)
    rw [e1] at k2
    obtain ⟨ls, k2, rfl⟩ := k2
    cases k2
    obtain ⟨ls', k3, rfl⟩ := k3
    cases k3
    rw [k4, List.flatten_nil, e2, List.append_nil] at k6
    exact k6

/-- **C68** A type derived from one which is declared earlier has all its fields, unless they are prohibited. -/
theorem C68_inherits_partial (U : UnicodeTable) (root : Node) (t : Str) (hg : Grammatical root) (hs : CopySafe root)
    (hr : RegularSchema root) (h : convertXsd U root = .ok t) (c d : Node) (nm key base : Str) (n m : Node)
    (hc : Declares root c nm n) (hd : Declares root d key m) (hb : DerivedFrom n base) (hk : AfterLastColon base key)
    (hcd : Before root d c) : ∃ fs fs' ms ms',
      HasStruct t (formatTypeName U (targetNamespace root) (xsdNamespace root) nm) ms ∧
      HasStruct t (formatTypeName U (targetNamespace root) (xsdNamespace root) key) ms' ∧
      List.Forall₂ (FieldMember (naming U root) ((targetNamespace root).bind (·.name)) (defaultFormatName U nm))
        (written fs) ms ∧
      List.Forall₂ (FieldMember (naming U root) ((targetNamespace root).bind (·.name)) (defaultFormatName U key))
        (written fs') ms' ∧
      ∀ f' ∈ fs', ¬ Marker f' → ∃ f ∈ fs, f.name = f'.name := by
  obtain ⟨F, hF⟩ := C68_fields_partial U root t hg hs hr h
  obtain ⟨⟨own, gs, inh, grp, k1, k2, k3, k4⟩, ms, k5, k6⟩ := hF c nm n hc
  obtain ⟨-, ms', l1, l2⟩ := hF d key m hd
  refine ⟨F c, F d, ms, ms', k5, l1, k6, l2, fun f' hf' hm => ?_⟩
  obtain ⟨s, e, b1, b2, b3, b4, b5⟩ := hb
  have hmk : baseMarker e base ∈ own := by
    cases k1 with
    | plain q => exact absurd (q s b1) b3
    | sequence q1 q2 =>
      obtain rfl := Option.some.inj (b1.symm.trans q1)
      have : ∀ x ∈ ["sequence", "all"].map String.toList, x ∉ ["simpleContent", "complexContent"].map String.toList := by
        decide
      exact absurd b2 (this _ q2)
    | simple q1 _ _ q4 _ q6 =>
      obtain rfl := Option.some.inj (b1.symm.trans q1)
      obtain rfl := Option.some.inj (b4.symm.trans q4)
      obtain rfl := Option.some.inj (b5.symm.trans q6)
      simp
    | derived q1 _ _ q4 _ q6 =>
      obtain rfl := Option.some.inj (b1.symm.trans q1)
      obtain rfl := Option.some.inj (b4.symm.trans q4)
      obtain rfl := Option.some.inj (b5.symm.trans q6)
      simp
    | derivedSequence q1 _ _ q4 _ q6 =>
      obtain rfl := Option.some.inj (b1.symm.trans q1)
      obtain rfl := Option.some.inj (b4.symm.trans q4)
      obtain rfl := Option.some.inj (b5.symm.trans q6)
      simp
  have hbase : base ∈ bases own :=
    List.mem_map.2 ⟨baseMarker e base, List.mem_filter.2 ⟨hmk, by simp [Marker, baseMarker, StructField.name]⟩, rfl⟩
  have hinh : ∃ f ∈ inh, f.name = f'.name := by
    obtain ⟨ls, k2, rfl⟩ := k2
    obtain ⟨l, hl, key', hk', hv⟩ := forall₂_right k2 base hbase
    obtain rfl := Gen.afterLastColon_unique hk hk'
    have hF' : ∀ d nm n, Declares root d nm n → Before root d c → List.Forall₂ SameField (F d) (F d) :=
      fun d _ _ _ _ => sames_refl _
    have hsame := visible_same (own := own) (own' := own) hr hc hF' (sames_refl _) (.earlier hd hcd) hv
    obtain ⟨f, hf, hff⟩ := forall₂_right hsame f' hf'
    exact ⟨f, List.mem_flatten.2 ⟨l, hl, hf⟩, hff.1.symm⟩
  obtain ⟨f, hf, hn⟩ := hinh
  rw [k4]
  by_cases hx : ∃ x ∈ own, x.name = f.name
  · obtain ⟨x, hx, hxn⟩ := hx
    refine ⟨x, List.mem_append_left _ (List.mem_append_left _ (List.mem_filter.2 ⟨hx, ?_⟩)), hxn.trans hn⟩
    have : ¬ Marker x := fun e => hm (by unfold Marker at e ⊢; rw [← hn, ← hxn]; exact e)
    simpa using this
  · refine ⟨f, List.mem_append_left _ (List.mem_append_right _ (List.mem_filter.2 ⟨hf, ?_⟩)), hn⟩
    have h1 : ¬ Marker f := fun e => hm (by unfold Marker at e ⊢; rw [← hn]; exact e)
    have h2 : ∀ g ∈ own, g.name ≠ f.name := fun g hg e => hx ⟨g, hg, e⟩
    simpa using ⟨h1, h2⟩

/-! ## Examples -/

private theorem distinct_of {α β : Type} {key : α → Option β} : ∀ {l : List α}, (l.filterMap key).Nodup →
    ∀ (i j : Nat) x y b, l[i]? = some x → l[j]? = some y → key x = some b → key y = some b → i = j
  | [], _ => fun _ _ _ _ _ h => by simp at h
  | a :: l, hd => by
    intro i j x y b hi hj hx hy
    have later : ∀ (k : Nat) z, l[k]? = some z → key z = some b → key a ≠ some b := by
      intro k z hk hz ha
      rw [List.filterMap_cons_some ha] at hd
      exact (List.nodup_cons.1 hd).1 (List.mem_filterMap.2 ⟨z, List.mem_of_getElem? hk, hz⟩)
    cases i with
    | zero =>
      cases j with
      | zero => rfl
      | succ j =>
        obtain rfl : a = x := by simpa using hi
        exact absurd hx (later j y (by simpa using hj) hy)
    | succ i =>
      cases j with
      | zero =>
        obtain rfl : a = y := by simpa using hj
        exact absurd hy (later i x (by simpa using hi) hx)
      | succ j =>
        refine congrArg (· + 1) (distinct_of ?_ i j x y b (by simpa using hi) (by simpa using hj) hx hy)
        cases ha : key a with
        | none => rwa [List.filterMap_cons_none ha] at hd
        | some c => rw [List.filterMap_cons_some ha] at hd; exact (List.nodup_cons.1 hd).2

instance (c : Node) : Decidable (StructLike c) := by unfold StructLike; infer_instance

instance (c : Node) : Decidable (ElementForm c) :=
  decidable_of_iff (((c.attr "name".toList).isSome ∧ c.attr "ref".toList = none) ∨
    ((c.attr "ref".toList).isSome ∧ c.attr "name".toList = none ∧ c.attr "type".toList = none)) (by
    unfold ElementForm
    simp only [Option.isSome_iff_exists, exists_and_right])

theorem regular_of {root : Node}
    (h1 : ((declarations root).filterMap fun c => if StructLike c then c.attr "name".toList else none).Nodup)
    (h2 : ∀ n ∈ elements root, Is n ["sequence", "all"] → ∀ c ∈ members n, Is c ["group", "sequence", "any"] ∨
      (Is c ["element"] ∧ ElementForm c) ∨ (Is c ["choice"] ∧ ∀ x ∈ withTags c ["element"], ElementForm x))
    (h3 : ∀ n ∈ elements root, ¬ Is n ["schema"] → ∀ c ∈ members n,
      Is c ["complexType", "complexContent", "simpleContent", "extension", "restriction"] →
      ¬ (c.attr "name".toList).isSome) : RegularSchema root where
  distinct i j c d nm hi hj hc hd hcn hdn := distinct_of h1 i j c d nm hi hj (by rw [if_pos hc]; exact hcn)
    (by rw [if_pos hd]; exact hdn)
  sequences n c hn hs hc := by
    rcases h2 n (partOf_elements hn) hs c hc with h | h | h
    · exact .inl h
    · exact .inr (.inl ⟨by simpa [Is] using h.1, h.2⟩)
    · exact .inr (.inr ⟨by simpa [Is] using h.1, h.2⟩)
  anonymous n c hn hs hc hm h := h3 n (partOf_elements hn) hs c hc hm (Option.isSome_iff_exists.2 h)

private theorem sample_regular : RegularSchema sample :=
  regular_of (by decide +kernel) (by decide +kernel) (by decide +kernel)

instance (n : Node) : Decidable (ChoiceContent n) :=
  decidable_of_iff (∃ c ∈ (withTags n contentTags).getLast?.toList, c.tag = "choice".toList ∧
    c.children.filter Node.isElement ≠ []) (by simp [ChoiceContent])

private theorem sample_declares : ∃ c n d m, Declares sample c "Dog".toList n ∧ Declares sample d "Animal".toList m ∧
    DerivedFrom n "tns:Animal".toList ∧ Before sample d c := by
  refine ⟨_, _, _, _, ⟨List.mem_of_getElem? (i := 1) rfl, rfl, .type rfl, ?_⟩,
    ⟨List.mem_of_getElem? (i := 0) rfl, rfl, .type rfl, ?_⟩, ⟨_, _, rfl, ?_, ?_, rfl, rfl⟩, 0, 1, by decide, rfl, rfl⟩
  · decide +kernel
  · decide +kernel
  · decide +kernel
  · decide +kernel

/-- What is assumed holds of the sample, with a type derived from an earlier one. -/
example : Grammatical sample ∧ CopySafe sample ∧ RegularSchema sample ∧ (∃ t, convertXsd A sample = .ok t) ∧
    ∃ c n d m, Declares sample c "Dog".toList n ∧ Declares sample d "Animal".toList m ∧
      DerivedFrom n "tns:Animal".toList ∧ Before sample d c :=
  ⟨sample_grammatical, sample_copySafe, sample_regular, ok_of (by decide +kernel), sample_declares⟩

def structOf : RsEntity → List RStruct
  | .struct s => [s]
  | _ => []

theorem struct_for {root : Node} (hg : Grammatical root) (hs : CopySafe root)
    (h : convertXsd A root ≠ .panic ∧ convertXsd A root ≠ .err) (i : Nat) (nm : Str) (names : List Str)
    (hi : ∃ x ∈ (okFile (parseFile A root)).types[i]?.toList, ∃ s ∈ structOf x,
      s.name = nm ∧ (written s.fields).map (defaultFormatName A ·.name) = names) :
    ∃ t, convertXsd A root = .ok t ∧ ∃ ms,
      HasStruct t (formatTypeName A (targetNamespace root) (xsdNamespace root) nm) ms ∧ ms.map (·.name) = names := by
  obtain ⟨t, ht⟩ := ok_of h
  refine ⟨t, ht, ?_⟩
  obtain ⟨g, hp, h⟩ := Res.bind_eq_ok.1 ht
  obtain ⟨h1, h2⟩ := parseFile_safe hs hp
  rw [hp] at hi
  obtain ⟨x, hx, s, hsx, rfl, rfl⟩ := hi
  have hx' : g.types[i]? = some x := Option.mem_toList.1 hx
  cases x with
  | struct s' =>
    obtain rfl := List.mem_singleton.1 hsx
    obtain ⟨n, c, fs, ag, ss⟩ := s
    obtain ⟨ms, k3, k4⟩ := Gen.file_struct h1 (fun x hx => ⟨h2 x hx, parseFile_items hg hp x hx⟩) h hx'
    rw [(parseFile_namespaces hp).1, (parseFile_namespaces hp).2] at k3
    refine ⟨ms, k3, ?_⟩
    have := k4
    show _ = (fs.filter _).map _
    clear k4 k3
    generalize (fs.filter fun f => !f.typeModifiers.contains .empty) = l at this
    induction this with
    | nil => rfl
    | cons ha _ ih => exact congrArg₂ List.cons ha.1 ih
  | _ => cases hsx

/-- A schema where the type of another schema is extended, and there is a type of the same name. -/
private def foreign : Node :=
  .element (some xsdUri) "schema".toList [⟨none, "targetNamespace".toList, "http://example.com/a".toList⟩]
    [⟨some "xs".toList, xsdUri⟩, ⟨some "tns".toList, "http://example.com/a".toList⟩,
      ⟨some "o".toList, "http://example.com/b".toList⟩]
    [el "complexType" [("name", "Foo")] [el "sequence" [] [el "element" [("name", "x"), ("type", "xs:string")] []]],
     el "complexType" [("name", "Bar")] [el "complexContent" [] [el "extension" [("base", "o:Foo")]
       [el "sequence" [] [el "element" [("name", "y"), ("type", "xs:string")] []]]]]]

/-- **C68** The namespace of the base is not looked at: a type derived from a type of another namespace gets the fields
of the type which has the same name in this one. -/
theorem C68_namespace_violated : ∃ t, convertXsd A foreign = .ok t ∧ ∃ ms, HasStruct t "Bar".toList ms ∧
    ms.map (·.name) = ["y".toList, "x".toList] :=
  struct_for (grammatical_of rfl (by decide +kernel))
    (copySafe_of (by decide +kernel) (by decide +kernel) (by decide +kernel) (by decide +kernel) (by decide +kernel))
    (by decide +kernel) 1 "Bar".toList _ (by decide +kernel)

/-- **C68** A type derived from a later one does not get what that one inherits. -/
theorem C68_order_violated : ∃ t, convertXsd A (doc
      [el "complexType" [("name", "C")] [el "complexContent" [] [el "extension" [("base", "tns:B")]
        [el "sequence" [] [el "element" [("name", "c"), ("type", "xs:string")] []]]]],
       el "complexType" [("name", "B")] [el "complexContent" [] [el "extension" [("base", "tns:A")]
        [el "sequence" [] [el "element" [("name", "b"), ("type", "xs:string")] []]]]],
       el "complexType" [("name", "A")] [el "sequence" [] [el "element" [("name", "a"), ("type", "xs:string")] []]]]) =
      .ok t ∧ ∃ ms, HasStruct t "C".toList ms ∧ ms.map (·.name) = ["c".toList, "b".toList] :=
  struct_for (grammatical_of rfl (by decide +kernel))
    (copySafe_of (by decide +kernel) (by decide +kernel) (by decide +kernel) (by decide +kernel) (by decide +kernel))
    (by decide +kernel) 0 "C".toList _ (by decide +kernel)

/-- **C68** A type with a sequence does not get the attributes of the attribute groups it refers to. -/
theorem C68_groups_violated : ∃ t, convertXsd A (doc
      [el "attributeGroup" [("name", "g")] [el "attribute" [("name", "lang"), ("type", "xs:string")] []],
       el "complexType" [("name", "T")] [el "sequence" [] [el "element" [("name", "a"), ("type", "xs:string")] []],
         el "attributeGroup" [("ref", "tns:g")] []]]) =
      .ok t ∧ ∃ ms, HasStruct t "T".toList ms ∧ ms.map (·.name) = ["a".toList] :=
  struct_for (grammatical_of rfl (by decide +kernel))
    (copySafe_of (by decide +kernel) (by decide +kernel) (by decide +kernel) (by decide +kernel) (by decide +kernel))
    (by decide +kernel) 0 "T".toList _ (by decide +kernel)

end Verif.Props
