import Verif.Props.XmlMembers
import Verif.Props.Closed
import Verif.Lemmas.XmlEverywhere

/-! # C76: the names in XML documents, for all structs and enums -/

namespace Verif.Props

open Verif Verif.Model Verif.Spec Verif.RoXml Verif.Lemmas Verif.Lemmas.Parse

open Verif.Props.Sample

private theorem owner_ok {root : Node} {o : Str} (hs : CopySafe root) (hp : ProperNames root) (h : OwnerIn root o) :
    ':' ∉ o ∧ '"' ∉ o := by
  rcases h with ⟨a, h1, h2⟩ | h
  · exact (name_ok hs hp h1).1 o h2
  · have : ∀ o ∈ ["UnsupportedName", "SchemaElement"].map String.toList, ':' ∉ o ∧ '"' ∉ o := by decide
    exact this o h

private theorem sprung_items {U : UnicodeTable} {root : Node} {t : Str} (hg : Grammatical root) (hf : ProperForms root)
    (hs : CopySafe root) (h : convertXsd U root = .ok t) {is : List Item} (hi : HasItems t is) :
    ∀ i ∈ is, ∃ x, ItemFor (naming U root) (targetNamespace root) x i ∧ ∀ e, x.2 = .entity e → Xml.Sprung root e := by
  obtain ⟨f, hpf, is', h1, h2⟩ := C69_document U root t hg hs h
  obtain rfl := C69_determined t is is' hi h1
  have hd := (parseFile_deep (Xml.sprung_fieldwise root) (fun c hc e he => by
    obtain ⟨k, hk⟩ := (reads_iff hg hf (global_located hg hc)).1 he
    refine (Xml.reads_good U k (.child .root hc) (fun a ha => ?_) hk).deep
    obtain rfl := List.mem_singleton.1 ha
    exact .root) hpf).1
  intro i hii
  obtain ⟨x, hx, hxi⟩ := forall₂_left h2 i hii
  obtain ⟨q, o⟩ := x
  refine ⟨(q, o), hxi, fun e he => ?_⟩
  have he : o = .entity e := he
  subst he
  exact ((origins_embeddedList _ _ _ q e hx).1 _ hd).here

/-- The item defines a struct. -/
def StructItem (i : Item) : Prop := "pub struct ".toList <+: i.head

/-- The item defines an enum which is not a union. -/
def EnumItem (i : Item) : Prop :=
  "pub enum ".toList <+: i.head ∧ i.attrs ≠ ["#[derive(PartialEq, Debug, UtilsUnionSerDe)]".toList]

/-- **C76** What any member of any struct in the code is called in documents, on every level: as some part of the schema
says. -/
theorem C76_everywhere_partial (U : UnicodeTable) (root : Node) (t : Str) (hg : Grammatical root) (hf : ProperForms root)
    (hs : CopySafe root) (hp : ProperNames root) (h : convertXsd U root = .ok t) (is : List Item) (hi : HasItems t is)
    (tns : Option Namespace) (ht : TargetNs root tns) :
    ∀ i ∈ is, StructItem i → ∀ m ∈ readFieldLines none i.body, ∃ e, PartOf root e ∧ MemberNamed root tns i m e := by
  intro i hii hst m hm
  have hNs := nsOk_of hs hp ht
  obtain rfl := targetNs_iff.1 ht
  obtain ⟨⟨q, o⟩, ⟨-, hx⟩, hsp⟩ := sprung_items hg hf hs h hi i hii
  have clash : ∀ {p r : Str}, i.head = p ++ r → 5 ≤ p.length → p.take 5 ≠ "pub s".toList → False := by
    intro p r e hl hne
    obtain ⟨r', hr'⟩ := hst
    have := congrArg (List.take 5) (hr'.trans e)
    rw [List.take_append_of_le_length hl] at this
    exact hne this.symm
  cases o with
  | inner n => exact (clash hx.2.1 (by decide) (by decide)).elim
  | default n => exact (clash hx.2.1 (by decide) (by decide)).elim
  | validate n t ms fs =>
    obtain ⟨cs, -, ⟨-, ⟨-, h, -⟩ | ⟨-, h, -⟩⟩, -⟩ := hx
    · exact (clash h (by decide) (by decide)).elim
    · exact (clash h (by decide) (by decide)).elim
  | entity e =>
    have hsp := hsp e rfl
    have hx : EntityItem _ _ e i := hx
    cases e with
    | struct s =>
      obtain ⟨n, c, fs, ag, sub⟩ := s
      obtain ⟨p1, p2, p3⟩ := hx
      have hN : Xml.Names (targetNamespace root) i.attrs := by rw [p1]; exact Xml.structNames hNs (by decide)
      obtain ⟨f, hff, hfm⟩ := forall₂_left p2 m hm
      obtain ⟨hff, hw⟩ := List.mem_filter.1 hff
      obtain ⟨e, he, hfe⟩ := hsp.2 f hff
      obtain ⟨n1, n2⟩ := name_ok hs hp he
      refine ⟨e, he, ?_⟩
      have h3 := hfm.2.2
      cases hfe with
      | element k0 k1 k2 k3 =>
        rw [k2] at h3
        exact .element k0 k1 fun x => Xml.elementField_reads hNs hN n1 n2 k3 h3
      | choice k0 k1 k2 k3 k4 =>
        rw [k2, k4] at h3
        exact .choice k0 k1 k3 fun x => Xml.invented_reads hNs hN (owner_ok hs hp k3) h3
      | «attribute» k1 k2 k3 =>
        rw [k2] at h3
        exact .attribute k1 fun x => Xml.attributeField_reads hN n1 n2 k3 h3
      | content k1 k2 =>
        rw [k2] at h3
        exact .content k1 h3
      | marker k1 k2 =>
        rw [k2] at h3
        exact .marker k1 h3
      | hidden k1 => simp [k1] at hw
    | tupleStruct s =>
      obtain ⟨n, c, t, sub, ms, fs⟩ := s
      rw [hx.2.2] at hm
      exact nomatch hm
    | enum s =>
      obtain ⟨n, cs, c, t, sub, src⟩ := s
      exact (clash hx.2.1 (by decide) (by decide)).elim
    | «alias» s =>
      obtain ⟨n, o, c, sub⟩ := s
      exact (clash hx.2.1 (by decide) (by decide)).elim
    | _ => exact hx.elim

/-- **C76** What any variant of any enum in the code is called in documents, if the enum is not for a union: as the element of
a choice says, or it is an enumerated value. -/
theorem C76_variants_partial (U : UnicodeTable) (root : Node) (t : Str) (hg : Grammatical root) (hf : ProperForms root)
    (hs : CopySafe root) (hp : ProperNames root) (h : convertXsd U root = .ok t) (is : List Item) (hi : HasItems t is)
    (tns : Option Namespace) (ht : TargetNs root tns) :
    ∀ i ∈ is, EnumItem i → ∃ ms u, readCaseLines none i.body = ms ++ [u] ∧ u.name = "__Unknown__".toList ∧
      ∀ m ∈ ms, ∃ e, PartOf root e ∧ VariantNamed (naming U root) tns i m e := by
  intro i hii hst
  have hNs := nsOk_of hs hp ht
  obtain rfl := targetNs_iff.1 ht
  obtain ⟨⟨q, o⟩, ⟨-, hx⟩, hsp⟩ := sprung_items hg hf hs h hi i hii
  have clash : ∀ {p r : Str}, i.head = p ++ r → 5 ≤ p.length → p.take 5 ≠ "pub e".toList → False := by
    intro p r e hl hne
    obtain ⟨r', hr'⟩ := hst.1
    have := congrArg (List.take 5) (hr'.trans e)
    rw [List.take_append_of_le_length hl] at this
    exact hne this.symm
  cases o with
  | inner n => exact (clash hx.2.1 (by decide) (by decide)).elim
  | default n => exact (clash hx.2.1 (by decide) (by decide)).elim
  | validate n t ms fs =>
    obtain ⟨cs, -, ⟨-, ⟨-, h, -⟩ | ⟨-, h, -⟩⟩, -⟩ := hx
    · exact (clash h (by decide) (by decide)).elim
    · exact (clash h (by decide) (by decide)).elim
  | entity e =>
    have hsp := hsp e rfl
    have hx : EntityItem _ _ e i := hx
    cases e with
    | struct s =>
      obtain ⟨n, c, fs, ag, sub⟩ := s
      exact (clash hx.2.2 (by decide) (by decide)).elim
    | tupleStruct s =>
      obtain ⟨n, c, t, sub, ms, fs⟩ := s
      exact (clash hx.2.1 (by decide) (by decide)).elim
    | enum s =>
      obtain ⟨n, cs, c, t, sub, src⟩ := s
      obtain ⟨p1, -, ms, p2, p3⟩ := hx
      by_cases hsrc : src = .union
      · rw [if_pos hsrc] at p1
        exact absurd p1 hst.2
      rw [if_neg hsrc] at p1
      have hN : Xml.Names (targetNamespace root) i.attrs := by rw [p1]; exact Xml.enumNames hNs (by decide)
      refine ⟨ms, _, p3, rfl, fun m hm => ?_⟩
      obtain ⟨k, hk, hkm⟩ := forall₂_left p2 m hm
      obtain ⟨e, he, hke⟩ := hsp hsrc k hk
      refine ⟨e, he, ?_⟩
      cases hke with
      | element _ k2 k3 =>
        obtain ⟨n1, n2⟩ := name_ok hs hp he
        exact .element k2 fun x => Xml.choice_reads hN n1 n2 k3 hkm
      | value _ k2 k3 => exact .value k2 k3 hkm.1
    | «alias» s =>
      obtain ⟨n, o, c, sub⟩ := s
      exact (clash hx.2.1 (by decide) (by decide)).elim
    | _ => exact hx.elim

/-- **C76** In a schema whose local elements have names and are qualified, and whose attributes have names and are not, the
code reads and writes exactly the names of the schema for every member of every struct on every level. -/
theorem C76_right_everywhere_partial (U : UnicodeTable) (root : Node) (t : Str) (hg : Grammatical root) (hf : ProperForms root)
    (hs : CopySafe root) (hp : ProperNames root) (h : convertXsd U root = .ok t) (is : List Item) (hi : HasItems t is)
    (ht : ∃ a ∈ root.namespaces, root.attr "targetNamespace".toList = some a.uri)
    (hq : ∀ e, InSequence root e → Is e ["element", "any"] ∧
      (Is e ["element"] → Has e "name" ∧ Qualified root e "elementFormDefault"))
    (ha : ∀ a, PartOf root a → Is a ["attribute"] → Has a "name" ∧ ¬ Qualified root a "attributeFormDefault") :
    ∀ i ∈ is, StructItem i → ∀ m ∈ readFieldLines none i.body, ∃ e, PartOf root e ∧
      ((Is e ["element"] ∧ ∀ x, ElementReads i m x ↔ DeclaredName root e "elementFormDefault" x) ∨
       (Is e ["attribute"] ∧ ∀ x, AttributeReads i m x ↔ DeclaredName root e "attributeFormDefault" x) ∨
       (Is e ["complexType"] ∧ m.attr = some (yaserdeAttr ["flatten".toList] [])) ∨
       (Is e ["extension", "restriction"] ∧ m.attr = none)) := by
  obtain ⟨tns, ht', hu⟩ := declared_target ht
  intro i hii hst m hm
  obtain ⟨e, he, hme⟩ := C76_everywhere_partial U root t hg hf hs hp h is hi tns ht' i hii hst m hm
  refine ⟨e, he, ?_⟩
  cases hme with
  | element k0 k1 k2 =>
    obtain ⟨⟨v, q4⟩, q5⟩ := (hq e k0).2 k1
    exact .inl ⟨k1, fun x => by rw [k2]; exact (C76_element_iff root e tns v q4).2 ⟨fun _ => hu, fun k => absurd q5 k⟩ x⟩
  | choice k0 k1 =>
    have := (hq e k0).1
    rw [Is, is_one.1 k1] at this
    exact absurd this (by decide)
  | «attribute» k1 k2 =>
    obtain ⟨⟨v, q1⟩, q2⟩ := ha e he k1
    exact .inr (.inl ⟨k1, fun x => by rw [k2]; exact (C76_attribute_iff root e tns v q1).2 (fun k => absurd k q2) x⟩)
  | content k1 k2 => exact .inr (.inr (.inl ⟨k1, k2⟩))
  | marker k1 k2 => exact .inr (.inr (.inr ⟨k1, k2⟩))

/-! ## Example -/

private abbrev field (n t : String) : Node := el "element" [("name", n), ("type", t)] []
private abbrev innerType : Node := el "complexType" [] [el "sequence" [] [field "city" "xs:string"],
  el "attribute" [("name", "zip"), ("type", "xs:string")] []]
private abbrev outerType : Node := el "complexType" [("name", "Person")]
  [el "sequence" [] [field "id" "xs:int", el "element" [("name", "home")] [innerType]]]
private abbrev pick : Node := el "complexType" [("name", "Pick")]
  [el "choice" [] [field "left" "xs:int", field "right" "xs:string"]]
private def nestedDoc : Node :=
  .element (some xsdUri) "schema".toList [⟨none, "targetNamespace".toList, "http://example.com/a".toList⟩,
      ⟨none, "elementFormDefault".toList, "qualified".toList⟩]
    [⟨some "xs".toList, xsdUri⟩, ⟨some "tns".toList, "http://example.com/a".toList⟩] [outerType, pick]

private def nestedText : Str := okText (convertXsd A nestedDoc)

private theorem nested_of : Grammatical nestedDoc ∧ ProperForms nestedDoc ∧ CopySafe nestedDoc ∧ ProperNames nestedDoc ∧
    convertXsd A nestedDoc = .ok nestedText ∧ HasItems nestedText (readItems [] [] (Gen.lns nestedText)) :=
  ⟨grammatical_of rfl (by decide +kernel), properForms_of (by decide +kernel) (by decide +kernel) (by decide +kernel),
      copySafe_of (by decide +kernel) (by decide +kernel) (by decide +kernel)
      (by decide +kernel) (by decide +kernel),
      properNames_of (by decide +kernel) (by decide +kernel) (by decide +kernel), okText_eq (by decide +kernel), _,
      Gen.lines_lns _, rfl⟩

/-- The hypotheses are met by a schema with a type inside another: the inner struct has two members, an element and an
attribute, under the names in the schema. -/
example : ∃ t is i, convertXsd A nestedDoc = .ok t ∧ HasItems t is ∧ i ∈ is ∧ i.path = ["person".toList] ∧ StructItem i ∧
    (readFieldLines none i.body).map Spec.Member.name = ["city".toList, "zip".toList] ∧
    ∀ m ∈ readFieldLines none i.body, ∃ e, PartOf nestedDoc e ∧
      ((Is e ["element"] ∧ ∀ x, ElementReads i m x ↔ DeclaredName nestedDoc e "elementFormDefault" x) ∨
       (Is e ["attribute"] ∧ ∀ x, AttributeReads i m x ↔ DeclaredName nestedDoc e "attributeFormDefault" x)) := by
  obtain ⟨h1, h2, h3, h4, h5, h6⟩ := nested_of
  have key := C76_right_everywhere_partial A nestedDoc _ h1 h2 h3 h4 h5 _ h6 ⟨_, List.mem_of_getElem? (i := 1) rfl, rfl⟩
    (fun e ⟨s, hs, ht, he⟩ => by
      have : ∀ s ∈ elements nestedDoc, Is s ["sequence", "all"] → ∀ e ∈ members s, Is e ["element", "any"] ∧
          (Is e ["element"] → (e.attr "name".toList).isSome ∧ e.attr "form".toList = none) := by decide +kernel
      obtain ⟨k1, k2⟩ := this s (partOf_elements hs) ht e he
      exact ⟨k1, fun k => ⟨Option.isSome_iff_exists.1 (k2 k).1, .inr ⟨(k2 k).2, rfl⟩⟩⟩)
    (fun a ha ht => by
      have : ∀ a ∈ elements nestedDoc, Is a ["attribute"] → (a.attr "name".toList).isSome ∧ a.attr "form".toList = none := by
        decide +kernel
      obtain ⟨k1, k2⟩ := this a (partOf_elements ha) ht
      refine ⟨Option.isSome_iff_exists.1 k1, fun k => ?_⟩
      rcases k with k | ⟨-, k⟩
      · exact nomatch k2.symm.trans k
      · exact absurd k (by decide +kernel))
  have hex : ∃ i ∈ readItems [] [] (Gen.lns nestedText), i.path = ["person".toList] ∧ "pub struct ".toList <+: i.head ∧
      (readFieldLines none i.body).map Spec.Member.name = ["city".toList, "zip".toList] ∧
      ∀ m ∈ readFieldLines none i.body, m.attr ≠ none ∧ m.attr ≠ some (yaserdeAttr ["flatten".toList] []) := by decide +kernel
  obtain ⟨i, him, p1, p2, p3, p4⟩ := hex
  refine ⟨_, _, i, h5, h6, him, p1, p2, p3, fun m hm => ?_⟩
  obtain ⟨e, he, k⟩ := key i him p2 m hm
  refine ⟨e, he, ?_⟩
  rcases k with k | k | k | k
  · exact .inl k
  · exact .inr k
  · exact absurd k.2 (p4 m hm).2
  · exact absurd k.2 (p4 m hm).1

/-- … and the enum for the choice has variants for the two elements, which have names in documents. -/
example : ∃ t is i, convertXsd A nestedDoc = .ok t ∧ HasItems t is ∧ i ∈ is ∧ EnumItem i ∧
    ∃ ms u, readCaseLines none i.body = ms ++ [u] ∧ u.name = "__Unknown__".toList ∧
      ∀ m ∈ ms, ∃ e, PartOf nestedDoc e ∧ VariantNamed (naming A nestedDoc) (targetNamespace nestedDoc) i m e := by
  obtain ⟨h1, h2, h3, h4, h5, h6⟩ := nested_of
  have hex : ∃ i ∈ readItems [] [] (Gen.lns nestedText), ("pub enum ".toList <+: i.head ∧
      i.attrs ≠ ["#[derive(PartialEq, Debug, UtilsUnionSerDe)]".toList]) ∧ (readCaseLines none i.body).length = 3 := by decide +kernel
  obtain ⟨i, him, p1, -⟩ := hex
  exact ⟨_, _, i, h5, h6, him, p1, C76_variants_partial A nestedDoc _ h1 h2 h3 h4 h5 _ h6 _ (targetNs_iff.2 rfl) i him p1⟩

end Verif.Props
