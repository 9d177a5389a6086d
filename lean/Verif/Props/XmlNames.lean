import Verif.Props.Simple
import Verif.Props.Denote
import Verif.Lemmas.XmlNames
import Verif.Lemmas.XmlTypeNames

/-! # C76, C77: the names in XML documents -/

namespace Verif.Props

open Verif Verif.Model Verif.Spec Verif.RoXml Verif.Lemmas Verif.Lemmas.Parse

open Verif.Props.Sample

theorem nsOk_of {root : Node} {tns : Option Namespace} (hs : CopySafe root) (hp : ProperNames root) (ht : TargetNs root tns) :
    Xml.NsOk tns := by
  intro a ha
  have hm : a ∈ root.namespaces := by
    cases ht with
    | none => exact nomatch ha
    | some _ h =>
      subst ha
      cases h with
      | some e => exact e ▸ List.mem_append_right _ List.mem_cons_self
  obtain ⟨h1, h2⟩ := hs.namespaces a hm
  exact ⟨fun h => (h1 _ h).1 rfl, hp.uris a hm, fun p e => ⟨hp.prefixes a hm p e, fun h => (h2 p e _ h).1 rfl⟩⟩

theorem name_ok {root c : Node} (hs : CopySafe root) (hp : ProperNames root) (hc : PartOf root c) :
    (∀ nm, c.attr "name".toList = some nm → ':' ∉ nm ∧ '"' ∉ nm) ∧ ∀ r, c.attr "ref".toList = some r → '"' ∉ r :=
  ⟨fun nm h => ⟨hp.names c nm hc h, fun k => ((hs.names c "name" nm hc (by decide) h).1 _ k).1 rfl⟩,
    fun r h k => ((hs.names c "ref" r hc (by decide) h).1 _ k).1 rfl⟩

/-- The member of a sequence, written as the member `m` of the struct `i`, is called like this in documents: an element as
`SequenceName` says, a choice has an invented name. -/
def SequenceReads (tns : Option Namespace) (owner : Str) (i : Item) (c : Node) (m : Spec.Member) : Prop :=
  (Is c ["element"] ∧ ∀ x, ElementReads i m x ↔ SequenceName tns c x) ∨
  (Is c ["choice"] ∧ ∀ x, ElementReads i m x ↔ x = ⟨targetUri tns, owner ++ "Choice".toList⟩)

/-- **C76** What the members and attributes of a type with a sequence are called in the documents which the code reads
and writes. -/
theorem C76_sequence_partial (U : UnicodeTable) (root : Node) (t : Str) (hg : Grammatical root) (hs : CopySafe root)
    (hr : RegularSchema root) (hp : ProperNames root) (h : convertXsd U root = .ok t)
    (hb : ∀ n a, PartOf root n → a ∈ ["name", "ref"] → n.attr a.toList ≠ some "__base__".toList)
    (is : List Item) (hi : HasItems t is) (tns : Option Namespace) (ht : TargetNs root tns)
    (c : Node) (nm : Str) (n s : Node) (hc : Declares root c nm n) (h1 : (withTags n contentTags).getLast? = some s)
    (h2 : Is s ["sequence", "all"]) (h3 : s.children.filter Node.isElement ≠ []) :
    ∃ i ∈ is, i.path = [] ∧ DefinesType i ((naming U root).type nm) ∧ ∃ es as, readFieldLines none i.body = es ++ as ∧
      List.Forall₂ (SequenceReads tns nm i) ((members s).filter fun c => c.tag ≠ "any".toList) es ∧
      List.Forall₂ (fun a m => ∀ x, AttributeReads i m x ↔ AttributeName tns a x)
        ((withTags n ["attribute"]).filter fun a => a.attr "use".toList ≠ some "prohibited".toList) as := by
  obtain ⟨f, hpf, hit⟩ := items_for hg hs h hi
  obtain ⟨F, hF⟩ := parseFile_fields hg hr hpf
  obtain ⟨⟨own, gs, inh, grp, k1, k2, k3, k4⟩, j, cm, ag, -, k5⟩ := hF c nm n hc
  have hcp : PartOf root c := .child .root (List.mem_filter.1 hc.1).1
  have hnp : PartOf root n := by
    cases hc.2.2.1 with
    | type => exact hcp
    | element _ _ hi _ => exact .child hcp (inline_mem hi).1
  have hsp : PartOf root s := .child hnp (mem_contentTags h1).1
  have htags : ∀ {s' : Node} {l : List String}, (withTags n contentTags).getLast? = some s' → Is s' l →
      (∀ x ∈ ["sequence", "all"].map String.toList, x ∉ l.map String.toList) → False := by
    intro s' l h hl hd
    obtain rfl := Option.some.inj (h1.symm.trans h)
    exact hd _ h2 hl
  have hNs := nsOk_of hs hp ht
  obtain rfl := targetNs_iff.1 ht
  cases k1 with
  | plain q => exact absurd (q s h1) h3
  | simple q1 q2 => exact (htags q1 q2 (by decide)).elim
  | derived q1 q2 => exact (htags q1 q2 (by decide)).elim
  | derivedSequence q1 q2 => exact (htags q1 q2 (by decide)).elim
  | @sequence s' fs attrs q1 _ _ q4 q5 =>
    obtain rfl := Option.some.inj (h1.symm.trans q1)
    obtain ⟨e1, e2⟩ := inherit_nil (own_not_marker hsp hnp hb q4 q5)
    rw [e1] at k2
    obtain ⟨ls, k2, rfl⟩ := k2
    cases k2
    obtain ⟨ls', k3, rfl⟩ := k3
    cases k3
    rw [List.flatten_nil, e2, List.append_nil] at k4
    rw [k4] at k5
    obtain ⟨i, him, p1, p2, p3, p4⟩ := hit _ (List.mem_of_getElem? k5)
      ([], .entity (.struct (.mk nm cm (fs ++ attrs) ag []))) (by rw [originsOf]; exact List.mem_cons_self)
    have hN : Xml.Names (targetNamespace root) i.attrs := by rw [p2]; exact Xml.structNames hNs (by decide)
    refine ⟨i, him, p1, .inl ?_, ?_⟩
    · have hh : i.head = "pub struct ".toList ++ ((naming U root).type nm ++ ' ' ::
          (if written (fs ++ attrs) = [] then "{}".toList else "{".toList)) := by
        refine p4.trans ?_
        split <;> rfl
      rw [hh, Gen.readHead_struct]
      have := (hs.names c "name" nm hcp (by decide) hc.2.1).2
      exact (Gen.typeName_word ⟨U, targetNamespace root, xsdNamespace root⟩ this).sp
    · rw [written, List.filter_append] at p3
      obtain ⟨es, as, e, r1, r2⟩ := Xml.forall₂_split p3
      refine ⟨es, as, e, ?_, ?_⟩
      · have w := Xml.forall₂_trans (Xml.forall₂_filter (p := fun c => decide (c.tag ≠ "any".toList))
          (q := fun f => !f.typeModifiers.contains .empty) q4 fun x _ y hxy => Xml.memberField_empty hxy) r1
        refine w.imp ?_
        rintro e m ⟨hm, y, w1, w2⟩
        obtain ⟨hm, hany⟩ := List.mem_filter.1 hm
        obtain ⟨n1, n2⟩ := name_ok hs hp (.child hsp hm)
        have elem : e.tag = "element".toList → SequenceReads (targetNamespace root) nm i e m := fun ht =>
          .inl ⟨is_one.2 ht, fun x => Xml.sequence_reads hNs hN ht n1 n2 w1 w2⟩
        cases id w1 with
        | typed ht => exact elem ht
        | ref ht => exact elem ht
        | inline ht => exact elem ht
        | any ht => exact absurd ht (of_decide_eq_true hany)
        | choice ht => exact .inr ⟨is_one.2 ht, fun x => Xml.nested_reads hNs hN ht ((name_ok hs hp hcp).1 nm hc.2.1) w1 w2⟩
      · have w := Xml.forall₂_trans (Xml.forall₂_filter
          (p := fun c => decide (c.tag = "attribute".toList ∧ c.attr "use".toList ≠ some "prohibited".toList))
          (q := fun f => !f.typeModifiers.contains .empty) q5 fun x _ y hxy => Xml.attrField_empty hxy) r2
        rw [Xml.attributes_filter n fun c => c.attr "use".toList ≠ some "prohibited".toList] at w
        refine w.imp ?_
        rintro a m ⟨hm, y, w1, w2⟩
        obtain ⟨hm, -⟩ := List.mem_filter.1 hm
        obtain ⟨m1, m2⟩ := mem_withTags1.1 hm
        obtain ⟨n1, n2⟩ := name_ok hs hp (.child hnp (member_of_tag m1 m2 (by decide) (by decide)))
        exact fun x => Xml.attribute_reads hN m2 n1 n2 w1 w2

/-- **C76** What the variants of the enum for a type with a choice are called in documents. -/
theorem C76_choice_partial (U : UnicodeTable) (root : Node) (t : Str) (hg : Grammatical root) (hs : CopySafe root)
    (hf : ProperForms root) (hp : ProperNames root) (h : convertXsd U root = .ok t) (is : List Item) (hi : HasItems t is)
    (tns : Option Namespace) (ht : TargetNs root tns) (c : Node) (nm : Str) (s : Node) (hc : c ∈ globals root)
    (hct : c.tag = "complexType".toList) (hn : c.attr "name".toList = some nm)
    (h1 : (withTags c contentTags).getLast? = some s) (h2 : s.tag = "choice".toList)
    (h3 : s.children.filter Node.isElement ≠ []) :
    ∃ i ∈ is, i.path = [] ∧ i.head = "pub enum ".toList ++ ((naming U root).type (nm ++ "Choice".toList) ++ " {".toList) ∧
      ∃ ms, List.Forall₂ (fun e m => ∀ x, VariantReads i m x ↔ ChoiceName tns e x) (withTags s ["element"]) ms ∧
        readCaseLines none i.body = ms ++ [⟨none, "__Unknown__".toList, some ((naming U root).type "String".toList)⟩] := by
  obtain ⟨f, hpf, hit⟩ := items_for hg hs h hi
  obtain ⟨cases, subs, k1, k2⟩ := Xml.global_choice hg hf hpf hc hct hn h1 h2 h3
  obtain ⟨i, him, p1, p2, p3, ms, p4, p5⟩ := hit _ k2 ([], .entity (.enum (.mk (nm ++ "Choice".toList) cases none "String".toList
    subs .choice))) (by rw [originsOf]; exact List.mem_cons_self)
  have hNs := nsOk_of hs hp ht
  obtain rfl := targetNs_iff.1 ht
  have hN : Xml.Names (targetNamespace root) i.attrs := by
    rw [p2, if_neg (by decide)]; exact Xml.enumNames hNs (by decide)
  have hsp : PartOf root s := .child (.child .root (List.mem_filter.1 hc).1) (mem_contentTags h1).1
  refine ⟨i, him, p1, p3, ms, (Xml.forall₂_trans k1 p4).imp ?_, p5⟩
  rintro e m ⟨hm, y, w1, w2⟩
  obtain ⟨m1, m2⟩ := mem_withTags1.1 hm
  obtain ⟨n1, n2⟩ := name_ok hs hp (.child hsp (member_of_tag m1 m2 (by decide) (by decide)))
  exact fun x => Xml.choice_reads hN n1 n2 w1 w2

/-! ## Comparison with the schema -/

private theorem declared_named {root c : Node} {d : String} {nm : Str} (hn : c.attr "name".toList = some nm) {x : XmlName} :
    DeclaredName root c d x ↔ (Qualified root c d ∧ x = ⟨root.attr "targetNamespace".toList, nm⟩) ∨
      (¬ Qualified root c d ∧ x = ⟨none, nm⟩) := by
  constructor
  · intro h
    cases h with
    | qualified h hq => obtain rfl := Option.some.inj (hn.symm.trans h); exact .inl ⟨hq, rfl⟩
    | unqualified h hq => obtain rfl := Option.some.inj (hn.symm.trans h); exact .inr ⟨hq, rfl⟩
    | ref h => exact nomatch hn.symm.trans h
  · rintro (⟨hq, rfl⟩ | ⟨hq, rfl⟩)
    · exact .qualified hn hq
    · exact .unqualified hn hq

private theorem declared_ref {root c : Node} {d : String} {r n : Str} {o : Option Str} (hn : c.attr "name".toList = none)
    (hr : c.attr "ref".toList = some r) (ho : Ref o n r) {x : XmlName} :
    DeclaredName root c d x ↔ ∃ u, PrefixMeans c.namespaces o u ∧ x = ⟨u, n⟩ := by
  constructor
  · intro h
    cases h with
    | qualified h => exact nomatch hn.symm.trans h
    | unqualified h => exact nomatch hn.symm.trans h
    | ref _ h h1 h2 =>
      obtain rfl := Option.some.inj (hr.symm.trans h)
      obtain ⟨rfl, rfl⟩ := Xml.ref_unique ho h1
      exact ⟨_, h2, rfl⟩
  · rintro ⟨u, h, rfl⟩
    exact .ref hn hr ho h

/-- What is called `⟨u, nm⟩` has the right name. -/
private theorem named_right {root c : Node} {d : String} {nm : Str} {u : Option Str} {P : XmlName → Prop}
    (hn : c.attr "name".toList = some nm) (hP : ∀ x, P x ↔ x = ⟨u, nm⟩) :
    (∀ x, P x ↔ DeclaredName root c d x) ↔
      (Qualified root c d → u = root.attr "targetNamespace".toList) ∧ (¬ Qualified root c d → u = none) := by
  constructor
  · intro h
    have := (declared_named hn).1 ((h _).1 ((hP _).2 rfl))
    constructor
    · intro hq
      rcases this with ⟨-, e⟩ | ⟨hq', -⟩
      · exact (XmlName.mk.inj e).1
      · exact absurd hq hq'
    · intro hq
      rcases this with ⟨hq', -⟩ | ⟨-, e⟩
      · exact absurd hq' hq
      · exact (XmlName.mk.inj e).1
  · rintro ⟨h1, h2⟩ x
    rw [hP, declared_named hn]
    by_cases hq : Qualified root c d
    · simp only [hq, h1 hq, true_and, not_true_eq_false, false_and, or_false]
    · simp only [hq, h2 hq, true_and, not_false_eq_true, false_and, false_or]

private theorem ref_right {root c : Node} {d : String} {r n : Str} {o : Option Str} {P : XmlName → Prop} {Q : Option Str → Prop}
    (hn : c.attr "name".toList = none) (hr : c.attr "ref".toList = some r) (ho : Ref o n r)
    (hP : ∀ x, P x ↔ ∃ u, Q u ∧ x = ⟨u, n⟩) :
    (∀ x, P x ↔ DeclaredName root c d x) ↔ ∀ u, PrefixMeans c.namespaces o u ↔ Q u := by
  constructor
  · intro h u
    have := (hP ⟨u, n⟩).symm.trans ((h ⟨u, n⟩).trans (declared_ref hn hr ho))
    constructor
    · intro k
      obtain ⟨u', h1, h2⟩ := this.2 ⟨u, k, rfl⟩
      rw [(XmlName.mk.inj h2).1]; exact h1
    · intro k
      obtain ⟨u', h1, h2⟩ := this.1 ⟨u, k, rfl⟩
      rw [(XmlName.mk.inj h2).1]; exact h1
  · intro h x
    rw [hP, declared_ref hn hr ho]
    simp only [h]

private theorem sequenceName_named {tns : Option Namespace} {c : Node} {nm : Str} (hn : c.attr "name".toList = some nm) (x : XmlName) :
    SequenceName tns c x ↔ x = ⟨targetUri tns, nm⟩ := by
  constructor
  · intro h
    cases h with
    | named h => obtain rfl := Option.some.inj (hn.symm.trans h); rfl
    | bare h => exact nomatch hn.symm.trans h
    | ref h => exact nomatch hn.symm.trans h
  · rintro rfl; exact .named hn

private theorem sequenceName_ref {tns : Option Namespace} {c : Node} {r n : Str} {o : Option Str}
    (hn : c.attr "name".toList = none) (hr : c.attr "ref".toList = some r) (ho : Ref o n r) (x : XmlName) :
    SequenceName tns c x ↔ ∃ u, ((o = none ∧ u = targetUri tns) ∨ ∃ p uri, o = some p ∧ tns = some ⟨some p, uri⟩ ∧ u = some uri) ∧
      x = ⟨u, n⟩ := by
  constructor
  · intro h
    cases h with
    | named h => exact nomatch hn.symm.trans h
    | bare _ h hb =>
      obtain rfl := Option.some.inj (hr.symm.trans h)
      obtain ⟨rfl, rfl⟩ := Xml.ref_unique ho (.bare hb)
      exact ⟨_, .inl ⟨rfl, rfl⟩, rfl⟩
    | ref _ h hb e =>
      obtain rfl := Option.some.inj (hr.symm.trans h)
      obtain ⟨rfl, rfl⟩ := Xml.ref_unique ho hb
      exact ⟨_, .inr ⟨_, _, rfl, e, rfl⟩, rfl⟩
  · rintro ⟨u, ⟨rfl, rfl⟩ | ⟨p, uri, rfl, e, rfl⟩, rfl⟩
    · cases ho with
      | bare h => exact .bare hn hr h
    · exact .ref hn hr ho e

/-- **C76** When the name of an element of a sequence is right: if it is qualified, the target namespace has to be declared
at the schema, otherwise it must not. -/
theorem C76_element_iff (root c : Node) (tns : Option Namespace) (nm : Str) (hn : c.attr "name".toList = some nm) :
    (∀ x, SequenceName tns c x ↔ DeclaredName root c "elementFormDefault" x) ↔
      (Qualified root c "elementFormDefault" → targetUri tns = root.attr "targetNamespace".toList) ∧
      (¬ Qualified root c "elementFormDefault" → targetUri tns = none) :=
  named_right hn (sequenceName_named hn)

/-- **C76** A reference in a sequence is right if its prefix, or the lack of one, stands for the target namespace. -/
theorem C76_elementRef_iff (root c : Node) (tns : Option Namespace) (r n : Str) (o : Option Str)
    (hn : c.attr "name".toList = none) (hr : c.attr "ref".toList = some r) (ho : Ref o n r) :
    (∀ x, SequenceName tns c x ↔ DeclaredName root c "elementFormDefault" x) ↔
      ∀ u, PrefixMeans c.namespaces o u ↔
        (o = none ∧ u = targetUri tns) ∨ ∃ p uri, o = some p ∧ tns = some ⟨some p, uri⟩ ∧ u = some uri :=
  ref_right hn hr ho (sequenceName_ref hn hr ho)

/-- **C76** The name of an attribute is right unless it is qualified and there is a target namespace. -/
theorem C76_attribute_iff (root c : Node) (tns : Option Namespace) (nm : Str) (hn : c.attr "name".toList = some nm) :
    (∀ x, AttributeName tns c x ↔ DeclaredName root c "attributeFormDefault" x) ↔
      (Qualified root c "attributeFormDefault" → root.attr "targetNamespace".toList = none) := by
  rw [named_right (u := none) hn]
  · exact ⟨fun h hq => (h.1 hq).symm, fun h => ⟨fun hq => (h hq).symm, fun _ => rfl⟩⟩
  · intro x
    constructor
    · intro h
      cases h with
      | named h => obtain rfl := Option.some.inj (hn.symm.trans h); rfl
      | bare h => exact nomatch hn.symm.trans h
      | ref h => exact nomatch hn.symm.trans h
    · rintro rfl; exact .named hn

/-- **C76** A reference to an attribute is right if its prefix stands for the target namespace, or if it has none and there is no
default namespace. -/
theorem C76_attributeRef_iff (root c : Node) (tns : Option Namespace) (r n : Str) (o : Option Str)
    (hn : c.attr "name".toList = none) (hr : c.attr "ref".toList = some r) (ho : Ref o n r) :
    (∀ x, AttributeName tns c x ↔ DeclaredName root c "attributeFormDefault" x) ↔
      ∀ u, PrefixMeans c.namespaces o u ↔
        (o = none ∧ u = none) ∨ ∃ p uri, o = some p ∧ tns = some ⟨some p, uri⟩ ∧ u = some uri := by
  refine ref_right hn hr ho fun x => ?_
  constructor
  · intro h
    cases h with
    | named h => exact nomatch hn.symm.trans h
    | bare _ h hb =>
      obtain rfl := Option.some.inj (hr.symm.trans h)
      obtain ⟨rfl, rfl⟩ := Xml.ref_unique ho (.bare hb)
      exact ⟨_, .inl ⟨rfl, rfl⟩, rfl⟩
    | ref _ h hb e =>
      obtain rfl := Option.some.inj (hr.symm.trans h)
      obtain ⟨rfl, rfl⟩ := Xml.ref_unique ho hb
      exact ⟨_, .inr ⟨_, _, rfl, e, rfl⟩, rfl⟩
  · rintro ⟨u, ⟨rfl, rfl⟩ | ⟨p, uri, rfl, e, rfl⟩, rfl⟩
    · cases ho with
      | bare h => exact .bare hn hr h
    · exact .ref hn hr ho e

/-- **C76** The name of an element of a choice is right if it is qualified and the target namespace is the default namespace, or
if neither holds. -/
theorem C76_variant_iff (root c : Node) (tns : Option Namespace) (nm : Str) (hr : c.attr "ref".toList = none)
    (hn : c.attr "name".toList = some nm) :
    (∀ x, ChoiceName tns c x ↔ DeclaredName root c "elementFormDefault" x) ↔
      (Qualified root c "elementFormDefault" → defaultUri tns = root.attr "targetNamespace".toList) ∧
      (¬ Qualified root c "elementFormDefault" → defaultUri tns = none) := by
  refine named_right hn fun x => ?_
  constructor
  · intro h
    cases h with
    | named _ h => obtain rfl := Option.some.inj (hn.symm.trans h); rfl
    | bare h => exact nomatch hr.symm.trans h
    | ref h => exact nomatch hr.symm.trans h
  · rintro rfl; exact .named hr hn

theorem declared_target {root : Node} (ht : ∃ a ∈ root.namespaces, root.attr "targetNamespace".toList = some a.uri) :
    ∃ tns, TargetNs root tns ∧ targetUri tns = root.attr "targetNamespace".toList := by
  refine ⟨_, targetNs_iff.2 rfl, ?_⟩
  obtain ⟨a, ha, he⟩ := ht
  have ht := targetNs_iff.2 (rfl : targetNamespace root = targetNamespace root)
  generalize targetNamespace root = o at ht
  cases ht with
  | none h => exact nomatch he.symm.trans h
  | some h hf =>
    obtain rfl := Option.some.inj (he.symm.trans h)
    cases hf with
    | none hno => exact absurd rfl (hno a ha)
    | some _ e => rw [he, ← e]; rfl

/-- **C76** A type with a sequence of elements which have names and are qualified, and whose attributes have names and are not
qualified: the code reads and writes exactly the names of the schema. -/
theorem C76_qualified_partial (U : UnicodeTable) (root : Node) (t : Str) (hg : Grammatical root) (hs : CopySafe root)
    (hr : RegularSchema root) (hp : ProperNames root) (h : convertXsd U root = .ok t)
    (hb : ∀ n a, PartOf root n → a ∈ ["name", "ref"] → n.attr a.toList ≠ some "__base__".toList)
    (is : List Item) (hi : HasItems t is) (ht : ∃ a ∈ root.namespaces, root.attr "targetNamespace".toList = some a.uri)
    (c : Node) (nm : Str) (n s : Node) (hc : Declares root c nm n) (h1 : (withTags n contentTags).getLast? = some s)
    (h2 : Is s ["sequence", "all"]) (h3 : s.children.filter Node.isElement ≠ [])
    (hq : ∀ e ∈ members s, Is e ["element", "any"] ∧ (Is e ["element"] → Has e "name" ∧ Qualified root e "elementFormDefault"))
    (ha : ∀ a ∈ withTags n ["attribute"], Has a "name" ∧ ¬ Qualified root a "attributeFormDefault") :
    ∃ i ∈ is, i.path = [] ∧ DefinesType i ((naming U root).type nm) ∧ ∃ es as, readFieldLines none i.body = es ++ as ∧
      List.Forall₂ (fun e m => ∀ x, ElementReads i m x ↔ DeclaredName root e "elementFormDefault" x)
        ((members s).filter fun c => c.tag ≠ "any".toList) es ∧
      List.Forall₂ (fun a m => ∀ x, AttributeReads i m x ↔ DeclaredName root a "attributeFormDefault" x)
        ((withTags n ["attribute"]).filter fun a => a.attr "use".toList ≠ some "prohibited".toList) as := by
  obtain ⟨tns, ht', hu⟩ := declared_target ht
  obtain ⟨i, him, p1, p2, es, as, p3, p4, p5⟩ := C76_sequence_partial U root t hg hs hr hp h hb is hi tns ht' c nm n s hc h1 h2 h3
  refine ⟨i, him, p1, p2, es, as, p3, ?_, ?_⟩
  · refine forall₂_imp_mem p4 fun e he m hm x => ?_
    obtain ⟨he, hany⟩ := List.mem_filter.1 he
    obtain ⟨q1, q2⟩ := hq e he
    rcases hm with ⟨q3, hm⟩ | ⟨q3, -⟩
    · obtain ⟨⟨v, q4⟩, q5⟩ := q2 q3
      rw [hm]
      exact (C76_element_iff root e tns v q4).2 ⟨fun _ => hu, fun k => absurd q5 k⟩ x
    · rw [Is, is_one.1 q3] at q1
      exact absurd q1 (by decide)
  · refine forall₂_imp_mem p5 fun a hm m hx x => ?_
    obtain ⟨⟨v, q1⟩, q2⟩ := ha a (List.mem_filter.1 hm).1
    rw [hx]
    exact (C76_attribute_iff root a tns v q1).2 (fun k => absurd k q2) x

/-! ## C77: documents -/

/-- **C77** What a document with a value of a global type or element is called: like the type in the code, in the target
namespace. -/
theorem C77_root_partial (U : UnicodeTable) (root : Node) (t : Str) (hg : Grammatical root) (hs : CopySafe root)
    (hr : RegularSchema root) (hp : ProperNames root) (h : convertXsd U root = .ok t) (is : List Item) (hi : HasItems t is)
    (tns : Option Namespace) (ht : TargetNs root tns) (c : Node) (nm : Str) (n : Node) (hc : Declares root c nm n) :
    ∃ i ∈ is, i.path = [] ∧ ∀ x, RootReads i x ↔ x = ⟨targetUri tns, (naming U root).type nm⟩ := by
  obtain ⟨f, hpf, hit⟩ := items_for hg hs h hi
  obtain ⟨F, hF⟩ := parseFile_fields hg hr hpf
  obtain ⟨-, j, cm, ag, -, k5⟩ := hF c nm n hc
  obtain ⟨i, him, p1, p2, -, p4⟩ := hit _ (List.mem_of_getElem? k5)
    ([], .entity (.struct (.mk nm cm (F c) ag []))) (by rw [originsOf]; exact List.mem_cons_self)
  have hcp : PartOf root c := .child .root (List.mem_filter.1 hc.1).1
  have hNs := nsOk_of hs hp ht
  obtain rfl := targetNs_iff.1 ht
  refine ⟨i, him, p1, fun x => Xml.rootReads_iff hNs p2 ?_⟩
  have hh : i.head = "pub struct ".toList ++ ((naming U root).type nm ++ ' ' ::
      (if written (F c) = [] then "{}".toList else "{".toList)) := by
    refine p4.trans ?_
    split <;> rfl
  rw [hh, Gen.readHead_struct]
  have := (hs.names c "name" nm hcp (by decide) hc.2.1).2
  exact (Gen.typeName_word ⟨U, targetNamespace root, xsdNamespace root⟩ this).sp

/-- **C77** Documents have no other names: every struct is read and written under its own name, in the target namespace. -/
theorem C77_only (U : UnicodeTable) (root : Node) (t : Str) (hg : Grammatical root) (hs : CopySafe root)
    (hp : ProperNames root) (h : convertXsd U root = .ok t) (is : List Item) (hi : HasItems t is)
    (tns : Option Namespace) (ht : TargetNs root tns) (i : Item) (him : i ∈ is) (x : XmlName) (hx : RootReads i x) :
    x.uri = targetUri tns ∧ DefinesType i x.name := by
  have hd : DefinesType i x.name := by
    cases hx with
    | withPrefix _ _ _ _ h => exact .inl h
    | bare _ _ _ h => exact .inl h
    | without _ h => exact .inl h
  obtain ⟨f, hpf, is', h1, h2⟩ := C69_document U root t hg hs h
  obtain rfl := C69_determined t is is' hi h1
  obtain ⟨⟨p, o⟩, hxo, -, hxi⟩ := forall₂_left h2 i him
  have hNs := nsOk_of hs hp ht
  obtain rfl := targetNs_iff.1 ht
  refine ⟨?_, hd⟩
  have two : ∃ a b, i.attrs = [a, b] := by
    cases hx with
    | withPrefix h => exact ⟨_, _, h⟩
    | bare h => exact ⟨_, _, h⟩
    | without h => exact ⟨_, _, h⟩
  obtain ⟨a, b, hab⟩ := two
  have hst : readHead i.head = some (.struct, x.name) := by
    cases hx with
    | withPrefix _ _ _ _ h => exact h
    | bare _ _ _ h => exact h
    | without _ h => exact h
  cases o with
  | entity e =>
    cases e with
    | struct s =>
      obtain ⟨m, c, fs, ag, ss⟩ := s
      exact congrArg XmlName.uri ((Xml.rootReads_iff hNs hxi.1 hst).1 hx)
    | tupleStruct s =>
      obtain ⟨m, c, t, ss, ms, fs⟩ := s
      exact nomatch hab.symm.trans hxi.1
    | enum s =>
      obtain ⟨m, cs, c, t, ss, src⟩ := s
      have := hab.symm.trans hxi.1
      split at this <;> exact nomatch this
    | «alias» a =>
      obtain ⟨m, o, c, ss⟩ := a
      exact nomatch hab.symm.trans hxi.1
    | structField _ => exact hxi.elim
    | enumCase _ => exact hxi.elim
    | «import» _ => exact hxi.elim
  | inner m => exact nomatch hab.symm.trans hxi.1
  | validate m t ms fs =>
    obtain ⟨cs, -, ⟨k, -⟩, -⟩ := hxi
    exact nomatch hab.symm.trans k
  | default m => exact nomatch hab.symm.trans hxi.1

/-- **C77** When this is the name which the schema declares. -/
theorem C77_right_iff (U : UnicodeTable) (root c : Node) (tns : Option Namespace) (nm : Str)
    (hn : c.attr "name".toList = some nm) :
    (∀ x, x = ⟨targetUri tns, (naming U root).type nm⟩ ↔ GlobalName root c x) ↔
      targetUri tns = root.attr "targetNamespace".toList ∧ (naming U root).type nm = nm := by
  have hG : ∀ x, GlobalName root c x ↔ x = ⟨root.attr "targetNamespace".toList, nm⟩ := fun x => by
    constructor
    · rintro ⟨h⟩
      obtain rfl := Option.some.inj (hn.symm.trans h)
      rfl
    · rintro rfl; exact .mk hn
  constructor
  · intro h
    have := (hG _).1 ((h _).1 rfl)
    exact XmlName.mk.inj this
  · rintro ⟨h1, h2⟩ x
    rw [hG, h1, h2]

/-- **C77** A name of capitalised words is kept, unless it is a keyword, or a built-in type if XML Schema is the default
namespace. -/
theorem C77_capital (U : UnicodeTable) (root : Node) (nm : Str) (h : CapitalWords nm) (hk : nm ≠ "Self".toList)
    (hx : ∀ a, XsdNs root (some a) → a.name ≠ none) (hd : ∃ a, XsdNs root (some a)) : (naming U root).type nm = nm := by
  refine Xml.typeName_words U h hk fun e => ?_
  obtain ⟨a, ha⟩ := hd
  have := xsdNs_iff.1 ha
  rw [← this] at e
  exact absurd e (hx a ha)

/-- **C77** A name which starts with a small letter is never kept: a global element with such a name is not read from any
document in which it has its name. -/
theorem C77_lower (U : UnicodeTable) (root c : Node) (tns : Option Namespace) (ch : Char) (cs : Str)
    (hn : c.attr "name".toList = some (ch :: cs)) (hl : asciiLower ch = true) (hc : ':' ∉ ch :: cs) (x : XmlName)
    (hx : GlobalName root c x) : x ≠ ⟨targetUri tns, (naming U root).type (ch :: cs)⟩ := by
  rintro rfl
  obtain ⟨nm, h, e⟩ : ∃ nm, c.attr "name".toList = some nm ∧ nm = (naming U root).type (ch :: cs) := by
    generalize hy : (⟨targetUri tns, (naming U root).type (ch :: cs)⟩ : XmlName) = y at hx
    cases hx with
    | mk h => exact ⟨_, h, (XmlName.mk.inj hy).2.symm⟩
  obtain rfl := Option.some.inj (hn.symm.trans h)
  exact Xml.typeName_lower U hl hc e.symm

/-! ## Examples and findings -/

theorem properNames_of {root : Node} (h1 : ∀ a ∈ root.namespaces, ∀ p ∈ a.name.toList, ':' ∉ p)
    (h2 : ∀ a ∈ root.namespaces, ' ' ∉ a.uri) (h3 : ∀ n ∈ elements root, ∀ v ∈ (n.attr "name".toList).toList, ':' ∉ v) :
    ProperNames root where
  prefixes a ha p hp := h1 a ha p (Option.mem_toList.2 hp)
  uris := h2
  names n v hn hv := h3 n (partOf_elements hn) v (Option.mem_toList.2 hv)

private theorem noBase_of {root : Node} (h : ∀ n ∈ elements root, ∀ a ∈ ["name", "ref"], n.attr a.toList ≠ some "__base__".toList) :
    ∀ n a, PartOf root n → a ∈ ["name", "ref"] → n.attr a.toList ≠ some "__base__".toList :=
  fun n a hn ha => h n (partOf_elements hn) a ha

/-- A schema with a default for the forms; another namespace has the prefix `o`. -/
private abbrev formDoc (attrs : List (String × String)) (cs : List Node) : Node :=
  .element (some xsdUri) "schema".toList (⟨none, "targetNamespace".toList, "http://example.com/a".toList⟩ ::
      attrs.map fun a => ⟨none, a.1.toList, a.2.toList⟩)
    [⟨some "xs".toList, xsdUri⟩, ⟨some "tns".toList, "http://example.com/a".toList⟩, ⟨some "o".toList, "http://example.com/o".toList⟩] cs

private abbrev idElement : Node := el "element" [("name", "id"), ("type", "xs:int")] []
private abbrev otherRef : Node := .element (some xsdUri) "element".toList [⟨none, "ref".toList, "o:thing".toList⟩]
  [⟨some "xs".toList, xsdUri⟩, ⟨some "tns".toList, "http://example.com/a".toList⟩, ⟨some "o".toList, "http://example.com/o".toList⟩] []
private abbrev inner : Node := el "choice" [] [el "element" [("name", "a"), ("type", "xs:int")] [], el "element" [("name", "b"), ("type", "xs:int")] []]
private abbrev langAttr : Node := el "attribute" [("name", "lang"), ("type", "xs:string")] []
private abbrev orderSeq : Node := el "sequence" [] [idElement, el "element" [("name", "note"), ("type", "xs:string")] []]
private abbrev orderType : Node := el "complexType" [("name", "Order")] [orderSeq, langAttr]
private abbrev mixedSeq : Node := el "sequence" [] [idElement, otherRef, inner]
private abbrev mixedType : Node := el "complexType" [("name", "Mixed")] [mixedSeq, langAttr]
private abbrev eitherType : Node := el "complexType" [("name", "Either")] [inner]
private abbrev invoiceBody : Node := el "complexType" [] [orderSeq]
private abbrev invoice : Node := el "element" [("name", "invoice")] [invoiceBody]
private abbrev receipt : Node := el "element" [("name", "Receipt"), ("type", "tns:Order")] []

private def forms (attrs : List (String × String)) : Node := formDoc attrs [orderType, mixedType, eitherType, invoice, receipt]

private def qualified : Node := forms [("elementFormDefault", "qualified")]
private def plainForms : Node := forms []
private def allQualified : Node := forms [("elementFormDefault", "qualified"), ("attributeFormDefault", "qualified")]

private theorem forms_of {root : Node} (h : root = qualified ∨ root = plainForms ∨ root = allQualified) :
    Grammatical root ∧ CopySafe root ∧ RegularSchema root ∧ ProperForms root ∧ ProperNames root ∧
    (∀ n a, PartOf root n → a ∈ ["name", "ref"] → n.attr a.toList ≠ some "__base__".toList) ∧
    TargetNs root (some ⟨some "tns".toList, "http://example.com/a".toList⟩) ∧
    ∃ t is, convertXsd A root = .ok t ∧ HasItems t is := by
  have items : ∀ {t}, convertXsd A root = .ok t → ∃ t is, convertXsd A root = .ok t ∧ HasItems t is := fun {t} h =>
    ⟨t, _, h, _, Gen.lines_lns t, rfl⟩
  have tgt : targetNamespace root = some ⟨some "tns".toList, "http://example.com/a".toList⟩ →
      TargetNs root (some ⟨some "tns".toList, "http://example.com/a".toList⟩) := fun h => targetNs_iff.2 h.symm
  have ran : convertXsd A root ≠ .panic ∧ convertXsd A root ≠ .err := by
    rcases h with rfl | rfl | rfl <;> decide +kernel
  have run : ∃ t is, convertXsd A root = .ok t ∧ HasItems t is := by
    obtain ⟨t, ht⟩ := ok_of ran
    exact items ht
  rcases h with rfl | rfl | rfl
  all_goals
    refine ⟨grammatical_of rfl (by decide +kernel), copySafe_of (by decide +kernel) (by decide +kernel) (by decide +kernel)
      (by decide +kernel) (by decide +kernel), regular_of (by decide +kernel) (by decide +kernel) (by decide +kernel),
      properForms_of (by decide +kernel) (by decide +kernel) (by decide +kernel),
      properNames_of (by decide +kernel) (by decide +kernel) (by decide +kernel), noBase_of (by decide +kernel),
      tgt (by decide +kernel), run⟩

private theorem forms_declares {attrs : List (String × String)} : Declares (forms attrs) orderType "Order".toList orderType ∧
    Declares (forms attrs) mixedType "Mixed".toList mixedType ∧ Declares (forms attrs) invoice "invoice".toList invoiceBody :=
  ⟨⟨List.mem_of_getElem? (i := 0) rfl, rfl, .type rfl, by decide +kernel⟩,
    ⟨List.mem_of_getElem? (i := 1) rfl, rfl, .type rfl, by decide +kernel⟩,
    ⟨List.mem_of_getElem? (i := 3) rfl, rfl, .element rfl rfl rfl rfl, by decide +kernel⟩⟩

/-- The hypotheses of `C76_qualified_partial` are met: `id` and `note` of `Order` are read under their names. -/
example : ∃ t is i m, convertXsd A qualified = .ok t ∧ HasItems t is ∧ i ∈ is ∧ DefinesType i "Order".toList ∧
    m ∈ readFieldLines none i.body ∧ (∀ x, ElementReads i m x ↔ DeclaredName qualified idElement "elementFormDefault" x) ∧
    ElementReads i m ⟨some "http://example.com/a".toList, "id".toList⟩ := by
  obtain ⟨h1, h2, h3, -, h5, h6, -, t, is, h8, h9⟩ := forms_of (.inl rfl)
  have hq : ∀ c : Node, c.attr "form".toList = none → Qualified qualified c "elementFormDefault" := fun c h => .inr ⟨h, rfl⟩
  obtain ⟨i, him, -, p2, es, as, p3, p4, -⟩ := C76_qualified_partial A qualified t h1 h2 h3 h5 h8 h6 is h9
    ⟨_, List.mem_of_getElem? (i := 1) rfl, rfl⟩ orderType "Order".toList orderType orderSeq forms_declares.1 rfl
    (by decide +kernel) (by decide +kernel)
    (fun e he => by
      have he' : e ∈ orderSeq.children := (List.mem_filter.1 he).1
      rcases List.mem_cons.1 he' with rfl | he'
      · exact ⟨by decide +kernel, fun _ => ⟨⟨_, rfl⟩, hq _ rfl⟩⟩
      · obtain rfl := List.mem_singleton.1 he'
        exact ⟨by decide +kernel, fun _ => ⟨⟨_, rfl⟩, hq _ rfl⟩⟩)
    (fun a ha => by
      obtain rfl : a = langAttr := by
        have : withTags orderType ["attribute"] = [langAttr] := rfl
        rw [this] at ha
        exact List.mem_singleton.1 ha
      exact ⟨⟨_, rfl⟩, fun h => by rcases h with h | ⟨-, h⟩ <;> exact absurd h (by decide +kernel)⟩)
  obtain ⟨m, hm, hx⟩ := forall₂_right p4 idElement (by exact List.mem_of_getElem? (i := 0) rfl)
  have e : (naming A qualified).type "Order".toList = "Order".toList := by decide +kernel
  rw [e] at p2
  refine ⟨t, is, i, m, h8, h9, him, p2, by rw [p3]; exact List.mem_append_left _ hm, hx, (hx _).2 ?_⟩
  exact .qualified rfl (hq _ rfl)

private theorem mixed_reads {root : Node} (h : root = qualified ∨ root = plainForms ∨ root = allQualified) :
    ∃ t is i, convertXsd A root = .ok t ∧ HasItems t is ∧ i ∈ is ∧ i.path = [] ∧ DefinesType i "Mixed".toList ∧
      ∃ m1 m2 m3 m4, readFieldLines none i.body = [m1, m2, m3, m4] ∧
      (∀ x, ElementReads i m1 x ↔ SequenceName (some ⟨some "tns".toList, "http://example.com/a".toList⟩) idElement x) ∧
      (∀ x, ElementReads i m2 x ↔ SequenceName (some ⟨some "tns".toList, "http://example.com/a".toList⟩) otherRef x) ∧
      (∀ x, ElementReads i m3 x ↔ x = ⟨some "http://example.com/a".toList, "MixedChoice".toList⟩) ∧
      ∀ x, AttributeReads i m4 x ↔ AttributeName (some ⟨some "tns".toList, "http://example.com/a".toList⟩) langAttr x := by
  obtain ⟨h1, h2, h3, -, h5, h6, h7, t, is, h8, h9⟩ := forms_of h
  have hd : Declares root mixedType "Mixed".toList mixedType := by
    rcases h with rfl | rfl | rfl <;> exact forms_declares.2.1
  obtain ⟨i, him, p1, p2, es, as, p3, p4, p5⟩ := C76_sequence_partial A root t h1 h2 h3 h5 h8 h6 is h9 _ h7
    mixedType "Mixed".toList mixedType mixedSeq hd rfl (by decide +kernel) (by decide +kernel)
  have e : (naming A root).type "Mixed".toList = "Mixed".toList := by
    rcases h with rfl | rfl | rfl <;> decide +kernel
  rw [e] at p2
  have e1 : (members mixedSeq).filter (fun c => decide (c.tag ≠ "any".toList)) = [idElement, otherRef, inner] := rfl
  have e2 : (withTags mixedType ["attribute"]).filter (fun a => decide (a.attr "use".toList ≠ some "prohibited".toList)) =
    [langAttr] := rfl
  rw [e1] at p4
  rw [e2] at p5
  cases p4 with
  | cons k1 p4 =>
    cases p4 with
    | cons k2 p4 =>
      cases p4 with
      | cons k3 p4 =>
        cases p4
        cases p5 with
        | cons k4 p5 =>
          cases p5
          refine ⟨t, is, i, h8, h9, him, p1, p2, _, _, _, _, p3, ?_, ?_, ?_, k4⟩
          · rcases k1 with ⟨-, k⟩ | ⟨k, -⟩
            · exact k
            · exact absurd k (by decide +kernel)
          · rcases k2 with ⟨-, k⟩ | ⟨k, -⟩
            · exact k
            · exact absurd k (by decide +kernel)
          · rcases k3 with ⟨k, -⟩ | ⟨-, k⟩
            · exact absurd k (by decide +kernel)
            · exact k

/-- **C76** (finding) In a schema without `elementFormDefault` the local element `id` has no namespace, but the code reads and
writes it in the target namespace. -/
theorem C76_unqualified_violated : ∃ root t is i m e, Grammatical root ∧ CopySafe root ∧ convertXsd A root = .ok t ∧
    HasItems t is ∧ i ∈ is ∧ m ∈ readFieldLines none i.body ∧ PartOf root e ∧
    DeclaredName root e "elementFormDefault" ⟨none, "id".toList⟩ ∧
    ∀ x, ElementReads i m x ↔ x = ⟨some "http://example.com/a".toList, "id".toList⟩ := by
  obtain ⟨t, is, i, h8, h9, him, -, -, m1, m2, m3, m4, hb, k1, -⟩ := mixed_reads (.inr (.inl rfl))
  obtain ⟨h1, h2, -⟩ := forms_of (root := plainForms) (.inr (.inl rfl))
  refine ⟨plainForms, t, is, i, m1, idElement, h1, h2, h8, h9, him, by rw [hb]; simp, ?_, ?_, fun x => ?_⟩
  · exact .child (.child (.child .root (List.mem_of_getElem? (i := 1) rfl)) (List.mem_of_getElem? (i := 0) rfl))
      (List.mem_of_getElem? (i := 0) rfl)
  · exact .unqualified rfl fun h => by rcases h with h | ⟨-, h⟩ <;> exact absurd h (by decide +kernel)
  · rw [k1, sequenceName_named (nm := "id".toList) rfl]; rfl

/-- **C76** (finding) A reference to an element of another namespace: the code gives no name for it, as its prefix is not
declared at the type. -/
theorem C76_foreign_violated : ∃ root t is i m e, Grammatical root ∧ CopySafe root ∧ convertXsd A root = .ok t ∧
    HasItems t is ∧ i ∈ is ∧ m ∈ readFieldLines none i.body ∧ PartOf root e ∧
    DeclaredName root e "elementFormDefault" ⟨some "http://example.com/o".toList, "thing".toList⟩ ∧
    ∀ x, ¬ ElementReads i m x := by
  obtain ⟨t, is, i, h8, h9, him, -, -, m1, m2, m3, m4, hb, -, k2, -⟩ := mixed_reads (.inl rfl)
  obtain ⟨h1, h2, -⟩ := forms_of (root := qualified) (.inl rfl)
  have hr : Ref (some "o".toList) "thing".toList "o:thing".toList := .prefixed (p := "o".toList) (by decide)
  refine ⟨qualified, t, is, i, m2, otherRef, h1, h2, h8, h9, him, by rw [hb]; simp, ?_, ?_, fun x => ?_⟩
  · exact .child (.child (.child .root (List.mem_of_getElem? (i := 1) rfl)) (List.mem_of_getElem? (i := 0) rfl))
      (List.mem_of_getElem? (i := 1) rfl)
  · exact .ref rfl rfl hr (.declared (a := ⟨some "o".toList, "http://example.com/o".toList⟩) (List.mem_of_getElem? (i := 2) rfl) (by decide))
  · rw [k2, sequenceName_ref rfl rfl hr]
    rintro ⟨u, ⟨h, -⟩ | ⟨p, uri, h1, h2, -⟩, -⟩
    · exact absurd h (by decide)
    · rw [← Option.some.inj h1] at h2
      exact absurd (Namespace.mk.inj (Option.some.inj h2)).1 (by decide)

/-- **C76** (finding) A qualified attribute is in the target namespace, but the code reads and writes it without one. -/
theorem C76_attribute_violated : ∃ root t is i m e, Grammatical root ∧ CopySafe root ∧ convertXsd A root = .ok t ∧
    HasItems t is ∧ i ∈ is ∧ m ∈ readFieldLines none i.body ∧ PartOf root e ∧
    DeclaredName root e "attributeFormDefault" ⟨some "http://example.com/a".toList, "lang".toList⟩ ∧
    AttributeReads i m ⟨none, "lang".toList⟩ ∧ ¬ AttributeReads i m ⟨some "http://example.com/a".toList, "lang".toList⟩ := by
  obtain ⟨t, is, i, h8, h9, him, -, -, m1, m2, m3, m4, hb, -, -, -, k4⟩ := mixed_reads (.inr (.inr rfl))
  obtain ⟨h1, h2, -⟩ := forms_of (root := allQualified) (.inr (.inr rfl))
  refine ⟨allQualified, t, is, i, m4, langAttr, h1, h2, h8, h9, him, by rw [hb]; simp, ?_, ?_, (k4 _).2 (.named rfl), fun h => ?_⟩
  · exact .child (.child .root (List.mem_of_getElem? (i := 1) rfl)) (List.mem_of_getElem? (i := 1) rfl)
  · exact .qualified (root := allQualified) rfl (.inr ⟨rfl, rfl⟩)
  · cases (k4 _).1 h with
    | ref h => exact nomatch h

/-- **C76** (finding) A choice inside a sequence: the code reads and writes an element with an invented name around it. -/
theorem C76_nested_violated : ∃ root t is i m, Grammatical root ∧ CopySafe root ∧ convertXsd A root = .ok t ∧
    HasItems t is ∧ i ∈ is ∧ m ∈ readFieldLines none i.body ∧
    ElementReads i m ⟨some "http://example.com/a".toList, "MixedChoice".toList⟩ ∧
    ∀ e, PartOf root e → e.attr "name".toList ≠ some "MixedChoice".toList := by
  obtain ⟨t, is, i, h8, h9, him, -, -, m1, m2, m3, m4, hb, -, -, k3, -⟩ := mixed_reads (.inl rfl)
  obtain ⟨h1, h2, -⟩ := forms_of (root := qualified) (.inl rfl)
  refine ⟨qualified, t, is, i, m3, h1, h2, h8, h9, him, by rw [hb]; simp, (k3 _).2 rfl, fun e he => ?_⟩
  have : ∀ e ∈ elements qualified, e.attr "name".toList ≠ some "MixedChoice".toList := by decide +kernel
  exact this e (partOf_elements he)

/-- **C76** (finding) The elements of a choice are in the target namespace if they are qualified, but the code reads and writes
them without one. -/
theorem C76_variant_violated : ∃ root t is i m e, Grammatical root ∧ CopySafe root ∧ convertXsd A root = .ok t ∧
    HasItems t is ∧ i ∈ is ∧ m ∈ readCaseLines none i.body ∧ PartOf root e ∧
    DeclaredName root e "elementFormDefault" ⟨some "http://example.com/a".toList, "a".toList⟩ ∧
    VariantReads i m ⟨none, "a".toList⟩ ∧ ¬ VariantReads i m ⟨some "http://example.com/a".toList, "a".toList⟩ := by
  obtain ⟨h1, h2, -, h4, h5, -, h7, t, is, h8, h9⟩ := forms_of (root := qualified) (.inl rfl)
  obtain ⟨i, him, -, -, ms, p1, p2⟩ := C76_choice_partial A qualified t h1 h2 h4 h5 h8 is h9 _ h7 eitherType "Either".toList inner
    (List.mem_of_getElem? (i := 2) rfl) rfl rfl rfl rfl (by decide +kernel)
  obtain ⟨m, hm, hx⟩ := forall₂_right p1 (el "element" [("name", "a"), ("type", "xs:int")] [])
    (by exact List.mem_of_getElem? (i := 0) rfl)
  refine ⟨qualified, t, is, i, m, el "element" [("name", "a"), ("type", "xs:int")] [], h1, h2, h8, h9, him,
    by rw [p2]; exact List.mem_append_left _ hm, ?_, ?_,
    (hx _).2 (.named rfl rfl), fun h => ?_⟩
  · exact .child (.child (.child .root (List.mem_of_getElem? (i := 2) rfl)) (List.mem_of_getElem? (i := 0) rfl))
      (List.mem_of_getElem? (i := 0) rfl)
  · exact .qualified (root := qualified) rfl (.inr ⟨rfl, rfl⟩)
  · cases (hx _).1 h with
    | ref h => exact nomatch h

/-- The hypotheses of `C77_right_iff` and `C77_capital`: documents with an `Order` are right. -/
example : ∃ t is i, convertXsd A qualified = .ok t ∧ HasItems t is ∧ i ∈ is ∧ ∀ x, RootReads i x ↔ GlobalName qualified orderType x := by
  obtain ⟨h1, h2, h3, -, h5, -, h7, t, is, h8, h9⟩ := forms_of (root := qualified) (.inl rfl)
  obtain ⟨i, him, -, hx⟩ := C77_root_partial A qualified t h1 h2 h3 h5 h8 is h9 _ h7 orderType "Order".toList orderType forms_declares.1
  refine ⟨t, is, i, h8, h9, him, fun x => (hx x).trans ?_⟩
  refine (C77_right_iff A qualified orderType _ "Order".toList rfl).2 ⟨rfl, C77_capital A qualified _ ?_ (by decide) ?_ ?_⟩ x
  · exact ⟨["Order".toList], by decide, by decide, fun w hw => by
      obtain rfl := List.mem_singleton.1 hw
      exact ⟨'O', "rder".toList, rfl, by decide, by decide, by decide⟩⟩
  · intro a ha
    have := xsdNs_iff.1 ha
    have h : xsdNamespace qualified = some ⟨some "xs".toList, xsdUri⟩ := by decide +kernel
    obtain rfl := Option.some.inj (this.trans h)
    exact Option.some_ne_none _
  · exact ⟨⟨some "xs".toList, xsdUri⟩, xsdNs_iff.2 (by decide +kernel)⟩

/-- **C77** (finding) The global element `invoice`: the code reads and writes documents called `Invoice`. -/
theorem C77_case_violated : ∃ root t is i c, Grammatical root ∧ CopySafe root ∧ convertXsd A root = .ok t ∧
    HasItems t is ∧ i ∈ is ∧ c ∈ globals root ∧ c.tag = "element".toList ∧
    GlobalName root c ⟨some "http://example.com/a".toList, "invoice".toList⟩ ∧
    ∀ x, RootReads i x ↔ x = ⟨some "http://example.com/a".toList, "Invoice".toList⟩ := by
  obtain ⟨h1, h2, h3, -, h5, -, h7, t, is, h8, h9⟩ := forms_of (root := qualified) (.inl rfl)
  obtain ⟨i, him, -, hx⟩ := C77_root_partial A qualified t h1 h2 h3 h5 h8 is h9 _ h7 invoice "invoice".toList invoiceBody forms_declares.2.2
  have e : (naming A qualified).type "invoice".toList = "Invoice".toList := by decide +kernel
  rw [e] at hx
  exact ⟨qualified, t, is, i, invoice, h1, h2, h8, h9, him, List.mem_of_getElem? (i := 3) rfl, rfl, .mk (root := qualified) rfl, hx⟩

/-- **C77** (finding) The global element `Receipt` has a type with a name: documents which are called like it are not read or
written by anything in the code. -/
theorem C77_typed_violated : ∃ root t is c, Grammatical root ∧ CopySafe root ∧ convertXsd A root = .ok t ∧
    HasItems t is ∧ c ∈ globals root ∧ c.tag = "element".toList ∧
    GlobalName root c ⟨some "http://example.com/a".toList, "Receipt".toList⟩ ∧
    ∀ i ∈ is, ∀ u, ¬ RootReads i ⟨u, "Receipt".toList⟩ := by
  obtain ⟨h1, h2, h3, -, h5, -, h7, t, is, h8, h9⟩ := forms_of (root := qualified) (.inl rfl)
  refine ⟨qualified, t, is, receipt, h1, h2, h8, h9, List.mem_of_getElem? (i := 4) rfl, rfl, .mk (root := qualified) rfl,
    fun i him u hx => ?_⟩
  have hd := (C77_only A qualified t h1 h2 h5 h8 is h9 _ h7 i him _ hx).2
  obtain ⟨f, hpf, is', k1, k2⟩ := C69_document A qualified t h1 h2 h8
  obtain rfl := C69_determined t is is' h9 k1
  obtain ⟨⟨p, o⟩, hxo, hxi⟩ := forall₂_left k2 i him
  rw [← (parseFile_namespaces hpf).1] at hxi
  obtain ⟨e, m, -, he, hm, hn⟩ := defines_origin (U := A) (f := f) (fun x hx => (parseFile_safe h2 hpf).2 x hx) hxo (by
    unfold fileNaming; rw [(parseFile_namespaces hpf).2]
    unfold naming at hxi; rw [← (parseFile_namespaces hpf).1] at hxi; exact hxi) hd
  have : ∀ e ∈ generatedList (okFile (parseFile A qualified)).types, ∀ m ∈ (typeName? e).toList,
      formatTypeName A (okFile (parseFile A qualified)).targetNs (okFile (parseFile A qualified)).xsdNs m ≠ "Receipt".toList := by
    decide +kernel
  rw [hpf] at this
  exact this e he m (Option.mem_toList.2 hm) hn.symm

end Verif.Props
