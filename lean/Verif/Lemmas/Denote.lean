import Verif.Lemmas.DocFields
import Verif.Spec.Denote

/-! # The parser against the closed description of entities -/

namespace Verif.Lemmas.Parse

open Verif Verif.Model Verif.RoXml Verif.Spec

/-- Where the parts are which the parser looks at. -/
structure Located (root n p : Node) (above : List Node) : Prop where
  part : PartOf root p
  member : n ∈ members p
  notFacet : ∀ a ∈ p :: above, NotFacet a
  «local» : Is n ["element", "attribute", "any"] → Is p ["schema"] ∧ p = root
  derivation : Is n ["extension", "restriction"] → Is p ["simpleType", "simpleContent", "complexContent"]

theorem parse_kind {U : UnicodeTable} {n p : Node} {above : List Node} {e : RsEntity} (h : parseNode U n p above = .ok e) :
    ∃ t, KindOf (some p.tag) n t ∧ branch U (placeOf U n p above) t = .ok e := by
  rw [parseNode_eq, parsePlace_branch] at h
  obtain ⟨t, ht, h⟩ := Res.bind_eq_ok.1 h
  exact ⟨t, xsdType_kind ht, h⟩

theorem has_iff {n : Node} {a : String} : Has n a ↔ (n.attr a.toList).isSome = true := by
  unfold Has
  cases n.attr a.toList with
  | none => exact ⟨fun ⟨_, h⟩ => (nomatch h), fun h => (nomatch h)⟩
  | some v => exact ⟨fun _ => rfl, fun _ => ⟨v, rfl⟩⟩

theorem groupEntity_iff {U : UnicodeTable} {c n : Node} {above : List Node} {e : RsEntity}
    (hc : c.tag = "attributeGroup".toList) (hn : n.tag ≠ "schema".toList) (hf : NotFacet n) :
    parseNode U c n above = .ok e ↔ ∃ a, GroupRef c a ∧ e = .alias a := by
  rw [parseNode_tag (s := "attributeGroup") (t := .attributeGroup) (by decide) hc]
  show parseAttributeGroup _ = _ ↔ _
  unfold parseAttributeGroup
  obtain ⟨t, ht⟩ := kind_total (p := above.head?.map Node.tag) hf
  rw [show (placeOf U c n above).parentType = .ok t from kind_xsdType ht, Res.ok_bind,
    if_neg (fun e => hn ((schema_kind ht).1 e)), show (placeOf U c n above).node = c from rfl, documentation_eq]
  unfold attrRef GroupRef
  constructor
  · intro h
    obtain ⟨r, hr, h⟩ := Res.bind_eq_ok.1 h
    exact ⟨_, ⟨r, unwrap_ok.1 hr, rfl⟩, (Res.ok.inj h).symm⟩
  · rintro ⟨a, ⟨r, hr, rfl⟩, rfl⟩
    rw [hr]
    rfl

/-- One level. -/
theorem step_iff {U : UnicodeTable} {root n p : Node} {above : List Node} {e : RsEntity} (hg : Grammatical root)
    (hf : ProperForms root) (hp : Located root n p above) : parseNode U n p above = .ok e ↔
      EntityOf U (fun t q ab x => parseNode U t q ab = .ok x) n p above e := by
  have hpn := hp.notFacet p List.mem_cons_self
  have hpart : PartOf root n := .child hp.part hp.member
  have two : ∀ {m : Node} {s t : String}, Is m [s, t] → m.tag = s.toList ∨ m.tag = t.toList := by
    intro m s t h; simpa [Is] using h
  have hseq : ∀ {s : String}, s.toList ∈ ["sequence", "all"].map String.toList → n.tag = s.toList →
      ∀ c ∈ members n, SequenceMember c := fun hs ht c hc => hf.sequences n c hpart (is_of ht hs) hc
  have hcho : n.tag = "choice".toList → ∀ x ∈ withTags n ["element"], ElementForm x :=
    fun ht c hc => hf.choices n c hpart (is_one.2 ht) hc
  have hattr : n.tag = "attribute".toList → p.tag = "schema".toList → n.attr "ref".toList = none := by
    intro ht hps
    obtain ⟨-, rfl⟩ := hp.«local» (is_of ht (by decide))
    have : ¬ Has n "ref" := hf.attributes n (List.mem_filter.2 ⟨hp.member, by rw [ht]; decide⟩) (is_one.2 ht)
    cases h : n.attr "ref".toList with
    | none => rfl
    | some v => exact absurd ⟨v, h⟩ this
  have hun : n.tag = "union".toList → withTags n ["attribute", "anyAttribute"] = [] := by
    intro ht
    rw [List.eq_nil_iff_forall_not_mem]
    intro c hc
    obtain ⟨h1, h2⟩ := mem_withTags2.1 hc
    have hm : c ∈ members n := by
      rcases h2 with h2 | h2
      · exact member_of_tag h1 h2 (by decide) (by decide)
      · exact member_of_tag h1 h2 (by decide) (by decide)
    have := hg.rows ("union", ["simpleType"]) (by decide) n c hpart ht hm
    rcases h2 with h2 | h2 <;> rw [h2] at this <;> exact absurd this (by decide)
  constructor
  · intro h
    obtain ⟨t, hk, hb⟩ := parse_kind h
    have tag : ∀ s, (s, t) ∈ plainTags → n.tag = s.toList := fun s hs => (plain_iff hs).1 hk
    cases t with
    | all =>
      have ht := tag "all" (by decide)
      obtain ⟨o, fs, h1, h2, h3, rfl⟩ := (sequence_iff (.inr ht) (hseq (by decide) ht) hp.notFacet).1 h
      exact .sequence (is_of ht (by decide)) h1 h2 h3
    | sequence =>
      have ht := tag "sequence" (by decide)
      obtain ⟨o, fs, h1, h2, h3, rfl⟩ := (sequence_iff (.inl ht) (hseq (by decide) ht) hp.notFacet).1 h
      exact .sequence (is_of ht (by decide)) h1 h2 h3
    | any =>
      have ht := tag "any" (by decide)
      obtain ⟨h1, h2⟩ := hp.«local» (is_of ht (by decide))
      subst h2
      exact absurd (hg.rows _ (List.mem_cons_self) p n .root hg.schema hp.member) (by rw [ht]; decide)
    | anyAttribute =>
      have ht := tag "anyAttribute" (by decide)
      obtain rfl := Res.ok.inj hb
      have : parseAnyAttribute n = .structField (.mk "any_attribute".toList "String".toList (docOf n) [] .attribute [.empty]) := by
        unfold parseAnyAttribute; rw [documentation_eq]
      rw [show (placeOf U n p above).node = n from rfl, this]
      exact .anyAttribute (is_one.2 ht)
    | «attribute» =>
      have ht := tag "attribute" (by decide)
      have hps := is_one.1 (hp.«local» (is_of ht (by decide))).1
      exact .«attribute» (is_one.2 ht) (is_one.2 hps) ((globalAttribute_iff ht hps (hattr ht hps)).1 h)
    | attributeGroup =>
      have ht := tag "attributeGroup" (by decide)
      by_cases hps : p.tag = "schema".toList
      · obtain ⟨h1, nm, fs, h2, h3, rfl⟩ := (globalGroup_iff ht hps).1 h
        exact .attributeGroup (is_one.2 ht) (is_one.2 hps) h1 h2 h3
      · obtain ⟨a, h1, rfl⟩ := (groupEntity_iff ht hps hpn).1 h
        exact .groupRef (is_one.2 ht) (fun h => hps (is_one.1 h)) h1
    | choice =>
      have ht := tag "choice" (by decide)
      obtain ⟨h1, cs, h2, rfl⟩ := (parseChoice_iff ht (hcho ht)).1 h
      exact .choice (is_one.2 ht) h1 h2
    | complexContent =>
      have ht := tag "complexContent" (by decide)
      obtain ⟨h1, c, h2, h3⟩ := (content_iff (.inl ht)).1 h
      exact .content (is_of ht (by decide)) h1 h2 h3
    | simpleContent =>
      have ht := tag "simpleContent" (by decide)
      obtain ⟨h1, c, h2, h3⟩ := (content_iff (.inr ht)).1 h
      exact .content (is_of ht (by decide)) h1 h2 h3
    | complexType =>
      have ht := tag "complexType" (by decide)
      exact .complexType (is_one.2 ht) ((complexType_iff ht hp.notFacet).1 h)
    | element =>
      have ht := tag "element" (by decide)
      have hps := is_one.1 (hp.«local» (is_of ht (by decide))).1
      exact .element (is_one.2 ht) (is_one.2 hps) ((globalElement_iff ht hps).1 h)
    | «import» =>
      have ht := tag "import" (by decide)
      obtain rfl := Res.ok.inj hb
      exact .«import» (is_of ht (by decide))
    | «include» =>
      have ht := tag "include" (by decide)
      obtain rfl := Res.ok.inj hb
      exact .«import» (is_of ht (by decide))
    | list =>
      have ht := tag "list" (by decide)
      rcases (list_iff ht).1 h with ⟨t, h1, rfl⟩ | ⟨h1, c, x, h2, h3, h4⟩
      · exact .list (is_one.2 ht) h1
      · exact .listOf (is_one.2 ht) h1 h2 h3 h4
    | simpleType =>
      have ht := tag "simpleType" (by decide)
      obtain ⟨h1, h2, c, x, y, h3, h4, h5, h6⟩ := (simpleType_iff ht hpn).1 h
      exact .simpleType (is_one.2 ht) (by rw [is_one, has_iff]; exact h1) h2 h3 h4 h5 h6
    | union =>
      have ht := tag "union" (by decide)
      obtain ⟨h1, ws, subs, h2, h3, rfl⟩ := (union_iff ht (hun ht)).1 h
      exact .union (is_one.2 ht) h1 h2 h3
    | extension x =>
      have ht : n.tag = "extension".toList := by
        cases hk with
        | plain h => exact absurd h (by simp [plainTags])
        | extension h => exact h
      have h3 := hp.derivation (is_of ht (by decide))
      have h3 : p.tag = "simpleType".toList ∨ p.tag = "simpleContent".toList ∨ p.tag = "complexContent".toList := by
        simpa [Is] using h3
      rcases h3 with h3 | h3 | h3
      · have := hg.rows ("simpleType", ["restriction", "list", "union"]) (by decide) p n hp.part h3 hp.member
        rw [ht] at this
        exact absurd this (by decide)
      · obtain ⟨h1, base, attrs, ags, h4, h5, h6, rfl⟩ := (simpleExtension_iff ht h3).1 h
        exact .simpleExtension (is_one.2 ht) (is_one.2 h3) h1 h4 h5 h6
      · obtain ⟨h1, h2⟩ := (extension_iff ht h3).1 h
        refine .derived (is_of ht (by decide)) (is_one.2 h3) h1 ?_
        rw [derivedTags, if_pos ht]
        exact h2
    | restriction x =>
      have ht : n.tag = "restriction".toList := by
        cases hk with
        | plain h => exact absurd h (by simp [plainTags])
        | restriction h => exact h
      have h3 := hp.derivation (is_of ht (by decide))
      have h3 : p.tag = "simpleType".toList ∨ p.tag = "simpleContent".toList ∨ p.tag = "complexContent".toList := by
        simpa [Is] using h3
      rcases h3 with h3 | h3 | h3
      · obtain ⟨base, fs, h1, h2, h4⟩ := (restriction_iff ht h3 hp.notFacet).1 h
        exact .restriction (is_one.2 ht) (is_one.2 h3) h1 h2 h4
      · rw [simpleRestriction_panic ht h3] at h; cases h
      · obtain ⟨h1, h2⟩ := (complexRestriction_iff ht h3).1 h
        refine .derived (is_of ht (by decide)) (is_one.2 h3) h1 ?_
        rw [derivedTags, if_neg (by rw [ht]; decide)]
        exact h2
    | _ => cases hb
  · intro h
    cases h with
    | «import» ht =>
      rcases two ht with ht | ht
      · rw [parseNode_tag (s := "import") (t := .«import») (by decide) ht]; rfl
      · rw [parseNode_tag (s := "include") (t := .«include») (by decide) ht]; rfl
    | element ht hps h => exact (globalElement_iff (is_one.1 ht) (is_one.1 hps)).2 h
    | «attribute» ht hps h =>
      exact (globalAttribute_iff (is_one.1 ht) (is_one.1 hps) (hattr (is_one.1 ht) (is_one.1 hps))).2 h
    | attributeGroup ht hps h1 h2 h3 => exact (globalGroup_iff (is_one.1 ht) (is_one.1 hps)).2 ⟨h1, _, _, h2, h3, rfl⟩
    | groupRef ht hps h1 => exact (groupEntity_iff (is_one.1 ht) (fun h => hps (is_one.2 h)) hpn).2 ⟨_, h1, rfl⟩
    | anyAttribute ht =>
      rw [parseNode_tag (s := "anyAttribute") (t := .anyAttribute) (by decide) (is_one.1 ht)]
      show Res.ok (parseAnyAttribute n) = _
      unfold parseAnyAttribute; rw [documentation_eq]
    | complexType ht h => exact (complexType_iff (is_one.1 ht) hp.notFacet).2 h
    | sequence ht h1 h2 h3 =>
      refine (sequence_iff (two ht) (fun c hc => hf.sequences n c hpart ht hc) hp.notFacet).2 ⟨_, _, h1, h2, h3, rfl⟩
    | choice ht h1 h2 => exact (parseChoice_iff (is_one.1 ht) (hcho (is_one.1 ht))).2 ⟨h1, _, h2, rfl⟩
    | content ht h1 h2 h3 => exact (content_iff (two ht)).2 ⟨h1, _, h2, h3⟩
    | derived ht hpc h1 h2 =>
      rcases two ht with ht | ht
      · rw [derivedTags, if_pos ht] at h2
        exact (extension_iff ht (is_one.1 hpc)).2 ⟨h1, h2⟩
      · rw [derivedTags, if_neg (by rw [ht]; decide)] at h2
        exact (complexRestriction_iff ht (is_one.1 hpc)).2 ⟨h1, h2⟩
    | simpleExtension ht hps h1 h2 h3 h4 =>
      exact (simpleExtension_iff (is_one.1 ht) (is_one.1 hps)).2 ⟨h1, _, _, _, h2, h3, h4, rfl⟩
    | simpleType ht hn h1 h2 h3 h4 h5 =>
      exact (simpleType_iff (is_one.1 ht) hpn).2 ⟨by rw [← is_one, ← has_iff]; exact hn, h1, _, _, _, h2, h3, h4, h5⟩
    | restriction ht hps h1 h2 h3 => exact (restriction_iff (is_one.1 ht) (is_one.1 hps) hp.notFacet).2 ⟨_, _, h1, h2, h3⟩
    | list ht h1 => exact (list_iff (is_one.1 ht)).2 (.inl ⟨_, h1, rfl⟩)
    | listOf ht h1 h2 h3 h4 => exact (list_iff (is_one.1 ht)).2 (.inr ⟨h1, _, _, h2, h3, h4⟩)
    | union ht h1 h2 h3 => exact (union_iff (is_one.1 ht) (hun (is_one.1 ht))).2 ⟨h1, _, _, h2, h3, rfl⟩

/-! ## All levels -/

theorem forall₂_imp_mem {α β : Type _} {R S : α → β → Prop} {as : List α} {bs : List β} (h : List.Forall₂ R as bs)
    (hs : ∀ a ∈ as, ∀ b, R a b → S a b) : List.Forall₂ S as bs := by
  have := forall₂_imp_map (f := id) h hs
  rwa [List.map_id] at this

theorem Located.child {root n p c : Node} {above : List Node} (hp : Located root n p above) (hn : NotFacet n)
    (hc : c ∈ members n) (ho : ¬ Is c ["element", "attribute", "any"])
    (hd : Is c ["extension", "restriction"] → Is n ["simpleType", "simpleContent", "complexContent"]) :
    Located root c n (p :: above) where
  part := .child hp.part hp.member
  member := hc
  notFacet := by
    intro a ha
    rcases List.mem_cons.1 ha with rfl | ha
    · exact hn
    · exact hp.notFacet a ha
  «local» := fun h => absurd h ho
  derivation := hd

/-- The parts which the parser follows, other than derivations. -/
def followTags : List String := ["simpleType", "complexType", "all", "choice", "complexContent", "group", "sequence",
  "simpleContent", "anyAttribute", "attributeGroup", "list", "union"]

theorem Located.followed {root n p c : Node} {above : List Node} (hp : Located root n p above) (hn : NotFacet n)
    {l : List String} (hl : ∀ s ∈ l, s ∈ followTags) (hc : c ∈ withTags n l) : Located root c n (p :: above) ∧ sizeOf c < sizeOf n := by
  obtain ⟨h1, h2⟩ := List.mem_filter.1 hc
  obtain ⟨s, hs, ht⟩ := List.any_eq_true.1 h2
  have ht := of_decide_eq_true ht
  have k : ∀ s ∈ followTags, s.toList ≠ [] ∧ s.toList ≠ "annotation".toList ∧
    s.toList ∉ ["element", "attribute", "any"].map String.toList ∧ s.toList ∉ ["extension", "restriction"].map String.toList := by decide
  obtain ⟨k1, k2, k3, k4⟩ := k s (hl s hs)
  refine ⟨hp.child hn (member_of_tag h1 ht k1 k2) ?_ ?_, child_size h1⟩
  · unfold Is; rw [ht]; exact k3
  · intro h; unfold Is at h; rw [ht] at h; exact absurd h k4

theorem global_mono {I I' : Node → RsEntity → Prop} {types : List String} {n : Node} {doc : Option Str} {e : RsEntity}
    (h : ∀ c ∈ withTags n types, ∀ x, I c x → I' c x) (he : Global I types n doc e) : Global I' types n doc e := by
  cases he with
  | typed h1 h2 => exact .typed h1 h2
  | inline h1 h2 h3 h4 h5 h6 => exact .inline h1 h2 h3 h4 (h _ (List.mem_of_getLast? h4) _ h5) h6
  | empty h1 h2 h3 h4 => exact .empty h1 h2 h3 h4

theorem entity_mono {U : UnicodeTable} {root n p : Node} {above : List Node} {e : RsEntity}
    {R R' : Node → Node → List Node → RsEntity → Prop} (hg : Grammatical root) (hp : Located root n p above)
    (h : ∀ t q ab x, Located root t q ab → sizeOf t < sizeOf n → R t q ab x → R' t q ab x)
    (he : EntityOf U R n p above e) : EntityOf U R' n p above e := by
  have hpart : PartOf root n := .child hp.part hp.member
  have nf : ∀ {s : String}, s ∈ plainTags.map (·.1) ++ ["extension", "restriction"] → Is n [s] → NotFacet n :=
    fun hs ht => notFacet_of hs (is_one.1 ht)
  have two : ∀ {m : Node} {s t : String}, Is m [s, t] → m.tag = s.toList ∨ m.tag = t.toList := by
    intro m s t h; simpa [Is] using h
  have fol : NotFacet n → ∀ {l : List String}, (∀ s ∈ l, s ∈ followTags) → ∀ c ∈ withTags n l, ∀ x,
      R c n (p :: above) x → R' c n (p :: above) x := fun hn _ hl c hc x hx =>
    h c n _ x (hp.followed hn hl hc).1 (hp.followed hn hl hc).2 hx
  cases he with
  | «import» ht => exact .«import» ht
  | element ht hs hx => exact .element ht hs (global_mono (fol (nf (by decide) ht) (by decide)) hx)
  | «attribute» ht hs hx => exact .«attribute» ht hs (global_mono (fol (nf (by decide) ht) (by decide)) hx)
  | attributeGroup h1 h2 h3 h4 h5 => exact .attributeGroup h1 h2 h3 h4 h5
  | groupRef h1 h2 h3 => exact .groupRef h1 h2 h3
  | anyAttribute h1 => exact .anyAttribute h1
  | complexType ht hx =>
    refine .complexType ht ?_
    cases hx with
    | plain h1 h2 h3 h4 h5 => exact .plain h1 h2 h3 h4 h5
    | content h1 h2 h3 h4 h5 h6 h7 =>
      exact .content h1 h2 h3 h4 h5 (fol (nf (by decide) ht) (by decide) _ (List.mem_of_getLast? h4) _ h6) h7
  | sequence ht h1 h2 h3 =>
    refine .sequence ht h1 h2 ?_
    have hn : NotFacet n := by
      rcases two ht with ht | ht
      · exact notFacet_of (s := "sequence") (by decide) ht
      · exact notFacet_of (s := "all") (by decide) ht
    refine forall₂_imp_mem h3 ?_
    intro c hc f hx
    cases hx with
    | typed k1 k2 k3 k4 k5 => exact .typed k1 k2 k3 k4 k5
    | ref k1 k2 k3 k4 k5 => exact .ref k1 k2 k3 k4 k5
    | any k1 k2 => exact .any k1 k2
    | choice k1 k2 k3 => exact .choice k1 k2 k3
    | inline k1 k2 k3 k4 k5 k6 k7 k8 k9 =>
      refine .inline k1 k2 k3 k4 k5 ?_ k7 k8 k9
      have hcf : NotFacet c := notFacet_of (s := "element") (by decide) k1
      obtain ⟨m1, m2⟩ := mem_withTags2.1 (List.mem_of_getLast? k5)
      refine h _ _ _ _ ⟨.child hpart hc, ?_, ?_, ?_, ?_⟩ ?_ k6
      · rcases m2 with m2 | m2
        · exact member_of_tag m1 m2 (by decide) (by decide)
        · exact member_of_tag m1 m2 (by decide) (by decide)
      · intro a ha
        rcases List.mem_cons.1 ha with rfl | ha
        · exact hcf
        rcases List.mem_cons.1 ha with rfl | ha
        · exact hn
        · exact hp.notFacet a ha
      · intro hi; unfold Is at hi; rcases m2 with m2 | m2 <;> rw [m2] at hi <;> exact absurd hi (by decide)
      · intro hi; unfold Is at hi; rcases m2 with m2 | m2 <;> rw [m2] at hi <;> exact absurd hi (by decide)
      · exact Nat.lt_trans (child_size m1) (child_size (mem_members.1 hc).1)
  | choice h1 h2 h3 => exact .choice h1 h2 h3
  | @content c _ ht h1 h2 h3 =>
    refine .content ht h1 h2 ?_
    have hc := List.mem_of_getLast? h2
    have hn : NotFacet n := by
      rcases two ht with ht | ht
      · exact notFacet_of (s := "complexContent") (by decide) ht
      · exact notFacet_of (s := "simpleContent") (by decide) ht
    have hct : c.tag ∈ ["extension", "restriction"].map String.toList := by
      rcases two ht with ht | ht
      · exact hg.rows ("complexContent", ["extension", "restriction"]) (by decide) n _ hpart ht hc
      · exact hg.rows ("simpleContent", ["extension", "restriction"]) (by decide) n _ hpart ht hc
    refine h _ _ _ _ (hp.child hn hc ?_ fun _ => ?_) (child_size (mem_members.1 hc).1) h3
    · intro hi
      have k : ∀ s ∈ ["extension", "restriction"].map String.toList, s ∉ ["element", "attribute", "any"].map String.toList := by decide
      exact k _ hct hi
    · exact is_mono ht (by decide)
  | derived ht hs h1 h2 =>
    refine .derived ht hs h1 ?_
    have hn : NotFacet n := by
      rcases two ht with ht | ht
      · exact notFacet_of (s := "extension") (by decide) ht
      · exact notFacet_of (s := "restriction") (by decide) ht
    have hl : ∀ s ∈ derivedTags n, s ∈ followTags := by
      unfold derivedTags
      split <;> decide
    cases h2 with
    | without k1 k2 k3 k4 => exact .without k1 k2 k3 k4
    | struct k1 k2 k3 k4 => exact .struct k1 k2 k3 (fol hn hl _ (List.mem_of_getLast? k3) _ k4)
    | lost k1 k2 k3 k4 k5 k6 => exact .lost k1 k2 k3 k4 (fol hn hl _ (List.mem_of_getLast? k4) _ k5) k6
  | simpleExtension h1 h2 h3 h4 h5 h6 => exact .simpleExtension h1 h2 h3 h4 h5 h6
  | simpleType ht h1 h2 h3 h4 h5 h6 =>
    refine .simpleType ht h1 h2 h3 ?_ h5 h6
    have hc := List.mem_of_getLast? h3
    have hct := hg.rows ("simpleType", ["restriction", "list", "union"]) (by decide) n _ hpart (is_one.1 ht) hc
    refine h _ _ _ _ (hp.child (nf (by decide) ht) hc ?_ fun _ => is_mono ht (by decide)) (child_size (mem_members.1 hc).1) h4
    intro hi
    have k : ∀ s ∈ ["restriction", "list", "union"].map String.toList, s ∉ ["element", "attribute", "any"].map String.toList := by decide
    exact k _ hct hi
  | restriction h1 h2 h3 h4 h5 => exact .restriction h1 h2 h3 h4 h5
  | list h1 h2 => exact .list h1 h2
  | listOf ht h1 h2 h3 h4 =>
    exact .listOf ht h1 h2 (fol (nf (by decide) ht) (by decide) _ (List.mem_of_head? h2) _ h3) h4
  | union ht h1 h2 h3 =>
    refine .union ht h1 h2 (forall₂_imp_mem h3 ?_)
    rintro ⟨c, i⟩ hc s ⟨x, k1, k2⟩
    exact ⟨x, fol (nf (by decide) ht) (by decide) c (List.fst_mem_of_mem_zipIdx hc) _ k1, k2⟩

theorem reads_iff {U : UnicodeTable} {root n p : Node} {above : List Node} {e : RsEntity} (hg : Grammatical root)
    (hf : ProperForms root) (hp : Located root n p above) : parseNode U n p above = .ok e ↔ ReadsAs U n p above e := by
  constructor
  · have : ∀ k, ∀ n p above e, sizeOf n < k → Located root n p above → parseNode U n p above = .ok e →
        ReadsIn U k n p above e := by
      intro k
      induction k with
      | zero => intro n _ _ _ h; exact absurd h (Nat.not_lt_zero _)
      | succ k ih =>
        intro n p above e hk hp h
        exact entity_mono hg hp (fun t q ab x h1 h2 h3 => ih t q ab x (by omega) h1 h3) ((step_iff hg hf hp).1 h)
    intro h
    exact ⟨_, this _ n p above e (Nat.lt_succ_self _) hp h⟩
  · rintro ⟨k, h⟩
    have : ∀ k, ∀ n p above e, Located root n p above → ReadsIn U k n p above e → parseNode U n p above = .ok e := by
      intro k
      induction k with
      | zero => intro n p above e _ h; exact absurd h id
      | succ k ih =>
        intro n p above e hp h
        exact (step_iff hg hf hp).2 (entity_mono hg hp (fun t q ab x h1 _ h3 => ih t q ab x h1 h3) h)
    exact this k n p above e hp h

/-! ## The schema -/

theorem first_iff {α : Type} {P : α → Prop} [DecidablePred P] {l : List α} {o : Option α} :
    First P l o ↔ l.find? (fun a => P a) = o := by
  constructor
  · intro h
    cases h with
    | none h => rw [List.find?_eq_none]; intro x hx; simpa using h x hx
    | some h1 h2 h3 =>
      rw [List.find?_eq_some_iff_append]
      refine ⟨by simpa using h2, _, _, h1, fun a ha => by simpa using h3 a ha⟩
  · rintro rfl
    cases h : l.find? (fun a => P a) with
    | none => exact .none fun a ha => by simpa using List.find?_eq_none.1 h a ha
    | some x =>
      obtain ⟨h1, pre, post, h2, h3⟩ := List.find?_eq_some_iff_append.1 h
      exact .some h2 (by simpa using h1) fun a ha => by simpa using h3 a ha

theorem targetNs_iff {root : Node} {o : Option Namespace} : TargetNs root o ↔ o = targetNamespace root := by
  unfold targetNamespace
  constructor
  · intro h
    cases h with
    | none h => rw [h]
    | some h h2 => rw [h]; exact (first_iff.1 h2).symm
  · rintro rfl
    cases h : root.attr "targetNamespace".toList with
    | none => exact .none h
    | some uri => exact .some h (first_iff.2 rfl)

theorem xsdUri_first {l : List Namespace} (uri : Str) : ((l.filter fun n => n.uri = uri).find? fun n => n.name.isSome) =
    l.find? fun a => decide (a.uri = uri ∧ a.name ≠ none) := by
  rw [List.find?_filter]
  congr 1
  funext a
  cases a.name <;> simp

theorem xsdNs_iff {root : Node} {o : Option Namespace} : XsdNs root o ↔ o = xsdNamespace root := by
  have e : xsdNamespace root = (root.namespaces.find? fun a => decide (a.uri = xsdUri ∧ a.name ≠ none)).or
      (root.namespaces.find? fun a => decide (a.uri = xsdUri)) := by
    rw [← xsdUri_first, ← List.head?_filter (p := fun a : Namespace => decide (a.uri = xsdUri))]
    rfl
  rw [e]
  constructor
  · intro h
    cases h with
    | withPrefix h =>
      have h := first_iff.1 h
      change (root.namespaces.find? fun a => decide (a.uri = xsdUri ∧ a.name ≠ none)) = _ at h
      rw [h]
      rfl
    | without h h' =>
      have h := first_iff.1 h
      have h' := first_iff.1 h'
      change (root.namespaces.find? fun a => decide (a.uri = xsdUri ∧ a.name ≠ none)) = _ at h
      change (root.namespaces.find? fun a => decide (a.uri = xsdUri)) = _ at h'
      rw [h, h']
      rfl
  · rintro rfl
    cases h : root.namespaces.find? fun a => decide (a.uri = xsdUri ∧ a.name ≠ none) with
    | none => exact .without (first_iff.2 h) (first_iff.2 rfl)
    | some x => exact .withPrefix (first_iff.2 h)

theorem global_located {root c : Node} (hg : Grammatical root) (hc : c ∈ members root) : Located root c root [] where
  part := .root
  member := hc
  notFacet := by
    intro a ha
    obtain rfl := List.mem_singleton.1 ha
    exact notFacet_of (s := "schema") (by decide) hg.schema
  «local» := fun _ => ⟨is_one.2 hg.schema, rfl⟩
  derivation := by
    intro h
    have := hg.rows grammarRows.head! List.mem_cons_self root c .root hg.schema hc
    have k : ∀ s ∈ grammarRows.head!.2.map String.toList, s ∉ ["extension", "restriction"].map String.toList := by decide
    exact absurd h (k _ this)

theorem readsFile_iff {U : UnicodeTable} {root : Node} {f : RsFile} (hg : Grammatical root) (hf : ProperForms root) :
    parseSchema U root [] = .ok f ↔ ReadsFile U root f := by
  have h1 : ∀ types, List.Forall₂ (fun c e => parseNode U c root [] = .ok e) (globals root) types ↔
      List.Forall₂ (fun c e => ReadsAs U c root [] e) (globals root) types := fun types =>
    forall₂_congr fun c hc e => reads_iff hg hf (global_located hg (List.mem_filter.1 hc).1)
  have h2 : ∀ groups, List.Forall₂ (fun c e => parseNode U c root [] = .ok e) (withTags root ["attributeGroup"]) groups ↔
      List.Forall₂ (fun c e => ReadsAs U c root [] e) (withTags root ["attributeGroup"]) groups := fun groups =>
    forall₂_congr fun c hc e => reads_iff hg hf (global_located hg
      (member_of_tag (mem_withTags.1 hc).1 (mem_withTags.1 hc).2 (by decide) (by decide)))
  rw [schema_iff]
  constructor
  · rintro ⟨hr, types, groups, k1, k2, rfl⟩
    exact ⟨hr, (h1 _).1 k1, (h2 _).1 k2, targetNs_iff.2 rfl, xsdNs_iff.2 rfl, rfl, rfl⟩
  · rintro ⟨hr, k1, k2, k3, k4, k5, k6⟩
    obtain ⟨name, ns, types, groups, tn, xn⟩ := f
    dsimp only at k1 k2 k3 k4 k5 k6
    obtain rfl := k5
    obtain rfl := k6
    obtain rfl := targetNs_iff.1 k3
    obtain rfl := xsdNs_iff.1 k4
    exact ⟨hr, types, groups, (h1 _).2 k1, (h2 _).2 k2, rfl⟩

end Verif.Lemmas.Parse
