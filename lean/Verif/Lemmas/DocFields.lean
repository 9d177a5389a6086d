import Verif.Lemmas.DocDefs
import Verif.Lemmas.Total
import Verif.Lemmas.Extend
import Verif.Spec.Fields

/-! # The fields of the structs for a document -/

namespace Verif.Lemmas.Parse

open Verif Verif.Model Verif.RoXml Verif.Spec

theorem groupNames_of {n : Node} {ags : List RAlias} (h : GroupRefs n ags) : GroupNames n (ags.map RAlias.original) := by
  refine forall₂_imp_map h ?_
  rintro c - a ⟨r, hr, rfl⟩
  exact hr

theorem memberField_any {I : Node → RsEntity → Prop} {owner : Str} {c : Node} {f : StructField}
    (h : MemberField I owner c f) : MemberField anyType owner c f := by
  cases h with
  | typed h1 h2 h3 h4 h5 => exact .typed h1 h2 h3 h4 h5
  | ref h1 h2 h3 h4 h5 => exact .ref h1 h2 h3 h4 h5
  | inline h1 h2 h3 h4 h5 _ h7 h8 h9 => exact .inline h1 h2 h3 h4 h5 trivial h7 h8 h9
  | any h1 h2 => exact .any h1 h2
  | choice h1 h2 h3 => exact .choice h1 h2 h3

theorem ownerName_unique {l : List Node} {a b : Str} (h : OwnerName l a) (h' : OwnerName l b) : a = b := by
  induction h with
  | root => cases h'; rfl
  | schema h =>
    cases h' with
    | schema => rfl
    | named h1 => exact absurd h h1
    | up h1 => exact absurd h h1
  | named h h2 =>
    cases h' with
    | schema h1 => exact absurd h1 h
    | named _ h3 => exact Option.some.inj (h2.symm.trans h3)
    | up _ h3 => rw [h2] at h3; cases h3
  | up h h2 _ ih =>
    cases h' with
    | schema h1 => exact absurd h1 h
    | named _ h3 => rw [h2] at h3; cases h3
    | up _ _ h3 => exact ih h3

theorem owner_up {x : Node} {l : List Node} {a : Str} (h : OwnerName (x :: l) a) (hx : x.tag ≠ "schema".toList)
    (hn : ¬ Has x "name") : OwnerName l a := by
  cases h with
  | schema h => exact absurd h hx
  | named _ h => exact absurd ⟨_, h⟩ hn
  | up _ _ h => exact h

/-- The owner of what is directly in a complex type is the type. -/
theorem owner_type {root n p : Node} {above : List Node} {nm a : Str} (hr : RegularSchema root) (hn : n.tag = "complexType".toList)
    (hm : n ∈ members p) (hp : PartOf root p) (ht : TypeName n p above nm) (h : OwnerName (n :: p :: above) a) : a = nm := by
  have hns : n.tag ≠ "schema".toList := by rw [hn]; decide
  cases ht with
  | global _ h2 =>
    cases h with
    | schema h => exact absurd h hns
    | named _ h => exact Option.some.inj (h.symm.trans h2)
    | up _ h => rw [h] at h2; cases h2
  | inline h1 h2 =>
    refine ownerName_unique (owner_up h hns (hr.anonymous p n hp ?_ hm ?_)) h2
    · rw [is_one]; exact h1
    · exact is_of (s := "complexType") hn (by decide)

theorem derived_fields {U : UnicodeTable} {root n s d : Node} {above : List Node} {e : RsEntity} {owner : Str}
    (hr : RegularSchema root) (hd : PartOf root d) (hs : Is s ["complexContent"]) (hdt : Is d ["extension", "restriction"])
    (ha : ∀ a ∈ d :: s :: n :: above, NotFacet a)
    (ho : ∀ o, OwnerName (d :: s :: n :: above) o → o = owner)
    (h : parseNode U d s (n :: above) = .ok e) :
    ∃ base attrs, d.attr "base".toList = some base ∧ AttrFields d attrs ∧
      ((∃ nm cm ags, e = .struct (.mk nm cm (attrs ++ [baseMarker d base]) ags []) ∧
          GroupNames d (ags.map RAlias.original) ∧
          ∀ q, (withTags d (derivedTags d)).getLast? = some q → ¬ Is q ["sequence", "all"]) ∨
       (∃ nm cm q fs, e = .struct (.mk nm cm (fs ++ (attrs ++ [baseMarker d base])) [] []) ∧
          (withTags d (derivedTags d)).getLast? = some q ∧ Is q ["sequence", "all"] ∧ SequenceFields owner q fs)) := by
  have hst := is_one.1 hs
  have hder : Derived (fun c x => parseNode U c d (s :: n :: above) = .ok x) (derivedTags d) d e := by
    have hdt : d.tag = "extension".toList ∨ d.tag = "restriction".toList := by simpa [Is] using hdt
    unfold derivedTags
    rcases hdt with hdt | hdt
    · rw [if_pos hdt]; exact ((extension_iff hdt hst).1 h).2
    · rw [if_neg (by rw [hdt]; decide)]; exact ((complexRestriction_iff hdt hst).1 h).2
  have hmem : ∀ q, (withTags d (derivedTags d)).getLast? = some q → q ∈ members d ∧
      q.tag ∈ ["all", "anyAttribute", "attributeGroup", "choice", "group", "sequence"].map String.toList := by
    intro q hq
    obtain ⟨h1, h2⟩ := List.mem_filter.1 (List.mem_of_getLast? hq)
    obtain ⟨t, ht, h2⟩ := List.any_eq_true.1 h2
    have h2 := of_decide_eq_true h2
    have hsub : t ∈ ["all", "anyAttribute", "attributeGroup", "choice", "group", "sequence"] := by
      have k : ∀ t ∈ ["all", "attributeGroup", "choice", "group", "sequence"],
        t ∈ ["all", "anyAttribute", "attributeGroup", "choice", "group", "sequence"] := by decide
      unfold derivedTags at ht
      split at ht
      · exact k t ht
      · exact ht
    have hne : ∀ t ∈ ["all", "anyAttribute", "attributeGroup", "choice", "group", "sequence"],
        t.toList ≠ [] ∧ t.toList ≠ "annotation".toList := by decide
    exact ⟨member_of_tag h1 h2 (hne t hsub).1 (hne t hsub).2, List.mem_map.2 ⟨t, hsub, h2.symm⟩⟩
  have hdns : d.tag ≠ "schema".toList := by
    intro e'
    have hdt : d.tag = "extension".toList ∨ d.tag = "restriction".toList := by simpa [Is] using hdt
    rw [e'] at hdt
    exact absurd hdt (by decide)
  have hseq : ∀ {q x}, (withTags d (derivedTags d)).getLast? = some q → Is q ["sequence", "all"] →
      parseNode U q d (s :: n :: above) = .ok x → ∃ cm nm fs, SequenceFields owner q fs ∧ x = .struct (.mk nm cm fs [] []) := by
    intro q x hq hqt hx
    have hqt' : q.tag = "sequence".toList ∨ q.tag = "all".toList := by simpa [Is] using hqt
    obtain ⟨o, fs, h1, -, h2, h3⟩ := (sequence_iff hqt' (fun c hc => hr.sequences q c (.child hd (hmem q hq).1) hqt hc) ha).1 hx
    obtain rfl := ho o h1
    exact ⟨_, _, fs, h2.imp fun c f h => memberField_any h, h3⟩
  have hother : ∀ {q x}, (withTags d (derivedTags d)).getLast? = some q → ¬ Is q ["sequence", "all"] →
      parseNode U q d (s :: n :: above) = .ok x → ∀ s, x ≠ .struct s := by
    intro q x hq hqt hx
    have ht := (hmem q hq).2
    have ht : q.tag = "all".toList ∨ q.tag = "anyAttribute".toList ∨ q.tag = "attributeGroup".toList ∨
      q.tag = "choice".toList ∨ q.tag = "group".toList ∨ q.tag = "sequence".toList := by simpa using ht
    rcases ht with ht | ht | ht | ht | ht | ht
    · exact absurd (is_of (s := "all") ht (by decide)) hqt
    · rw [parseNode_tag (s := "anyAttribute") (t := .anyAttribute) (by decide) ht] at hx
      obtain rfl := Res.ok.inj hx
      exact fun _ h => nomatch h
    · rw [parseNode_tag (s := "attributeGroup") (t := .attributeGroup) (by decide) ht] at hx
      have hx : parseAttributeGroup _ = .ok x := hx
      unfold parseAttributeGroup at hx
      obtain ⟨pt, hpt, hx⟩ := Res.bind_eq_ok.1 hx
      have hs : pt ≠ .schema := fun e => by
        subst e
        exact hdns ((type_iff (s := "schema") (t := .schema) (by decide)).1 hpt)
      rw [if_neg hs] at hx
      obtain ⟨r, -, hx⟩ := Res.bind_eq_ok.1 hx
      obtain rfl := Res.ok.inj hx
      exact fun _ h => nomatch h
    · rw [parseNode_tag (s := "choice") (t := .choice) (by decide) ht] at hx
      have hx : parseChoice _ = .ok x := hx
      obtain ⟨ks, -, hx⟩ := Res.bind_eq_ok.1 hx
      obtain ⟨cs, -, hx⟩ := Res.bind_eq_ok.1 hx
      obtain rfl := Res.ok.inj hx
      exact fun _ h => nomatch h
    · rw [parseNode_tag (s := "group") (t := .group) (by decide) ht] at hx
      cases hx
    · exact absurd (is_of (s := "sequence") ht (by decide)) hqt
  cases hder with
  | without h1 h2 h3 h4 =>
    exact ⟨_, _, h1, h2, .inl ⟨_, _, _, rfl, groupNames_of h3, fun q hq => by rw [h4] at hq; cases hq⟩⟩
  | @struct base attrs q nm cm fs ag sub h1 h2 h3 h4 =>
    by_cases hq : Is q ["sequence", "all"]
    · obtain ⟨_, _, fs', h5, h6⟩ := hseq h3 hq h4
      cases h6
      exact ⟨_, _, h1, h2, .inr ⟨_, _, q, fs, rfl, h3, hq, h5⟩⟩
    · exact absurd rfl (hother h3 hq h4 _)
  | @lost base attrs ags q x h1 h2 h3 h4 h5 h6 =>
    refine ⟨_, _, h1, h2, .inl ⟨_, _, _, rfl, groupNames_of h3, fun q' hq' hq => ?_⟩⟩
    rw [h4] at hq'
    obtain rfl := Option.some.inj hq'
    obtain ⟨_, _, _, -, h8⟩ := hseq h4 hq h5
    exact h6 _ h8

/-- The struct for a complex type which is not a choice. -/
theorem complex_fields {U : UnicodeTable} {root n p : Node} {above : List Node} {e : RsEntity} (hg : Grammatical root)
    (hr : RegularSchema root) (hp : PartOf root p) (hm : n ∈ members p) (ht : n.tag = "complexType".toList)
    (ha : ∀ a ∈ p :: above, NotFacet a) (hc : ¬ ChoiceContent n) (h : parseNode U n p above = .ok e) :
    ∃ nm cm fs ag, TypeName n p above nm ∧ e = .struct (.mk nm cm fs ag []) ∧ OwnFields nm n fs (ag.map RAlias.original) := by
  have hn : PartOf root n := .child hp hm
  have hnf : NotFacet n := notFacet_of (s := "complexType") (by decide +kernel) ht
  have ha1 : ∀ a ∈ n :: p :: above, NotFacet a := fun a h => by
    rcases List.mem_cons.1 h with rfl | h
    · exact hnf
    · exact ha a h
  have hns : ¬ Is n ["schema"] := by rw [is_one, ht]; decide
  cases (complexType_iff ht ha).1 h with
  | plain h1 _ h3 h4 h5 => exact ⟨_, _, _, _, h1, rfl, .plain h5 h3 (groupNames_of h4)⟩
  | @content nm attrs s x _ h1 h2 h3 h4 h5 h6 h7 =>
    obtain ⟨hsm, hst⟩ := mem_contentTags h4
    have hsp : PartOf root s := .child hn hsm
    have hst : s.tag = "all".toList ∨ s.tag = "choice".toList ∨ s.tag = "complexContent".toList ∨ s.tag = "group".toList ∨
      s.tag = "sequence".toList ∨ s.tag = "simpleContent".toList := by simpa [contentTags] using hst
    have hseq : Is s ["sequence", "all"] → ∃ nm cm fs ag, TypeName n p above nm ∧ e = .struct (.mk nm cm fs ag []) ∧
        OwnFields nm n fs (ag.map RAlias.original) := fun hs => by
      have hs' : s.tag = "sequence".toList ∨ s.tag = "all".toList := by simpa [Is] using hs
      obtain ⟨o, fs, k1, -, k2, rfl⟩ := (sequence_iff hs' (fun c hc => hr.sequences s c hsp hs hc) ha1).1 h6
      obtain rfl := owner_type hr ht hm hp h1 k1
      cases h7 with
      | struct =>
        exact ⟨_, _, _, _, h1, rfl, .sequence h4 hs h5 (k2.imp fun c f h => memberField_any h) h3⟩
      | other ho _ => exact absurd rfl (ho _)
    have hdm : ∀ {d}, (s.tag = "simpleContent".toList ∨ s.tag = "complexContent".toList) →
        (members s).getLast? = some d → d ∈ members s ∧ Is d ["extension", "restriction"] := by
      intro d hs hd
      have hd := List.mem_of_getLast? hd
      refine ⟨hd, ?_⟩
      rcases hs with hs | hs
      · exact hg.rows ("simpleContent", ["extension", "restriction"]) (by decide) s d hsp hs hd
      · exact hg.rows ("complexContent", ["extension", "restriction"]) (by decide) s d hsp hs hd
    rcases hst with hs | hs | hs | hs | hs | hs
    · exact hseq (is_of (s := "all") hs (by decide))
    · exact absurd ⟨s, h4, hs, h5⟩ hc
    · obtain ⟨-, d, hd, hx⟩ := (content_iff (.inl hs)).1 h6
      obtain ⟨hd1, hd2⟩ := hdm (.inr hs) hd
      have hsi : Is s ["complexContent"] := is_one.2 hs
      have hsn : s.tag ≠ "schema".toList := by rw [hs]; decide
      have hsf : NotFacet s := notFacet_of (s := "complexContent") (by decide +kernel) hs
      have hdt : d.tag = "extension".toList ∨ d.tag = "restriction".toList := by simpa [Is] using hd2
      have hdn : d.tag ≠ "schema".toList := by
        rcases hdt with e | e <;> (rw [e]; decide)
      have hdf : NotFacet d := by
        rcases hdt with e | e
        · exact notFacet_of (s := "extension") (by decide +kernel) e
        · exact notFacet_of (s := "restriction") (by decide +kernel) e
      have hano1 : ¬ Has s "name" := hr.anonymous n s hn hns hsm (is_of (s := "complexContent") hs (by decide))
      have hano2 : ¬ Has d "name" := hr.anonymous s d hsp (by rw [is_one]; exact hsn) hd1
        (is_mono hd2 (by decide))
      obtain ⟨base, attrs', k1, k2, k3⟩ := derived_fields (owner := nm) hr (.child hsp hd1) hsi hd2
        (by
          intro a h
          rcases List.mem_cons.1 h with rfl | h
          · exact hdf
          · rcases List.mem_cons.1 h with rfl | h
            · exact hsf
            · exact ha1 a h)
        (fun o ho => owner_type hr ht hm hp h1 (owner_up (owner_up ho hdn hano2) hsn hano1)) hx
      rcases k3 with ⟨_, _, ags, rfl, k4, k5⟩ | ⟨_, _, q, fs, rfl, k4, k5, k6⟩
      · cases h7 with
        | struct => exact ⟨_, _, _, _, h1, rfl, .derived h4 hsi h5 hd hd2 k1 k2 k4 k5 h3⟩
        | other ho _ => exact absurd rfl (ho _)
      · cases h7 with
        | struct => exact ⟨_, _, _, _, h1, rfl, .derivedSequence h4 hsi h5 hd hd2 k1 k2 k4 k5 k6 h3⟩
        | other ho _ => exact absurd rfl (ho _)
    · rw [parseNode_tag (s := "group") (t := .group) (by decide) hs] at h6
      cases h6
    · exact hseq (is_of (s := "sequence") hs (by decide))
    · obtain ⟨-, d, hd, hx⟩ := (content_iff (.inr hs)).1 h6
      obtain ⟨hd1, hd2⟩ := hdm (.inl hs) hd
      have hsi : Is s ["simpleContent"] := is_one.2 hs
      have hdt : d.tag = "extension".toList ∨ d.tag = "restriction".toList := by simpa [Is] using hd2
      rcases hdt with hdt | hdt
      · obtain ⟨-, base, attrs', ags, k1, k2, k3, rfl⟩ := (simpleExtension_iff hdt hs).1 hx
        cases h7 with
        | struct => exact ⟨_, _, _, _, h1, rfl, .simple h4 hsi h5 hd (is_one.2 hdt) k1 k2 (groupNames_of k3) h3⟩
        | other ho _ => exact absurd rfl (ho _)
      · rw [simpleRestriction_panic hdt hs] at hx
        cases hx

/-! ## Global declarations -/

/-- A declaration declares a struct with its own fields, or its entity is no struct, or an empty one. -/
theorem declares_or {U : UnicodeTable} {root c : Node} {e : RsEntity} (hg : Grammatical root) (hr : RegularSchema root)
    (hc : c ∈ globals root) (h : parseNode U c root [] = .ok e) :
    (∃ nm n cm fs ag, Declares root c nm n ∧ e = .struct (.mk nm cm fs ag []) ∧ OwnFields nm n fs (ag.map RAlias.original)) ∨
    ((∀ nm n, ¬ Declares root c nm n) ∧ ((∀ s, e ≠ .struct s) ∨
      ∃ nm cm, e = .struct (.mk nm cm [] [] []) ∧ c.attr "name".toList = some nm ∧ StructLike c)) := by
  obtain ⟨hcm, hng⟩ := List.mem_filter.1 hc
  have hng : c.tag ≠ "attributeGroup".toList := of_decide_eq_true hng
  have hcp : PartOf root c := .child .root hcm
  have hrf : NotFacet root := notFacet_of (s := "schema") (by decide) hg.schema
  have ha1 : ∀ a ∈ root :: ([] : List Node), NotFacet a := fun a ha => by
    obtain rfl := List.mem_singleton.1 ha; exact hrf
  have hnotag : c.tag ≠ "complexType".toList → c.tag ≠ "element".toList → ∀ nm n, ¬ Declares root c nm n := by
    rintro h1 h2 nm n ⟨-, -, hb, -⟩
    cases hb with
    | type h => exact h1 h
    | element h => exact h2 h
  have hdecl : (c.tag = "element".toList ∨ c.tag = "attribute".toList) → ∀ doc,
      Global (fun t x => parseNode U t c [root] = .ok x)
        (if c.tag = "element".toList then ["simpleType", "complexType"] else ["simpleType"]) c doc e →
      (∃ nm n cm fs ag, Declares root c nm n ∧ e = .struct (.mk nm cm fs ag []) ∧ OwnFields nm n fs (ag.map RAlias.original)) ∨
      ((∀ nm n, ¬ Declares root c nm n) ∧ ((∀ s, e ≠ .struct s) ∨
        ∃ nm cm, e = .struct (.mk nm cm [] [] []) ∧ c.attr "name".toList = some nm ∧ StructLike c)) := by
    intro hct doc hgl
    have hcx : c.tag ≠ "complexType".toList := by
      intro e'
      rw [e'] at hct
      exact absurd hct (by decide)
    have hcf : NotFacet c := by
      rcases hct with hct | hct
      · exact notFacet_of (s := "element") (by decide) hct
      · exact notFacet_of (s := "attribute") (by decide) hct
    have hcs : c.tag ≠ "schema".toList := by
      intro e
      rw [e] at hct
      exact absurd hct (by decide)
    have ha2 : ∀ a ∈ c :: root :: ([] : List Node), NotFacet a := fun a ha => by
      rcases List.mem_cons.1 ha with rfl | ha
      · exact hcf
      · exact ha1 a ha
    cases hgl with
    | @typed nm t h1 h2 =>
      refine .inr ⟨?_, .inl fun _ h => nomatch h⟩
      rintro nm n ⟨-, -, hb, -⟩
      cases hb with
      | type h => exact hcx h
      | element _ h => rw [h2] at h; cases h
    | @inline nm t x _ h1 h2 h3 h4 h5 h6 =>
      have hin : inlineType c = some t := h4
      obtain ⟨htm, htt⟩ := inline_mem hin
      have htp : PartOf root t := .child hcp htm
      rw [renamed_iff.1 h6]
      by_cases hts : t.tag = "simpleType".toList
      · obtain ⟨k, own, ds, s1, s2, s3, -, -⟩ := simple_shape hg Gen.hasDoc t c [root] x htp hts ha2 h5
        refine .inr ⟨?_, .inl ?_⟩
        · rintro nm n ⟨-, -, hb, -⟩
          cases hb with
          | type h => exact hcx h
          | element _ _ h h' =>
            rw [hin] at h
            obtain rfl := Option.some.inj h
            rw [hts] at h'
            exact absurd h' (by decide)
        · rcases s3 with ⟨-, s, rfl⟩ | ⟨-, s, rfl⟩ <;> (cases s; exact fun _ h => nomatch h)
      · obtain ⟨hce, htt⟩ := htt.resolve_left hts
        have hnm : ∀ {nm'}, TypeName t c [root] nm' → nm' = nm := by
          intro nm' hnm
          cases hnm with
          | global hs _ => exact absurd hs hcs
          | inline _ ho =>
            cases ho with
            | schema hs => exact absurd hs hcs
            | named _ hn => rw [h1] at hn; exact (Option.some.inj hn).symm
            | up _ hn _ => rw [h1] at hn; cases hn
        by_cases hch : ChoiceContent t
        · refine .inr ⟨?_, .inl ?_⟩
          · rintro nm n ⟨-, -, hb, hn⟩
            cases hb with
            | type h => exact hcx h
            | element _ _ h h' =>
              rw [hin] at h
              obtain rfl := Option.some.inj h
              exact hn hch
          · obtain ⟨nm', -, hsh⟩ := complex_shape hg htp htt ha2 h5
            rcases hsh with ⟨hno, -⟩ | ⟨-, cs, cm, t', src, cm', fs, ag, rfl⟩
            · exact absurd hch hno
            · exact fun _ h => nomatch h
        · obtain ⟨nm', cm, fs, ag, k1, rfl, k2⟩ := complex_fields hg hr hcp htm htt ha2 hch h5
          obtain rfl := hnm k1
          exact .inl ⟨_, _, _, _, _, ⟨hc, h1, .element hce h2 hin htt, hch⟩, rfl, k2⟩
    | empty h1 h2 h3 h4 =>
      refine .inr ⟨?_, .inr ⟨_, _, rfl, h1, .inr ⟨?_, h2⟩⟩⟩
      · rintro nm n ⟨-, -, hb, -⟩
        cases hb with
        | type h => exact hcx h
        | element _ _ h => rw [show inlineType c = none from h4] at h; cases h
      · simpa [Is] using hct
  have htag := hg.rows _ (List.mem_cons_self) root c .root hg.schema hcm
  have htag : c.tag = "include".toList ∨ c.tag = "import".toList ∨ c.tag = "redefine".toList ∨
      c.tag = "simpleType".toList ∨ c.tag = "complexType".toList ∨ c.tag = "group".toList ∨
      c.tag = "attributeGroup".toList ∨ c.tag = "element".toList ∨ c.tag = "attribute".toList ∨
      c.tag = "notation".toList := by simpa using htag
  have hns : root.tag = "schema".toList := hg.schema
  rcases htag with ht | ht | ht | ht | ht | ht | ht | ht | ht | ht
  · rw [parseNode_tag (s := "include") (t := .include) (by decide) ht] at h
    obtain rfl := Res.ok.inj h
    exact .inr ⟨hnotag (by rw [ht]; decide) (by rw [ht]; decide), .inl fun _ h => nomatch h⟩
  · rw [parseNode_tag (s := "import") (t := .import) (by decide) ht] at h
    obtain rfl := Res.ok.inj h
    exact .inr ⟨hnotag (by rw [ht]; decide) (by rw [ht]; decide), .inl fun _ h => nomatch h⟩
  · rw [parseNode_tag (s := "redefine") (t := .redefine) (by decide) ht] at h
    cases h
  · obtain ⟨k, own, ds, s1, s2, s3, s4, s5⟩ := simple_shape hg Gen.hasDoc c root [] e hcp ht ha1 h
    refine .inr ⟨hnotag (by rw [ht]; decide) (by rw [ht]; decide), .inl ?_⟩
    rcases s3 with ⟨-, s, rfl⟩ | ⟨-, s, rfl⟩ <;> exact fun _ h => nomatch h
  · by_cases hch : ChoiceContent c
    · refine .inr ⟨?_, .inl ?_⟩
      · rintro nm n ⟨-, -, hb, hn⟩
        cases hb with
        | type => exact hn hch
        | element h => rw [ht] at h; exact absurd h (by decide)
      · obtain ⟨nm', -, hsh⟩ := complex_shape hg hcp ht ha1 h
        rcases hsh with ⟨hno, -⟩ | ⟨-, cs, cm, t', src, cm', fs, ag, rfl⟩
        · exact absurd hch hno
        · exact fun _ h => nomatch h
    · obtain ⟨nm, cm, fs, ag, k1, rfl, k2⟩ := complex_fields hg hr .root hcm ht ha1 hch h
      have hnm : c.attr "name".toList = some nm := by
        cases k1 with
        | global _ h => exact h
        | inline hno _ => exact absurd hg.schema hno
      exact .inl ⟨_, _, _, _, _, ⟨hc, hnm, .type ht, hch⟩, rfl, k2⟩
  · rw [parseNode_tag (s := "group") (t := .group) (by decide) ht] at h
    cases h
  · exact absurd ht hng
  · refine hdecl (.inl ht) (docOf c) ?_
    rw [if_pos ht]
    exact (globalElement_iff ht hns).1 h
  · cases hr' : c.attr "ref".toList with
    | none =>
      refine hdecl (.inr ht) none ?_
      rw [if_neg (by rw [ht]; decide)]
      exact (globalAttribute_iff ht hns hr').1 h
    | some r =>
      rw [parseNode_tag (s := "attribute") (t := .attribute) (by decide) ht] at h
      have h : parseAttribute _ = .ok e := h
      obtain ⟨pt, hpt, h⟩ := Res.bind_eq_ok.1 h
      have hs : pt = .schema :=
        Res.ok.inj (hpt.symm.trans ((type_iff (s := "schema") (t := .schema) (by decide)).2 hns))
      rw [if_pos hs] at h
      unfold parseGlobalAttribute at h
      rw [show attrRef (placeOf U c root []).node = some r from hr'] at h
      obtain rfl := Res.ok.inj h
      exact .inr ⟨hnotag (by rw [ht]; decide) (by rw [ht]; decide), .inl fun _ h => nomatch h⟩
  · rw [parseNode_tag (s := "notation") (t := .notation) (by decide) ht] at h
    cases h

/-! ## Inline types do not matter -/

section
variable {look : Str → List StructField → Prop}

theorem flat_append {a b c : List StructField} (h : FlatFields look (a ++ b) c) :
    ∃ a' b', c = a' ++ b' ∧ FlatFields look a a' ∧ FlatFields look b b' := by
  induction a generalizing c with
  | nil => exact ⟨[], c, rfl, .nil, h⟩
  | cons f a ih =>
    cases h with
    | cons h1 h2 =>
      obtain ⟨a', b', rfl, h3, h4⟩ := ih h2
      exact ⟨_ :: a', b', rfl, .cons h1 h3, h4⟩

theorem flat_attrs {n : Node} {a b : List StructField} (ha : AttrFields n a) (h : FlatFields look a b) : b = a := by
  have hs : ∀ f ∈ a, f.subtypes = [] := by
    intro f hf
    obtain ⟨c, -, hcf⟩ := forall₂_left ha f hf
    cases hcf with
    | «attribute» _ h => cases h <;> rfl
    | any => rfl
  clear ha
  induction a generalizing b with
  | nil => cases h; rfl
  | cons f a ih =>
    cases h with
    | cons h1 h2 =>
      obtain rfl := ih h2 fun f hf => hs f (List.mem_cons_of_mem _ hf)
      have := hs _ List.mem_cons_self
      cases this
      cases h1
      rfl

theorem flat_marker {d : Node} {base : Str} {b : List StructField} (h : FlatFields look [baseMarker d base] b) :
    b = [baseMarker d base] := by
  cases h with
  | cons h1 h2 =>
    cases h1
    cases h2
    rfl

theorem renamed_self {nm : Str} {e e' : RsEntity} (h : Renamed nm e e') : Renamed nm e' e' := by
  cases h <;> constructor

theorem flat_renamed {nm : Str} {e e' : RsEntity} {es : List RsEntity} (h : Renamed nm e e')
    (hf : FlatEntities look [e'] es) : ∃ e'', es = [e''] ∧ Renamed nm e'' e'' := by
  cases hf with
  | struct hs ht =>
    cases ht
    cases hs
    cases h
    exact ⟨_, rfl, .struct⟩
  | other _ ht =>
    cases ht
    exact ⟨_, rfl, renamed_self h⟩

theorem flat_sequence {owner : Str} {cs : List Node} {a b : List StructField}
    (ha : List.Forall₂ (MemberField anyType owner) cs a) (h : FlatFields look a b) :
    List.Forall₂ (MemberField anyType owner) cs b := by
  induction ha generalizing b with
  | nil => cases h; exact .nil
  | cons h1 _ ih =>
    cases h with
    | cons k1 k2 =>
      refine .cons ?_ (ih k2)
      cases h1 with
      | typed h1 h2 h3 h4 h5 => cases k1; exact .typed h1 h2 h3 h4 h5
      | ref h1 h2 h3 h4 h5 => cases k1; exact .ref h1 h2 h3 h4 h5
      | inline h1 h2 h3 h4 h5 _ h7 h8 h9 =>
        obtain ⟨e'', rfl, he⟩ := flat_renamed h7 k1
        exact .inline h1 h2 h3 h4 h5 trivial he h8 h9
      | any h1 h2 => cases k1; exact .any h1 h2
      | choice h1 h2 h3 =>
        cases k1 with
        | other _ k => cases k; exact .choice h1 h2 h3

theorem flat_own {owner : Str} {n : Node} {a b : List StructField} {gs : List Str} (ha : OwnFields owner n a gs)
    (h : FlatFields look a b) : OwnFields owner n b gs := by
  cases ha with
  | plain h1 h2 h3 => rw [flat_attrs h2 h]; exact .plain h1 h2 h3
  | sequence h1 h2 h3 h4 h5 =>
    obtain ⟨a', b', rfl, k1, k2⟩ := flat_append h
    rw [flat_attrs h5 k2]
    exact .sequence h1 h2 h3 (flat_sequence h4 k1) h5
  | simple h1 h2 h3 h4 h5 h6 h7 h8 h9 =>
    obtain ⟨a', b', rfl, k1, k2⟩ := flat_append h
    obtain ⟨a', b', rfl, k1, k3⟩ := flat_append k1
    rw [flat_attrs h9 k2, flat_attrs h7 k1, flat_marker k3]
    exact .simple h1 h2 h3 h4 h5 h6 h7 h8 h9
  | derived h1 h2 h3 h4 h5 h6 h7 h8 h9 h10 =>
    obtain ⟨a', b', rfl, k1, k2⟩ := flat_append h
    obtain ⟨a', b', rfl, k1, k3⟩ := flat_append k1
    rw [flat_attrs h10 k2, flat_attrs h7 k1, flat_marker k3]
    exact .derived h1 h2 h3 h4 h5 h6 h7 h8 h9 h10
  | derivedSequence h1 h2 h3 h4 h5 h6 h7 h8 h9 h10 h11 =>
    obtain ⟨a', b', rfl, k1, k2⟩ := flat_append h
    obtain ⟨a', b', rfl, k0, k3⟩ := flat_append k1
    obtain ⟨c', d', rfl, k3, k4⟩ := flat_append k3
    rw [flat_attrs h11 k2, flat_attrs h7 k3, flat_marker k4]
    exact .derivedSequence h1 h2 h3 h4 h5 h6 h7 h8 h9 (flat_sequence h10 k0) h11

end

/-! ## Files -/

theorem gathered_imp {P Q : Str → List StructField → Prop} {ns : List Str} {fs : List StructField}
    (h : Gathered P ns fs) (hpq : ∀ k l, P k l → Q k l) : Gathered Q ns fs := by
  obtain ⟨ls, h1, h2⟩ := h
  exact ⟨ls, h1.imp fun t l ⟨k, hk, hl⟩ => ⟨k, hk, hpq k l hl⟩, h2⟩

theorem forall₂_get {α β : Type _} {R : α → β → Prop} {as : List α} {bs : List β} (h : List.Forall₂ R as bs) {i : Nat}
    {b : β} (hb : bs[i]? = some b) : ∃ a, as[i]? = some a ∧ R a b := by
  induction h generalizing i with
  | nil => simp at hb
  | @cons a b' as bs hab _ ih =>
    cases i with
    | zero => exact ⟨a, rfl, by rw [List.getElem?_cons_zero] at hb; obtain rfl := Option.some.inj hb; exact hab⟩
    | succ i => rw [List.getElem?_cons_succ] at hb ⊢; exact ih hb

theorem forall₂_get' {α β : Type _} {R : α → β → Prop} {as : List α} {bs : List β} (h : List.Forall₂ R as bs) {i : Nat}
    {a : α} (ha : as[i]? = some a) : ∃ b, bs[i]? = some b ∧ R a b := by
  induction h generalizing i with
  | nil => simp at ha
  | @cons a' b as bs hab _ ih =>
    cases i with
    | zero => exact ⟨b, rfl, by rw [List.getElem?_cons_zero] at ha; obtain rfl := Option.some.inj ha; exact hab⟩
    | succ i => rw [List.getElem?_cons_succ] at ha ⊢; exact ih ha

theorem declares_like {root c n : Node} {nm : Str} (h : Declares root c nm n) : StructLike c := by
  obtain ⟨-, -, hb, -⟩ := h
  cases hb with
  | type h => exact .inl (is_of (s := "complexType") h (by decide))
  | element h1 h2 => exact .inr ⟨is_of (s := "element") h1 (by decide), h2⟩

theorem group_like {root c : Node} (h : c ∈ withTags root ["attributeGroup"]) : StructLike c :=
  .inl (is_of (s := "attributeGroup") (mem_withTags1.1 h).2 (by decide))

open Classical in
/-- The fields of the structs of a parsed file. -/
theorem parseFile_fields {U : UnicodeTable} {root : Node} {g : RsFile} (hg : Grammatical root) (hr : RegularSchema root)
    (h : parseFile U root = .ok g) : ∃ F : Node → List StructField, ∀ c nm n, Declares root c nm n →
      TypeFields root F c nm n (F c) ∧
      ∃ (i : Nat) (cm : Option Str) (ag : List RAlias), (globals root)[i]? = some c ∧
        g.types[i]? = some (.struct (.mk nm cm (F c) ag [])) := by
  obtain ⟨f, hf, h⟩ := parseFile_eq h
  obtain ⟨-, types, groups, h1, h2, rfl⟩ := schema_iff.1 hf
  obtain ⟨-, hlen, hgr, hext⟩ := Ext.extendFile_iff.1 h
  dsimp only at hlen hgr hext
  have hl1 : (globals root).length = types.length := h1.length_eq
  -- what is at a position
  have hat : ∀ i s, StructAt (types ++ groups) i s →
      (∃ c n, (globals root)[i]? = some c ∧ Declares root c s.name n ∧ s.subtypes = [] ∧
        OwnFields s.name n s.fields (s.attributeGroups.map RAlias.original)) ∨
      (∃ c cm, (globals root)[i]? = some c ∧ s = .mk s.name cm [] [] [] ∧ c.attr "name".toList = some s.name ∧
        StructLike c ∧ ∀ nm n, ¬ Declares root c nm n) ∨
      (types.length ≤ i ∧ ∃ c, (declarations root)[i]? = some c ∧ c ∈ withTags root ["attributeGroup"] ∧
        c.attr "name".toList = some s.name ∧ AttrFields c s.fields) := by
    intro i s hs
    by_cases hi : i < types.length
    · have hs' : types[i]? = some (.struct s) := by rw [← hs, List.getElem?_append_left hi]
      obtain ⟨c, hc, hp⟩ := forall₂_get h1 hs'
      rcases declares_or hg hr (List.mem_of_getElem? hc) hp with ⟨nm, n, cm, fs, ag, k1, k2, k3⟩ | ⟨k1, k2 | ⟨nm, cm, k2, k3, k4⟩⟩
      · cases k2
        exact .inl ⟨c, n, hc, k1, rfl, k3⟩
      · exact absurd rfl (k2 s)
      · cases k2
        exact .inr (.inl ⟨c, cm, hc, rfl, k3, k4, k1⟩)
    · have hi : types.length ≤ i := Nat.le_of_not_lt hi
      have hs' : groups[i - types.length]? = some (.struct s) := by rw [← hs, List.getElem?_append_right hi]
      obtain ⟨c, hc, hp⟩ := forall₂_get h2 hs'
      have hcm := List.mem_of_getElem? hc
      obtain ⟨-, nm, fs, k1, k2, k3⟩ := (globalGroup_iff (mem_withTags1.1 hcm).2 hg.schema).1 hp
      cases k3
      refine .inr (.inr ⟨hi, c, ?_, hcm, k1, k2⟩)
      unfold declarations
      rw [List.getElem?_append_right (by omega), hl1]
      exact hc
  have hdecl : ∀ {i : Nat} {c}, (globals root)[i]? = some c → (declarations root)[i]? = some c := by
    intro i c hc
    unfold declarations
    rw [List.getElem?_append_left]
    · exact hc
    · exact (List.getElem?_eq_some_iff.1 hc).1
  -- a declaration has a struct
  have hstruct : ∀ {i : Nat} {c nm n}, (globals root)[i]? = some c → Declares root c nm n →
      ∃ s, StructAt (types ++ groups) i s ∧ s.name = nm := by
    intro i c nm n hc hd
    obtain ⟨e, he, hp⟩ := forall₂_get' h1 hc
    have hi := (List.getElem?_eq_some_iff.1 he).1
    rcases declares_or hg hr (List.mem_of_getElem? hc) hp with ⟨nm', n', cm, fs, ag, k1, k2, k3⟩ | ⟨k1, -⟩
    · subst k2
      refine ⟨_, by unfold StructAt; rw [List.getElem?_append_left hi]; exact he, ?_⟩
      exact Option.some.inj (k1.2.1.symm.trans hd.2.1)
    · exact absurd hd (k1 nm n)
  have hpos : ∀ {c nm n}, Declares root c nm n → ∃ i : Nat, (globals root)[i]? = some c := fun hd =>
    List.getElem?_of_mem hd.1
  let F : Node → List StructField := fun c =>
    if hx : ∃ (s : RStruct) (i : Nat), (globals root)[i]? = some c ∧ g.types[i]? = some (.struct s) then hx.choose.fields else []
  have hF : ∀ {i : Nat} {c nm n s}, (globals root)[i]? = some c → Declares root c nm n → g.types[i]? = some (.struct s) →
      F c = s.fields := by
    intro i c nm n s hc hd hs
    have hx : ∃ (s : RStruct) (i : Nat), (globals root)[i]? = some c ∧ g.types[i]? = some (.struct s) := ⟨s, i, hc, hs⟩
    have he : F c = hx.choose.fields := dif_pos hx
    rw [he]
    obtain ⟨j, hj, hsj⟩ := hx.choose_spec
    have := hr.distinct i j c c nm (hdecl hc) (hdecl hj) (declares_like hd) (declares_like hd) hd.2.1 hd.2.1
    subst this
    rw [hs] at hsj
    injection hsj with hsj
    injection hsj with hsj
    rw [← hsj]
  -- what an earlier or later struct shows
  have hvis : ∀ {i : Nat} {c nm n s} {o : Option (List StructField)} {own : List StructField}, (globals root)[i]? = some c →
      Declares root c nm n → StructAt (types ++ groups) i s → (∀ fs, o = some fs → fs = own) →
      ∀ key l, Seen (types ++ groups) (g.types ++ g.attributeGroups) i o key l → Visible root F c own key l := by
    intro i c nm n s o own hc hd hs ho key l hl
    have hnone : ∀ j t, Resolves (types ++ groups) key j → StructAt (types ++ groups) j t → t.name = key := by
      rintro j t ⟨⟨s', k1, k2⟩, -⟩ ht
      cases Option.some.inj (k1.symm.trans ht)
      exact k2
    have hempty : ∀ (j : Nat) d, (globals root)[j]? = some d → d.attr "name".toList = some key → StructLike d →
        (∀ nm n, ¬ Declares root d nm n) → Visible root F c own key [] := by
      intro j d hd1 hd2 hd3 hd4
      refine .unknown ?_ ?_
      · rintro d' nm' n' hd' rfl
        obtain ⟨j', hj'⟩ := hpos hd'
        have := hr.distinct j j' d d' nm' (hdecl hd1) (hdecl hj') hd3 (declares_like hd') hd2 hd'.2.1
        subst this
        rw [hd1] at hj'
        obtain rfl := Option.some.inj hj'
        exact hd4 _ _ hd'
      · intro d' hd' hn'
        obtain ⟨j', hj'⟩ := List.getElem?_of_mem hd'
        have hj'' : (declarations root)[(globals root).length + j']? = some d' := by
          unfold declarations
          rw [List.getElem?_append_right (by omega)]
          simpa using hj'
        have := hr.distinct j _ d d' key (hdecl hd1) hj'' hd3 (group_like hd') hd2 hn'
        have := (List.getElem?_eq_some_iff.1 hd1).1
        omega
    cases hl with
    | unknown hu =>
      refine .unknown ?_ ?_
      · rintro d nm' n' hd' rfl
        obtain ⟨j, hj⟩ := hpos hd'
        obtain ⟨t, ht, hn⟩ := hstruct hj hd'
        exact hu j t ht hn
      · intro d hd' hn'
        obtain ⟨j, hj⟩ := List.getElem?_of_mem hd'
        obtain ⟨e, he, hp⟩ := forall₂_get' h2 hj
        obtain ⟨-, nm', fs, k1, k2, k3⟩ := (globalGroup_iff (mem_withTags1.1 hd').2 hg.schema).1 hp
        subst k3
        refine hu (types.length + j) (.mk nm' none fs [] []) ?_ ?_
        · unfold StructAt
          rw [List.getElem?_append_right (by omega)]
          simpa using he
        · exact Option.some.inj (k1.symm.trans hn')
    | self k1 k2 =>
      obtain rfl := ho _ k2
      have hk := hnone i s k1 hs
      obtain ⟨s', hs', hn'⟩ := hstruct hc hd
      cases Option.some.inj (hs.symm.trans hs')
      rw [hk] at hn'
      exact .self (hn' ▸ hd)
    | @earlier j s' k1 k2 k3 =>
      have hi := (List.getElem?_eq_some_iff.1 hc).1
      obtain ⟨t, ht, htn⟩ := k1.1
      have hjt : types[j]? = some (.struct t) := by rw [← ht, List.getElem?_append_left (by omega)]
      have hjg : g.types[j]? = some (.struct s') := by rw [← k3, List.getElem?_append_left (by omega)]
      rcases hat j t ht with ⟨d, m, q1, q2, -, q3⟩ | ⟨d, cm, q1, q2, q3, q4, q5⟩ | ⟨q1, -⟩
      · rw [htn] at q2
        rw [← hF q1 q2 hjg]
        exact .earlier q2 ⟨j, i, k2, q1, hc⟩
      · obtain ⟨s'', r1, r2⟩ := (hext j _ hjt).1 t rfl
        rw [hjg] at r1
        injection r1 with r1
        injection r1 with r1
        subst r1
        rw [q2] at r2
        have : s'.fields = [] := by
          cases r2 with
          | mk w1 w2 w3 w4 =>
            cases w1
            obtain ⟨ls, w2, rfl⟩ := w2
            obtain ⟨ls', w4, rfl⟩ := w4
            cases w2
            cases w4
            rfl
        rw [this]
        exact hempty j d q1 (htn ▸ q3) q4 q5
      · omega
    | @later j t k1 k2 k3 =>
      have htn := hnone j t k1 k3
      rcases hat j t k3 with ⟨d, m, q1, q2, -, q3⟩ | ⟨d, cm, q1, q2, q3, q4, q5⟩ | ⟨q1, d, q2, q3, q4, q5⟩
      · rw [htn] at q2 q3
        exact .later q2 ⟨i, j, k2, hc, q1⟩ q3
      · have : t.fields = [] := by rw [q2]; rfl
        rw [this]
        exact hempty j d q1 (htn ▸ q3) q4 q5
      · exact .group q3 (htn ▸ q4) q5
  refine ⟨F, fun c nm n hd => ?_⟩
  obtain ⟨i, hi⟩ := hpos hd
  obtain ⟨s, hs, hsn⟩ := hstruct hi hd
  have hit : types[i]? = some (.struct s) := by
    rw [← hs, List.getElem?_append_left]
    have := (List.getElem?_eq_some_iff.1 hi).1
    omega
  obtain ⟨s', hs', hx⟩ := (hext i _ hit).1 s rfl
  have hown : s.subtypes = [] ∧ OwnFields nm n s.fields (s.attributeGroups.map RAlias.original) := by
    rcases hat i s hs with ⟨d, m, q1, q2, q3, q4⟩ | ⟨d, cm, q1, q2, q3, q4, q5⟩ | ⟨q1, -⟩
    · rw [hi] at q1
      obtain rfl := Option.some.inj q1
      rw [hsn] at q2 q4
      have : m = n := by
        obtain ⟨-, -, b1, -⟩ := q2
        obtain ⟨-, -, b2, -⟩ := hd
        cases b1 with
        | type t1 =>
          cases b2 with
          | type => rfl
          | element t2 => rw [t1] at t2; exact absurd t2 (by decide)
        | element t1 _ u1 _ =>
          cases b2 with
          | type t2 => rw [t1] at t2; exact absurd t2 (by decide)
          | element _ _ u2 _ => exact Option.some.inj (u1.symm.trans u2)
      exact ⟨q3, this ▸ q4⟩
    · rw [hi] at q1
      obtain rfl := Option.some.inj q1
      exact absurd hd (q5 _ _)
    · have := (List.getElem?_eq_some_iff.1 hi).1
      omega
  have hFc := hF hi hd hs'
  rw [hFc]
  cases hx with
  | @mk n' cm fs ag sub own inh gs sub' w1 w2 w3 w4 =>
    have hsub : sub = [] := hown.1
    subst hsub
    cases w3
    have hsn : n' = nm := hsn
    subst hsn
    refine ⟨⟨own, _, inh, gs, flat_own hown.2 w1, gathered_imp w2 (hvis hi hd hs ?_), gathered_imp w4 (hvis hi hd hs ?_), rfl⟩,
      i, cm, ag, hi, hs'⟩
    · rintro fs h; exact (Option.some.inj h).symm
    · rintro fs h; exact (Option.some.inj h).symm

end Verif.Lemmas.Parse
