import Verif.Lemmas.SynParse
import Verif.Spec.WellNamed

/-! # The names in the entities of a file -/

namespace Verif.Lemmas.Syn

open Verif Verif.Model Verif.RoXml Verif.Spec Verif.Spec.Syn Verif.Lemmas.Parse

variable {K : Kinds}

theorem extendTop_name {map es i} {s s' : RStruct} (h : extendTop map es i s = .ok s') : s'.name = s.name := by
  obtain ⟨n, c, fs, ag, sub⟩ := s
  unfold extendTop at h
  obtain ⟨a, -, h⟩ := Res.bind_eq_ok.1 h
  obtain ⟨b, -, h⟩ := Res.bind_eq_ok.1 h
  dsimp only at h
  obtain ⟨d, -, h⟩ := Res.bind_eq_ok.1 h
  obtain ⟨g, -, h⟩ := Res.bind_eq_ok.1 h
  obtain rfl := Res.ok.inj h
  rfl

theorem extendAll_own {map : Str → Option Nat} : ∀ {k i : Nat} {es es' : List RsEntity},
    (∀ e ∈ es, Own K e) → extendAll map es i k = .ok es' → ∀ e ∈ es', Own K e
  | 0, i, es, es', he, h => by rw [extendAll] at h; obtain rfl := Res.ok.inj h; exact he
  | k + 1, i, es, es', he, h => by
    unfold extendAll at h
    split at h
    · rename_i s hs
      obtain ⟨s', hs', h⟩ := Res.bind_eq_ok.1 h
      refine extendAll_own ?_ h
      intro e hmem
      rcases List.mem_or_eq_of_mem_set hmem with hmem | rfl
      · exact he e hmem
      · have := he _ (List.mem_of_getElem? hs)
        show K.D s'.name
        rw [extendTop_name hs']
        exact this
    · exact extendAll_own he h

theorem own_deep : ∀ {e : RsEntity}, Deep (Inn K) e → Own K e → Deep (fun e => Inn K e ∧ Own K e) e
  | _, .mk h hs, hi => .mk ⟨h, hi⟩ fun x hx => own_deep (hs x hx) (h.2 x hx)

theorem setNameIf_some {nm : Str} {e : RsEntity} : setNameIf (some nm) e = e.setName nm := rfl

/-- The names of the global declarations. -/
theorem global_own {U : UnicodeTable} {root c : Node} {e : RsEntity} (hg : Grammatical root) (S : Supplies U (PartOf root) K)
    (hr : ∀ c r, c ∈ Spec.members root → c.tag = "attribute".toList → c.attr "ref".toList = some r → K.D r)
    (hc : c ∈ Spec.members root) (h : parseNode U c root [] = .ok e) : Own K e := by
  have hcp : PartOf root c := .child .root hc
  have hrf : NotFacet root := notFacet_of (s := "schema") (by decide) hg.schema
  have ha1 : ∀ a ∈ root :: ([] : List Node), NotFacet a := fun a ha => by
    obtain rfl := List.mem_singleton.1 ha; exact hrf
  have hpt : ∀ {pt}, (placeOf U c root []).parentType = .ok pt → pt = .schema := fun hpt =>
    Res.ok.inj (hpt.symm.trans ((type_iff (s := "schema") (t := .schema) (by decide)).2 hg.schema))
  have htag := hg.rows _ List.mem_cons_self root c .root hg.schema hc
  have htag : ∃ s ∈ (["include", "import", "redefine", "simpleType", "complexType", "group", "attributeGroup", "element",
      "attribute", "notation"] : List String), c.tag = s.toList := by
    obtain ⟨s, hs, e⟩ := List.mem_map.1 htag
    exact ⟨s, hs, e.symm⟩
  obtain ⟨s, hs, ht⟩ := htag
  simp only [List.mem_cons, List.not_mem_nil, or_false] at hs
  rcases hs with rfl | rfl | rfl | rfl | rfl | rfl | rfl | rfl | rfl | rfl
  · rw [parseNode_tag (s := "include") (t := .include) (by decide) ht] at h
    obtain rfl := Res.ok.inj h
    trivial
  · rw [parseNode_tag (s := "import") (t := .import) (by decide) ht] at h
    obtain rfl := Res.ok.inj h
    trivial
  · rw [parseNode_tag (s := "redefine") (t := .redefine) (by decide) ht] at h
    cases h
  · rw [parseNode_tag (s := "simpleType") (t := .simpleType) (by decide) ht] at h
    have h : parseSimpleType _ = .ok e := h
    obtain ⟨pt, hp, h⟩ := Res.bind_eq_ok.1 h
    obtain rfl := hpt hp
    split at h
    · cases h
    · rename_i hno
      obtain ⟨o, -, h⟩ := Res.bind_eq_ok.1 h
      obtain ⟨k, -, h⟩ := Res.bind_eq_ok.1 h
      obtain ⟨x, -, h⟩ := Res.bind_eq_ok.1 h
      obtain rfl := Res.ok.inj h
      refine own_setComment ?_
      cases hn : attrName (placeOf U c root []).node with
      | none => rw [hn] at hno; exact absurd (by decide) hno
      | some nm => exact own_setName (S.name hcp hn).1 x
  · obtain ⟨nm, hnm, hsh⟩ := complex_shape hg hcp ht ha1 h
    have hnm : Owner K nm := by
      cases hnm with
      | global _ h => exact S.name hcp h
      | inline h => exact absurd hg.schema h
    rcases hsh with ⟨-, cm, fs, ag, sub, rfl⟩ | ⟨-, cs, cm, t, src, cm', fs, ag, rfl⟩
    · exact hnm.1
    · exact hnm.2.1
  · rw [parseNode_tag (s := "group") (t := .group) (by decide) ht] at h
    cases h
  · rw [parseNode_tag (s := "attributeGroup") (t := .attributeGroup) (by decide) ht] at h
    have h : parseAttributeGroup _ = .ok e := h
    obtain ⟨pt, hp, h⟩ := Res.bind_eq_ok.1 h
    obtain rfl := hpt hp
    rw [if_pos rfl] at h
    obtain ⟨nm, hnm, h⟩ := Res.bind_eq_ok.1 h
    obtain ⟨fs, -, h⟩ := Res.bind_eq_ok.1 h
    obtain rfl := Res.ok.inj h
    exact (S.name hcp (unwrap_ok.1 hnm)).1
  · rw [parseNode_tag (s := "element") (t := .element) (by decide) ht] at h
    have h : parseElement _ = .ok e := h
    obtain ⟨pt, hp, h⟩ := Res.bind_eq_ok.1 h
    obtain rfl := hpt hp
    have h : parseGlobalElement _ = .ok e := h
    obtain ⟨nm, hnm, h⟩ := Res.bind_eq_ok.1 h
    have hnm := (S.name hcp (unwrap_ok.1 hnm)).1
    cases hty : attrType (placeOf U c root []).node with
    | some t => rw [hty] at h; obtain rfl := Res.ok.inj h; exact hnm
    | none =>
      rw [hty] at h
      obtain ⟨o, -, h⟩ := Res.bind_eq_ok.1 h
      cases o with
      | some k => obtain ⟨x, -, h⟩ := Res.bind_eq_ok.1 h; obtain rfl := Res.ok.inj h; exact own_setName hnm x
      | none => obtain rfl := Res.ok.inj h; exact hnm
  · rw [parseNode_tag (s := "attribute") (t := .attribute) (by decide) ht] at h
    have h : parseAttribute _ = .ok e := h
    obtain ⟨pt, hp, h⟩ := Res.bind_eq_ok.1 h
    obtain rfl := hpt hp
    rw [if_pos rfl] at h
    unfold parseGlobalAttribute at h
    cases hrf : attrRef (placeOf U c root []).node with
    | some r => rw [hrf] at h; obtain rfl := Res.ok.inj h; exact hr c r hc ht hrf
    | none =>
      rw [hrf] at h
      obtain ⟨nm, hnm, h⟩ := Res.bind_eq_ok.1 h
      have hnm := (S.name hcp (unwrap_ok.1 hnm)).1
      cases hty : attrType (placeOf U c root []).node with
      | some t => rw [hty] at h; obtain rfl := Res.ok.inj h; exact hnm
      | none =>
        rw [hty] at h
        obtain ⟨o, -, h⟩ := Res.bind_eq_ok.1 h
        cases o with
        | some k => obtain ⟨x, -, h⟩ := Res.bind_eq_ok.1 h; obtain rfl := Res.ok.inj h; exact own_setName hnm x
        | none => obtain rfl := Res.ok.inj h; exact hnm
  · rw [parseNode_tag (s := "notation") (t := .notation) (by decide) ht] at h
    cases h

/-- The names in a parsed file. -/
theorem parseFile_names {U : UnicodeTable} {root : Node} {g : RsFile} (hg : Grammatical root) (S : Supplies U (PartOf root) K)
    (hr : ∀ c r, c ∈ Spec.members root → c.tag = "attribute".toList → c.attr "ref".toList = some r → K.D r)
    (h : parseFile U root = .ok g) : ∀ x ∈ generatedList g.types, Inn K x ∧ Own K x := by
  obtain ⟨f, hf, h⟩ := parseFile_eq h
  obtain ⟨-, types, groups, h1, h2, rfl⟩ := schema_iff.1 hf
  have hitem : ∀ c ∈ Spec.members root, ∀ e, parseNode U c root [] = .ok e → Good K e := fun c hc e he =>
    ⟨(parseNode_inn S (.child .root hc) .root (fun a ha => absurd ha List.not_mem_nil) he).1, global_own hg S hr hc he⟩
  have ht : ∀ e ∈ types, Good K e := fun e he => by
    obtain ⟨c, hc, hce⟩ := forall₂_left h1 e he
    exact hitem c (List.mem_filter.1 hc).1 e hce
  have ha : ∀ e ∈ groups, Good K e := fun e he => by
    obtain ⟨c, hc, hce⟩ := forall₂_left h2 e he
    obtain ⟨h1, h2⟩ := mem_withTags1.1 hc
    exact hitem c (member_of_tag h1 h2 (by decide) (by decide)) e hce
  have hd := (extendFile_deep fieldwise_inn (fun e he => (ht e he).1) (fun e he => (ha e he).1) h).1
  refine Deep.generatedList fun e he => own_deep (hd e he) ?_
  obtain ⟨es, hes, h⟩ := Res.bind_eq_ok.1 h
  obtain rfl := Res.ok.inj h
  exact extendAll_own (fun e he => (List.mem_append.1 he).elim (fun h => (ht e h).2) (fun h => (ha e h).2)) hes e
    (List.mem_of_mem_take he)

end Verif.Lemmas.Syn
