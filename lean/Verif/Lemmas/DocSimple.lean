import Verif.Lemmas.DocFields

/-! # The entities for the global simple types of a document -/

namespace Verif.Lemmas.Parse

open Verif Verif.Model Verif.RoXml Verif.Spec

/-- What the parser returns for a global declaration is in the file, unless it is a struct, which may get more fields. -/
theorem parseFile_global {U : UnicodeTable} {root c : Node} {g : RsFile} (h : parseFile U root = .ok g)
    (hc : c ∈ globals root) : ∃ e, parseNode U c root [] = .ok e ∧ ((∀ s, e ≠ .struct s) → e ∈ g.types) := by
  obtain ⟨f, hf, h⟩ := parseFile_eq h
  obtain ⟨-, types, groups, h1, -, rfl⟩ := schema_iff.1 hf
  obtain ⟨i, hi, rfl⟩ := List.mem_iff_getElem.1 hc
  have hl := h1.length_eq
  refine ⟨types[i]'(hl ▸ hi), (List.forall₂_iff_get.1 h1).2 i hi (hl ▸ hi), fun hs => ?_⟩
  have := ((Ext.extendFile_iff.1 h).2.2.2 i (types[i]'(hl ▸ hi)) (List.getElem?_eq_getElem _)).2 hs
  exact List.mem_of_getElem? this

theorem mem_origins {mn : Str → Str} {doc : Option Str → Bool} {e : RsEntity} : ∀ {es : List RsEntity}, e ∈ es →
    ∀ x ∈ originsOf mn doc e, x ∈ originsList mn doc es
  | [], h => absurd h List.not_mem_nil
  | a :: es, h => fun x hx => by
    rw [originsList]
    rcases List.mem_cons.1 h with rfl | h
    · exact List.mem_append_left _ hx
    · exact List.mem_append_right _ (mem_origins h x hx)

/-- A global simple type with a restriction. -/
theorem global_restriction {U : UnicodeTable} {root c r : Node} {g : RsFile} {nm base : Str} {fs : List Facet}
    (hg : Grammatical root) (h : parseFile U root = .ok g) (hc : c ∈ globals root) (ht : c.tag = "simpleType".toList)
    (hn : c.attr "name".toList = some nm) (hr : (members c).getLast? = some r) (hrt : r.tag = "restriction".toList)
    (hb : r.attr "base".toList = some base) (hf : FacetsOf r.tag r.children fs) :
    (enumValues fs ≠ [] ∧ (∀ v ∈ enumValues fs, SimpleValue U v.1) ∧
      RsEntity.enum (.mk nm ((enumValues fs).map fun v => ⟨v.1, v.2, v.1, none, [], .restriction⟩) (docOf c) base []
        .restriction) ∈ g.types) ∨
    ((enumValues fs = [] ∨ ∃ v ∈ enumValues fs, ¬ SimpleValue U v.1) ∧
      RsEntity.tupleStruct (.mk nm (docOf c) base [] [] fs) ∈ g.types) := by
  obtain ⟨e, he, hin⟩ := parseFile_global h hc
  have hrf : NotFacet root := notFacet_of (s := "schema") (by decide) hg.schema
  have hcf : NotFacet c := notFacet_of (s := "simpleType") (by decide) ht
  obtain ⟨-, -, r', x, y, hr', hx, hy, hd⟩ := (simpleType_iff ht hrf).1 he
  obtain rfl := Option.some.inj (hr.symm.trans hr')
  have ha : ∀ a ∈ c :: [root], NotFacet a := by
    intro a ha
    rcases List.mem_cons.1 ha with rfl | ha
    · exact hcf
    · obtain rfl := List.mem_singleton.1 ha; exact hrf
  obtain ⟨base', fs', hb', hf', hres⟩ := (restriction_iff hrt ht ha).1 hx
  obtain rfl := Option.some.inj (hb.symm.trans hb')
  obtain rfl : fs = fs' := ((facetsOf_iff U r c [root]).1 hf).2.trans ((facetsOf_iff U r c [root]).1 hf').2.symm
  rw [hn] at hy
  cases hy with
  | some hy =>
    obtain rfl := renamed_iff.1 hy
    obtain rfl := redocumented_iff.1 hd
    cases hres with
    | enum h1 h2 _ => exact .inl ⟨h1, h2, hin fun _ h => nomatch h⟩
    | wrapper h1 => exact .inr ⟨h1, hin fun _ h => nomatch h⟩

/-- A global simple type which is a list. -/
theorem global_list {U : UnicodeTable} {root c r : Node} {g : RsFile} {nm t : Str}
    (hg : Grammatical root) (h : parseFile U root = .ok g) (hc : c ∈ globals root) (ht : c.tag = "simpleType".toList)
    (hn : c.attr "name".toList = some nm) (hr : (members c).getLast? = some r) (hrt : r.tag = "list".toList)
    (hi : r.attr "itemType".toList = some t) :
    RsEntity.tupleStruct (.mk nm (docOf c) t [] [.array] []) ∈ g.types := by
  obtain ⟨e, he, hin⟩ := parseFile_global h hc
  have hrf : NotFacet root := notFacet_of (s := "schema") (by decide) hg.schema
  obtain ⟨-, -, r', x, y, hr', hx, hy, hd⟩ := (simpleType_iff ht hrf).1 he
  obtain rfl := Option.some.inj (hr.symm.trans hr')
  rcases (list_iff hrt).1 hx with ⟨t', hi', rfl⟩ | ⟨hi', -⟩
  · obtain rfl := Option.some.inj (hi.symm.trans hi')
    rw [hn] at hy
    cases hy with
    | some hy =>
      obtain rfl := renamed_iff.1 hy
      obtain rfl := redocumented_iff.1 hd
      exact hin fun _ h => nomatch h
  · rw [hi] at hi'; cases hi'

/-- A global simple type which is a union. -/
theorem global_union {U : UnicodeTable} {root c r : Node} {g : RsFile} {nm : Str}
    (hg : Grammatical root) (h : parseFile U root = .ok g) (hc : c ∈ globals root) (ht : c.tag = "simpleType".toList)
    (hn : c.attr "name".toList = some nm) (hr : (members c).getLast? = some r) (hrt : r.tag = "union".toList) :
    ∃ ws subs, MemberTypes r ws ∧ subs.length = (withTags r ["simpleType"]).length ∧
      RsEntity.enum (.mk nm (unionCasesOf ws subs.length) (docOf c) "String".toList subs .union) ∈ g.types := by
  obtain ⟨e, he, hin⟩ := parseFile_global h hc
  have hrf : NotFacet root := notFacet_of (s := "schema") (by decide) hg.schema
  obtain ⟨-, -, r', x, y, hr', hx, hy, hd⟩ := (simpleType_iff ht hrf).1 he
  obtain rfl := Option.some.inj (hr.symm.trans hr')
  have hcp : PartOf root c := .child .root (List.mem_filter.1 hc).1
  have hrp : PartOf root r := .child hcp (List.mem_of_getLast? hr)
  have hattr : withTags r ["attribute", "anyAttribute"] = [] := by
    refine List.eq_nil_iff_forall_not_mem.2 fun x hx => ?_
    obtain ⟨h1, h2⟩ := mem_withTags2.1 hx
    have hm : x ∈ members r := by
      rcases h2 with h2 | h2
      · exact member_of_tag h1 h2 (by decide) (by decide)
      · exact member_of_tag h1 h2 (by decide) (by decide)
    have := hg.rows ("union", ["simpleType"]) (by decide) r x hrp hrt hm
    rcases h2 with h2 | h2 <;> rw [h2] at this <;> exact absurd this (by decide)
  obtain ⟨-, ws, subs, h1, h2, rfl⟩ := (union_iff hrt hattr).1 hx
  refine ⟨ws, subs, h1, ?_, ?_⟩
  · rw [← h2.length_eq, List.length_zipIdx]
  · rw [hn] at hy
    cases hy with
    | some hy =>
      obtain rfl := renamed_iff.1 hy
      obtain rfl := redocumented_iff.1 hd
      exact hin fun _ h => nomatch h

end Verif.Lemmas.Parse
