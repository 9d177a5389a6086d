import Verif.Spec.XmlMembers
import Verif.Lemmas.XmlNames
import Verif.Lemmas.FieldsUnique
import Verif.Lemmas.TotalExt

/-! # Where the members of structs come from -/

namespace Verif.Lemmas.Xml

open Verif Verif.Model Verif.Spec Verif.RoXml Verif.Lemmas.Parse

theorem declares_part {root c n : Node} {nm : Str} (h : Declares root c nm n) : PartOf root c ∧ PartOf root n := by
  have hcp : PartOf root c := .child .root (List.mem_filter.1 h.1).1
  refine ⟨hcp, ?_⟩
  cases h.2.2.1 with
  | type => exact hcp
  | element _ _ hi _ => exact .child hcp (inline_mem hi).1

theorem attrs_from {root n : Node} {fs : List StructField} (hn : PartOf root n) (h : AttrFields n fs) :
    ∀ f ∈ fs, ∃ e, ComesFrom root f e := by
  intro f hf
  obtain ⟨c, hc, hm⟩ := forall₂_left h f hf
  obtain ⟨hc1, hc2⟩ := mem_withTags2.1 hc
  have hcp : PartOf root c := by
    rcases hc2 with hc2 | hc2
    · exact .child hn (member_of_tag hc1 hc2 (by decide) (by decide))
    · exact .child hn (member_of_tag hc1 hc2 (by decide) (by decide))
  exact ⟨c, .attribute hcp hm⟩

theorem sequence_from {root c n s : Node} {nm : Str} {fs : List StructField} (hc : Declares root c nm n) (hs : PartOf n s)
    (ht : Is s ["sequence", "all"]) (h : SequenceFields nm s fs) : ∀ f ∈ fs, ∃ e, ComesFrom root f e := by
  intro f hf
  obtain ⟨e, he, hm⟩ := forall₂_left h f hf
  exact ⟨e, .member hc hs ht he hm⟩

theorem own_from {root c n : Node} {nm : Str} {fs : List StructField} {gs : List Str} (hc : Declares root c nm n)
    (h : OwnFields nm n fs gs) : ∀ f ∈ fs, ∃ e, ComesFrom root f e := by
  have hn := (declares_part hc).2
  have der : ∀ {s d}, (withTags n contentTags).getLast? = some s → (members s).getLast? = some d → PartOf n d :=
    fun h1 h2 => .child (.child .root (mem_contentTags h1).1) (List.mem_of_getLast? h2)
  have both : ∀ {a b : List StructField}, (∀ f ∈ a, ∃ e, ComesFrom root f e) → (∀ f ∈ b, ∃ e, ComesFrom root f e) →
      ∀ f ∈ a ++ b, ∃ e, ComesFrom root f e := fun h1 h2 f hf => (List.mem_append.1 hf).elim (h1 f) (h2 f)
  have mark : ∀ {d base}, PartOf n d → ∀ f ∈ [baseMarker d base], ∃ e, ComesFrom root f e := fun hd f hf =>
    ⟨_, .marker (PartOf.trans hn hd) (List.mem_singleton.1 hf)⟩
  cases h with
  | plain _ h2 => exact attrs_from hn h2
  | sequence h1 h2 _ h4 h5 =>
    exact both (sequence_from hc (.child .root (mem_contentTags h1).1) h2 h4) (attrs_from hn h5)
  | simple h1 _ _ h4 _ _ h7 _ h9 => exact both (both (attrs_from (PartOf.trans hn (der h1 h4)) h7) (mark (der h1 h4))) (attrs_from hn h9)
  | derived h1 _ _ h4 _ _ h7 _ _ h9 => exact both (both (attrs_from (PartOf.trans hn (der h1 h4)) h7) (mark (der h1 h4))) (attrs_from hn h9)
  | @derivedSequence s d q base fs attrs attrs' h1 _ _ h4 h5 _ h7 h8 h9 h10 h11 =>
    refine both (both (sequence_from hc (.child (der h1 h4) ?_) h9 h10)
      (both (attrs_from (PartOf.trans hn (der h1 h4)) h7) (mark (der h1 h4)))) (attrs_from hn h11)
    obtain ⟨q1, q2⟩ := List.mem_filter.1 (List.mem_of_getLast? h8)
    have tag : q.tag = "sequence".toList ∨ q.tag = "all".toList := by
      rcases List.mem_cons.1 h9 with e | e
      · exact .inl e
      · exact .inr (List.mem_singleton.1 e)
    rcases tag with e | e <;> exact member_of_tag q1 e (by decide) (by decide)

theorem gathered_from {root : Node} {look : Str → List StructField → Prop} {ns : List Str} {fs : List StructField}
    (hl : ∀ k l, look k l → ∀ f ∈ l, ∃ e, ComesFrom root f e) (h : Gathered look ns fs) : ∀ f ∈ fs, ∃ e, ComesFrom root f e := by
  obtain ⟨ls, h, rfl⟩ := h
  intro f hf
  obtain ⟨l, hl', hf⟩ := List.mem_flatten.1 hf
  obtain ⟨t, -, k, -, hk⟩ := forall₂_left h l hl'
  exact hl k l hk f hf

theorem visible_from {root c : Node} {F : Node → List StructField} {own : List StructField} {key : Str} {l : List StructField}
    (ho : ∀ f ∈ own, ∃ e, ComesFrom root f e)
    (hF : ∀ d nm n, Declares root d nm n → Before root d c → ∀ f ∈ F d, ∃ e, ComesFrom root f e)
    (h : Visible root F c own key l) : ∀ f ∈ l, ∃ e, ComesFrom root f e := by
  cases h with
  | unknown => exact fun f hf => nomatch hf
  | self => exact ho
  | earlier h1 h2 => exact hF _ _ _ h1 h2
  | later h1 _ h3 => exact own_from h1 h3
  | group h1 _ h3 =>
    obtain ⟨m1, m2⟩ := mem_withTags1.1 h1
    exact attrs_from (.child .root (member_of_tag m1 m2 (by decide) (by decide))) h3

/-- Every field comes from a part of the schema. -/
theorem typeFields_from {root : Node} {F : Node → List StructField} (hr : RegularSchema root)
    (h : ∀ c nm n, Declares root c nm n → TypeFields root F c nm n (F c)) {c n : Node} {nm : Str}
    (hc : Declares root c nm n) : ∀ f ∈ F c, ∃ e, ComesFrom root f e := by
  obtain ⟨i, hi⟩ := List.getElem?_of_mem hc.1
  induction i using Nat.strong_induction_on generalizing c nm n with
  | _ i ih =>
    obtain ⟨own, gs, inh, grp, h1, h2, h3, h4⟩ := h c nm n hc
    have hF : ∀ d nm n, Declares root d nm n → Before root d c → ∀ f ∈ F d, ∃ e, ComesFrom root f e := by
      rintro d nm' m hd ⟨j, i', hj, hd', hi'⟩
      have := declares_index hr hi hi' hc hc
      exact ih j (by omega) hd hd'
    have ho := own_from hc h1
    have hinh := gathered_from (fun k l => visible_from ho hF) h2
    have hin : ∀ f ∈ inherit own inh, ∃ e, ComesFrom root f e := by
      intro f hf
      rcases List.mem_append.1 hf with hf | hf
      · exact ho f (List.mem_filter.1 hf).1
      · exact hinh f (List.mem_filter.1 hf).1
    have hgrp := gathered_from (fun k l => visible_from hin hF) h3
    rw [h4]
    intro f hf
    exact (List.mem_append.1 hf).elim (hin f) (hgrp f)

end Verif.Lemmas.Xml
