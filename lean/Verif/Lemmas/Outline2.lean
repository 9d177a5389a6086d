import Verif.Lemmas.Outline

/-! # The outline of generated code: the entities -/

namespace Verif.Lemmas.Gen

open Verif Verif.Model Verif.Spec Inflector

attribute [local irreducible] genBoundValidation genLenValidation structText enumText genField genCase

variable {g : GenCtx}

theorem oseg_shift {t : Str} {ms : List Mark} (h : OSeg t ms) (n : Nat) :
    OSeg (shift t (List.replicate n ' ') ++ ['\n']) ms := by
  obtain ⟨ls, rfl, hn, rfl⟩ := h
  generalize ht : ls.flatMap (· ++ ['\n']) = t
  have hl : lns t = ls ++ [[]] := by
    have := lns_lined hn []
    rw [List.append_nil, ht] at this
    rw [this]; rfl
  refine ⟨lns (shift t (List.replicate n ' ')), (lines_eq _).symm, splitOn_not_mem, ?_⟩
  obtain ⟨h1, h2⟩ := shift_lines t n
  have hf : ∀ xs : List Str, (xs.filter (· ≠ [])).filterMap readMark = xs.filterMap readMark := by
    intro xs
    induction xs with
    | nil => rfl
    | cons x xs ih =>
      by_cases hx : x = []
      · subst hx; rw [List.filter_cons_of_neg (by simp), ih]; rfl
      · rw [List.filter_cons_of_pos (by simpa using hx), List.filterMap_cons, List.filterMap_cons, ih]
  have hm : ∀ xs : List Str, (xs.map (List.replicate n ' ' ++ ·)).filterMap readMark = xs.filterMap readMark := by
    intro xs
    rw [List.filterMap_map]
    congr 1
    funext l; exact readMark_spaces n l
  cases hsh : lns (shift t (List.replicate n ' ')) with
  | nil => rw [hsh] at h1; cases h1
  | cons x xs =>
    rw [hsh] at h1 h2
    cases h1
    have e0 : readMark (List.replicate n ' ') = none := by
      have := readMark_spaces n []
      rw [List.append_nil] at this; rw [this]; rfl
    rw [List.filterMap_cons, e0]
    dsimp only
    rw [← hf xs, show xs.filter (· ≠ []) = _ from h2, hm, hf, hl, List.filterMap_append]
    show _ ++ [] = _
    rw [List.append_nil]

/-- `use super::*;` before the first line. -/
theorem oseg_useSuper {b : Str} {ms : List Mark} (hb : OSeg b ms) (hs : b = [] ∨ Starts b) :
    OSeg (List.replicate 4 ' ' ++ ("use super::*;".toList ++ (b ++ ['\n']))) ms := by
  obtain ⟨ls, rfl, hn, rfl⟩ := hb
  have htr : ∀ l : Str, (l.head? ≠ some ' ') → trimLine (List.replicate 4 ' ' ++ ("use super::*;".toList ++ l)) = l := by
    intro l hl
    have h0 : ("use super::*;".toList ++ l).dropWhile (· = ' ') = "use super::*;".toList ++ l :=
      dropSpaces_of_head (by simp)
    rw [trimLine_spaces, trimLine, h0, afterPrefix_append, Option.getD_some, dropSpaces_of_head hl]
  cases ls with
  | nil =>
    exact oseg_silent (l := List.replicate 4 ' ' ++ "use super::*;".toList) (by decide) (by decide +kernel) (by simp)
  | cons l ls =>
    have hhead : l.head? = some '/' ∨ l.head? = some '#' := by
      rcases hs with h | h
      · simp at h
      · cases l with
        | nil => rcases h with h | h <;> simp at h
        | cons c l =>
          rcases h with h | h <;> simp only [List.flatMap_cons, List.cons_append, List.head?_cons] at h
          · left; exact h
          · right; exact h
    have hsp : l.head? ≠ some ' ' := by rcases hhead with h | h <;> rw [h] <;> decide
    have hu : l.head? ≠ some 'u' := by rcases hhead with h | h <;> rw [h] <;> decide
    have hr : readMark (List.replicate 4 ' ' ++ ("use super::*;".toList ++ l)) = readMark l := by
      rw [readMark, htr l hsp, readMark, trimLine_of_head hsp hu]
    refine ⟨(List.replicate 4 ' ' ++ ("use super::*;".toList ++ l)) :: (ls ++ [[]]), ?_, ?_, ?_⟩
    · simp only [List.flatMap_cons, List.flatMap_append, List.append_assoc, List.cons_append, List.nil_append, List.flatMap_nil]
    · intro m hm
      simp only [List.mem_cons, List.mem_append, List.not_mem_nil, or_false] at hm
      rcases hm with rfl | hm | rfl
      · exact nl_append (by decide) (nl_append (by decide) (hn l (by simp)))
      · exact hn m (by simp [hm])
      · simp
    · have e0 : readMark ([] : Str) = none := rfl
      rw [List.filterMap_cons, List.filterMap_cons, hr, List.filterMap_append, List.filterMap_cons, e0, List.filterMap_nil,
        List.append_nil]

theorem oseg_structSubtypes {n a b : Str} {ma mb : List Mark} (ha : OSeg a ma) (hb : OSeg b mb) (hs : b = [] ∨ Starts b) :
    OSeg (structSubtypes g n a b ++ ['\n']) (if a ≠ [] ∨ b ≠ [] then .item .mod (g.name n) :: (mb ++ ma) else []) := by
  delta structSubtypes
  by_cases h : a ≠ [] ∨ b ≠ []
  · simp only [if_pos h]
    have hm : WordText (g.name n) := (name_nameText g.U n).word
    have h1 : OSeg ("pub mod ".toList ++ (g.name n ++ ' ' :: ['{']) ++ ['\n']) [.item .mod (g.name n)] :=
      oseg_mark (nl_append (by decide) (nl_append hm.nl (by decide)))
        (readMark_head (n := 0) (s := "ub mod ".toList ++ (g.name n ++ ' ' :: ['{'])) rfl (readHead_mod hm.sp _)) rfl
    have h4 : OSeg ("}".toList ++ ['\n']) [] := oseg_silent (by decide) (by decide +kernel) rfl
    have h := oseg_empty.none_app (h1.app ((oseg_useSuper hb hs).app ((oseg_shift ha 4).app_none (h4.none_app oseg_empty))))
    simp only [List.append_assoc, List.cons_append, List.nil_append] at h ⊢
    exact h
  · simp only [if_neg h]
    simp only [not_or, not_not] at h
    obtain ⟨rfl, rfl⟩ := h
    exact oseg_empty.none_app oseg_empty

theorem oseg_struct {n : Str} {c : Option Str} {fs : List StructField} (hn : PrefixSafe n) (hf : ∀ f ∈ fs, FieldSafe f)
    (ht : SafeNamespace g.targetNs) :
    OSeg (GenCtx.formatComment c 0 ++ (structMacros g ++
        ("pub struct ".toList ++ (g.typeName n ++ (" {".toList ++ (genFields g n fs ++ "}\n".toList))))))
      (docMarks 0 c ++ .item .struct (g.typeName n) ::
        memberMarks (docMarks 4) (·.comment) (fun f => g.name f.name) (written fs)) := by
  have hw := typeName_word g hn
  refine (oseg_comment c 0).app ((oseg_structMacros ht).none_app ?_)
  rcases oseg_genFields (n := n) hf ht with ⟨h1, h2⟩ | ⟨u, h1, h2⟩
  · rw [h1, h2]
    refine oseg_cast (oseg_mark (l := "pub struct ".toList ++ (g.typeName n ++ ' ' :: "{}".toList))
      (nl_append (by decide) (nl_append hw.nl (by decide)))
      (readMark_head (n := 0) (s := "ub struct ".toList ++ (g.typeName n ++ ' ' :: "{}".toList)) rfl (readHead_struct hw.sp _)) rfl) ?_
    simp only [List.append_assoc, List.cons_append, List.nil_append]
    rfl
  · rw [h1]
    have h3 : OSeg ("pub struct ".toList ++ (g.typeName n ++ ' ' :: "{".toList) ++ ['\n']) [.item .struct (g.typeName n)] :=
      oseg_mark (nl_append (by decide) (nl_append hw.nl (by decide)))
      (readMark_head (n := 0) (s := "ub struct ".toList ++ (g.typeName n ++ ' ' :: "{".toList)) rfl (readHead_struct hw.sp _)) rfl
    have h4 : OSeg ("}".toList ++ ['\n']) [] := oseg_silent (by decide) (by decide +kernel) rfl
    refine oseg_cast (h3.app (h2.app_none h4)) ?_
    simp only [List.append_assoc, List.cons_append, List.nil_append]
    rfl

theorem oseg_structText {n : Str} {c : Option Str} {fs : List StructField} {a b : Str} {ma mb : List Mark} (hn : PrefixSafe n)
    (hf : ∀ f ∈ fs, FieldSafe f) (ht : SafeNamespace g.targetNs) (ha : OSeg a ma) (hb : OSeg b mb) (hs : b = [] ∨ Starts b) :
    OSeg (structText g n c fs a b) (docMarks 0 c ++ .item .struct (g.typeName n) ::
      memberMarks (docMarks 4) (·.comment) (fun f => g.name f.name) (written fs) ++
      if a ≠ [] ∨ b ≠ [] then .item .mod (g.name n) :: (mb ++ ma) else []) := by
  have h := (oseg_struct (c := c) hn hf ht).app (oseg_empty.none_app ((oseg_validate (typeName_word g hn) silent_nil).none_app
    (oseg_structSubtypes (g := g) (n := n) ha hb hs)))
  refine oseg_cast h ?_
  delta structText
  simp only [List.append_assoc, List.cons_append, List.nil_append]
  rfl

theorem oseg_enumText {n t : Str} {cs : List EnumCase} {c : Option Str} {src : EnumSource} {a : Str} {ma : List Mark}
    (hn : PrefixSafe n) (htn : PrefixSafe t) (hc : ∀ c ∈ cs, CaseSafe c) (ht : SafeNamespace g.targetNs) (ha : OSeg a ma) :
    OSeg (enumText g n cs c t src a) (docMarks 0 c ++ .item .enum (g.typeName n) ::
      memberMarks (docMarks 4) (·.comment) (fun c => (GenCtx.naming g).case c.name) cs ++ .member "__Unknown__".toList :: ma) := by
  have hw := typeName_word g hn
  have h1 : OSeg ("pub enum ".toList ++ (g.typeName n ++ ' ' :: "{".toList) ++ ['\n']) [.item .enum (g.typeName n)] :=
    oseg_mark (nl_append (by decide) (nl_append hw.nl (by decide)))
    (readMark_head (n := 0) (s := "ub enum ".toList ++ (g.typeName n ++ ' ' :: "{".toList)) rfl (readHead_enum hw.sp _)) rfl
  have h4 : OSeg ("}".toList ++ ['\n']) [] := oseg_silent (by decide) (by decide +kernel) rfl
  have e := oseg_empty
  have h := (oseg_comment c 0).app ((oseg_enumMacros ht src).none_app (h1.app ((oseg_cases (g := g) htn hc).app (h4.none_app (e.none_app
    ((oseg_enumDefault hw).none_app (e.none_app ((oseg_validate hw silent_nil).none_app (e.none_app (ha.app_none (e.app_none e)))))))))))
  rw [show docMarks 0 c ++ .item .enum (g.typeName n) ::
      memberMarks (docMarks 4) (·.comment) (fun c => (GenCtx.naming g).case c.name) cs ++ .member "__Unknown__".toList :: ma =
      docMarks 0 c ++ ([.item .enum (g.typeName n)] ++ (memberMarks (docMarks 4) (·.comment) (fun c => (GenCtx.naming g).case c.name) cs ++
        [.member "__Unknown__".toList] ++ ma)) by simp]
  refine oseg_cast h ?_
  delta enumText
  simp only [List.append_assoc, List.cons_append, List.nil_append]
  rfl

theorem oseg_tupleText {n : Str} {c : Option Str} {t : Str} {ms : List TypeModifier} {fs : List Facet} {sub : Str}
    {ma : List Mark} (hn : PrefixSafe n) (ht : PrefixSafe t)
    (hv : ∀ f ∈ fs, ∀ v, facetBound f.facetType = some v → QuoteSafe v) (ha : OSeg sub ma) {r : Str}
    (h : tupleText g n c t ms fs sub = .ok r) : OSeg r (docMarks 0 c ++ .item .struct (g.typeName n) :: ma) := by
  rw [tupleText] at h
  obtain ⟨body, hb, h⟩ := Res.bind_eq_ok.1 h
  obtain rfl := Res.ok.inj h
  have hw := typeName_word g hn
  have htn : '\n' ∉ tupleTypeName g t ms := modifyType_nl (typeName_word g ht) ms
  have hm : OSeg "#[derive(Default, Clone, PartialEq, Debug, UtilsTupleIo, UtilsDefaultSerde)]\n".toList [] :=
    oseg_attr (n := 0) (s := "[derive(Default, Clone, PartialEq, Debug, UtilsTupleIo, UtilsDefaultSerde)".toList) (by decide) rfl
  have hd : OSeg ("pub struct ".toList ++ (g.typeName n ++ ' ' :: ("(pub ".toList ++ (tupleTypeName g t ms ++ ");".toList))) ++ ['\n'])
      [.item .struct (g.typeName n)] :=
    oseg_mark (nl_append (by decide) (nl_append hw.nl (nl_append (a := " (pub ".toList) (by decide) (nl_append htn (by decide)))))
      (readMark_head (n := 0) (s := "ub struct ".toList ++ (g.typeName n ++ ' ' :: ("(pub ".toList ++ (tupleTypeName g t ms ++ ");".toList))))
        rfl (readHead_struct hw.sp _)) rfl
  have h := (oseg_comment c 0).app (hm.none_app (hd.app (ha.app_none (oseg_empty.none_app (oseg_validate hw (silent_facets htn hv hb))))))
  refine oseg_cast h ?_
  simp only [List.append_assoc, List.cons_append, List.nil_append]
  rfl

theorem oseg_genAlias {n o : Str} {c : Option Str} (hn : PrefixSafe n) (ho : PrefixSafe o) :
    OSeg (genAlias g n o c) (if docMarks 0 c = [] then
      [.comment (" pub type ".toList ++ g.typeName n ++ " = ".toList ++ g.typeName o ++ ";".toList)]
      else docMarks 0 c ++ [.item .type (g.typeName n)]) := by
  have hw := typeName_word g hn
  have hwo := typeName_word g ho
  delta genAlias
  by_cases hd : docMarks 0 c = []
  · rw [if_pos hd, (docMarks_nil 0 c).1 hd]
    refine oseg_cast (oseg_mark (l := '/' :: '/' :: (" pub type ".toList ++ g.typeName n ++ " = ".toList ++ g.typeName o ++ ";".toList))
      ?_ (readMark_comment 0 _) rfl) ?_
    · have : '\n' ∉ " pub type ".toList ++ g.typeName n ++ " = ".toList ++ g.typeName o ++ ";".toList := by
        repeat' first | exact hw.nl | exact hwo.nl | decide | apply nl_append
      intro h
      rcases List.mem_cons.1 h with h | h
      · cases h
      rcases List.mem_cons.1 h with h | h
      · cases h
      exact this h
    · simp only [List.append_assoc, List.cons_append, List.nil_append]; rfl
  · rw [if_neg hd]
    have hdef : OSeg (List.replicate 1 ' ' ++ ("pub type ".toList ++ (g.typeName n ++ ' ' :: ("= ".toList ++ (g.typeName o ++ ";".toList)))) ++ ['\n'])
        [.item .type (g.typeName n)] :=
      oseg_mark (nl_append (by decide) (nl_append (by decide) (nl_append hw.nl (nl_append (a := " = ".toList) (by decide) (nl_append hwo.nl (by decide))))))
        (readMark_head (n := 1) (s := "ub type ".toList ++ (g.typeName n ++ ' ' :: ("= ".toList ++ (g.typeName o ++ ";".toList)))) rfl
          (readHead_type hw.sp _)) rfl
    have hc : OSeg ("//".toList ++ GenCtx.formatComment c 0) (docMarks 0 c) := by
      obtain ⟨ls, h1, h2⟩ := comment_lines c 0
      have hds : docMarks 0 c = ls.filterMap readMark := by
        have hl : lns (GenCtx.formatComment c 0) = ls ++ [[]] := by
          have := lns_lined (fun l hl => (h2 l hl).1) []
          rw [List.append_nil, ← h1] at this
          rw [this]; rfl
        rw [docMarks, hl, List.filterMap_append]
        show _ ++ [] = _
        rw [List.append_nil]
      cases ls with
      | nil => exact absurd hds hd
      | cons l ls =>
        obtain ⟨s, e⟩ := (h2 l (by simp)).2
        refine ⟨("//".toList ++ l) :: ls, ?_, ?_, ?_⟩
        · rw [h1, List.flatMap_cons, List.flatMap_cons]; simp only [List.append_assoc]
        · intro m hm
          rcases List.mem_cons.1 hm with rfl | hm
          · exact nl_append (by decide) (h2 l (by simp)).1
          · exact (h2 m (by simp [hm])).1
        · rw [hds, List.filterMap_cons, List.filterMap_cons]
          have : readMark ("//".toList ++ l) = readMark l := by
            have e1 : "//".toList ++ l = List.replicate 0 ' ' ++ '/' :: '/' :: ('/' :: '/' :: s) := by rw [e]; rfl
            rw [e1, readMark_comment, e, readMark_comment]
            rfl
          rw [this]
    refine oseg_cast (hc.app hdef) ?_
    simp only [List.append_assoc, List.cons_append]
    rfl

theorem oseg_genImport {i : Import} (h1 : '\n' ∉ i.location) (h2 : '\n' ∉ i.name) :
    OSeg (genImport i) [.comment ("use ".toList ++ i.location ++ "  ".toList ++ i.name ++ ";".toList)] := by
  delta genImport
  refine oseg_cast (oseg_mark (l := '/' :: '/' :: ("use ".toList ++ i.location ++ "  ".toList ++ i.name ++ ";".toList))
      (m := .comment ("use ".toList ++ i.location ++ "  ".toList ++ i.name ++ ";".toList)) ?_ ?_ rfl) ?_
  · have : '\n' ∉ "use ".toList ++ i.location ++ "  ".toList ++ i.name ++ ";".toList := by
      repeat' first | exact h1 | exact h2 | decide | apply nl_append
    intro h
    rcases List.mem_cons.1 h with h | h
    · cases h
    rcases List.mem_cons.1 h with h | h
    · cases h
    exact this h
  · refine (readMark_comment 0 _).trans ?_
    simp only [List.append_assoc]
    rfl
  · simp only [List.append_assoc, List.cons_append]; rfl

/-! ## The recursion -/

theorem oseg_joinWith {ts : List Str} {mss : List (List Mark)} (h : List.Forall₂ OSeg ts mss) :
    OSeg (joinWith "\n".toList ts) mss.flatten := by
  cases h with
  | nil => exact oseg_nil
  | @cons t xs ts xss h hs =>
    have : OSeg (ts.flatMap ("\n".toList ++ ·)) xss.flatten := by
      clear h
      induction hs with
      | nil => exact oseg_nil
      | @cons t xs ts xss h _ ih => exact (OSeg.none_app oseg_empty h).app ih
    exact h.app this

theorem outlineList_eq (N : Naming) (docs : Nat → Option Str → List Mark) (es : List RsEntity) :
    (es.map (outlineOf N docs)).flatten = outlineList N docs es := by
  induction es with
  | nil => rw [outlineList]; rfl
  | cons e es ih => rw [List.map_cons, List.flatten_cons, ih, outlineList]

mutual
theorem generate_outline (ht : SafeNamespace g.targetNs) : ∀ (e : RsEntity) (r : Str),
    (∀ x ∈ generated e, SafeTexts x ∧ IsItem x) → generate g e = .ok r → OSeg r (outlineOf (GenCtx.naming g) docMarks e)
  | .struct (.mk n c fs a ss), r, hs, h => by
    rw [generate] at h
    obtain ⟨x, h1, h⟩ := Res.bind_eq_ok.1 h
    obtain ⟨y, h2, h⟩ := Res.bind_eq_ok.1 h
    obtain rfl := Res.ok.inj h
    have hself := (hs (.struct (.mk n c fs a ss)) (by simp [generated])).1
    obtain ⟨-, hf2⟩ := genFieldSubtypes_defs ht fs x (fun z hz => hs z (by simp [generated, hz])) h1
    have hl := genList_defs ht ss y (fun z hz => hs z (by simp [generated, hz])) h2
    have k1 := genFieldSubtypes_outline ht fs x (fun z hz => hs z (by simp [generated, hz])) h1
    have k3 := oseg_joinWith (genList_outline ht ss y (fun z hz => hs z (by simp [generated, hz])) h2)
    have hi : (x.flatten ≠ [] ∨ joinWith "\n".toList y ≠ []) ↔ hasInner fs ss = true := by
      rw [ne_eq, ne_eq, hf2, good_join_nil hl, hasInner]
      simp only [List.map_eq_nil_iff, Bool.or_eq_true, Bool.not_eq_eq_eq_not, Bool.not_true, List.isEmpty_eq_false_iff,
        ne_eq, List.any_eq_true]
      rw [or_comm]
      simp
    have k5 := oseg_structText (c := c) hself.1 hself.2 ht k1 k3 (good_starts hl)
    rw [outlineOf, ← outlineList_eq]
    by_cases hh : hasInner fs ss = true
    · rw [if_pos (hi.2 hh)] at k5; rw [if_pos hh]; exact k5
    · rw [if_neg (mt hi.1 hh)] at k5; rw [if_neg hh]; exact k5
  | .tupleStruct (.mk n c t ss m fs), r, hs, h => by
    rw [generate] at h
    obtain ⟨y, h2, h⟩ := Res.bind_eq_ok.1 h
    have hself := (hs (.tupleStruct (.mk n c t ss m fs)) (by simp [generated])).1
    have k3 := oseg_joinWith (genList_outline ht ss y (fun z hz => hs z (by simp [generated, hz])) h2)
    rw [outlineOf, ← outlineList_eq]
    exact oseg_tupleText hself.1 hself.2.1 hself.2.2 k3 h
  | .enum (.mk n cs c t ss src), r, hs, h => by
    rw [generate] at h
    obtain ⟨y, h2, h⟩ := Res.bind_eq_ok.1 h
    obtain rfl := Res.ok.inj h
    have hself := (hs (.enum (.mk n cs c t ss src)) (by simp [generated])).1
    have k3 := oseg_joinWith (genList_outline ht ss y (fun z hz => hs z (by simp [generated, hz])) h2)
    rw [outlineOf, ← outlineList_eq]
    exact oseg_enumText (c := c) (src := src) hself.1 hself.2.1 hself.2.2 ht k3
  | .structField f, r, hs, h => absurd (hs (.structField f) (by simp [generated])).2 fun h => h
  | .enumCase c, r, hs, h => absurd (hs (.enumCase c) (by simp [generated])).2 fun h => h
  | .alias (.mk n o c ss), r, hs, h => by
    rw [generate] at h
    obtain rfl := Res.ok.inj h
    have hself := (hs (.alias (.mk n o c ss)) (by simp [generated])).1
    rw [outlineOf]
    exact oseg_genAlias (g := g) (c := c) hself.1 hself.2
  | .import i, r, hs, h => by
    rw [generate] at h
    obtain rfl := Res.ok.inj h
    have hself := (hs (.import i) (by simp [generated])).1
    rw [outlineOf]
    exact oseg_genImport hself.1 hself.2
theorem genList_outline (ht : SafeNamespace g.targetNs) : ∀ (es : List RsEntity) (rs : List Str),
    (∀ x ∈ generatedList es, SafeTexts x ∧ IsItem x) → genList g es = .ok rs →
    List.Forall₂ OSeg rs (es.map (outlineOf (GenCtx.naming g) docMarks))
  | [], rs, _, h => by rw [genList] at h; obtain rfl := Res.ok.inj h; exact .nil
  | e :: es, rs, hs, h => by
    rw [genList] at h
    obtain ⟨x, h1, h⟩ := Res.bind_eq_ok.1 h
    obtain ⟨y, h2, h⟩ := Res.bind_eq_ok.1 h
    obtain rfl := Res.ok.inj h
    exact .cons (generate_outline ht e x (fun z hz => hs z (by simp [generatedList, hz])) h1)
      (genList_outline ht es y (fun z hz => hs z (by simp [generatedList, hz])) h2)
theorem genFieldSubtypes_outline (ht : SafeNamespace g.targetNs) : ∀ (fs : List StructField) (rs : List Str),
    (∀ x ∈ generatedFields fs, SafeTexts x ∧ IsItem x) → genFieldSubtypes g fs = .ok rs →
    OSeg rs.flatten (outlineFields (GenCtx.naming g) docMarks fs)
  | [], rs, _, h => by
    rw [genFieldSubtypes] at h; obtain rfl := Res.ok.inj h
    rw [outlineFields]; exact oseg_nil
  | .mk n t c ss src m :: fs, rs, hs, h => by
    rw [genFieldSubtypes] at h
    obtain ⟨x, h1, h⟩ := Res.bind_eq_ok.1 h
    obtain ⟨y, h2, h⟩ := Res.bind_eq_ok.1 h
    obtain rfl := Res.ok.inj h
    have k1 := oseg_joinWith (genList_outline ht ss x (fun z hz => hs z (by simp [generatedFields, hz])) h1)
    have k3 := genFieldSubtypes_outline ht fs y (fun z hz => hs z (by simp [generatedFields, hz])) h2
    rw [outlineFields, ← outlineList_eq, List.flatten_cons]
    exact k1.app k3
end

/-- The outline of a file. -/
theorem file_outline {U : UnicodeTable} {f : RsFile} {r : Str} (ht : SafeNamespace f.targetNs)
    (hs : ∀ x ∈ generatedList f.types, SafeTexts x ∧ IsItem x) (h : (generateRsFile U f).1 = .ok r) :
    HasOutline r (outlineList (GenCtx.naming ⟨U, f.targetNs, f.xsdNs⟩) docMarks f.types) := by
  obtain ⟨ts, h1, h2⟩ := Res.bind_eq_ok.1 h
  clear h
  obtain rfl := Res.ok.inj h2
  have hl := genList_outline (g := ⟨U, f.targetNs, f.xsdNs⟩) ht f.types ts hs h1
  have k : OSeg ts.flatten (outlineList (GenCtx.naming ⟨U, f.targetNs, f.xsdNs⟩) docMarks f.types) := by
    rw [← outlineList_eq]
    generalize f.types.map (outlineOf (GenCtx.naming ⟨U, f.targetNs, f.xsdNs⟩) docMarks) = xss at hl
    clear h1 h2
    induction hl with
    | nil => exact oseg_nil
    | cons h _ ih => exact h.app ih
  obtain ⟨ls, e, hn, hb⟩ := k
  refine ⟨lns ts.flatten, lines_lns _, ?_⟩
  have hl : lns ts.flatten = ls ++ [[]] := by
    have := lns_lined hn []
    rw [List.append_nil, ← e] at this
    rw [this]; rfl
  rw [hl, List.filterMap_append, hb]
  show _ ++ [] = _
  rw [List.append_nil]

end Verif.Lemmas.Gen
