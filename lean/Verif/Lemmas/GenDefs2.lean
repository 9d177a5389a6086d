import Verif.Lemmas.GenDefs

/-! # The definitions which are read from generated code: the entities -/

namespace Verif.Lemmas.Gen

open Verif Verif.Model Verif.Spec Inflector

attribute [local irreducible] genBoundValidation genLenValidation structText enumText genField genCase

variable {g : GenCtx}

theorem nl_rotate (ls : List Str) : '\n' :: ls.flatMap (· ++ ['\n']) = ls.flatMap ('\n' :: ·) ++ ['\n'] := by
  induction ls with
  | nil => rfl
  | cons l ls ih =>
    rw [List.flatMap_cons, List.flatMap_cons, List.append_assoc, List.singleton_append, ih]
    simp

/-! ## Validation -/

/-- Lines each of which has its line end before it. -/
def NlBlock (t : Str) : Prop :=
  ∃ ls : List Str, t = ls.flatMap ('\n' :: ·) ∧ (∀ l ∈ ls, '\n' ∉ l ∧ dropSpaces l ≠ []) ∧ Inner ls

theorem nlBlock_nil : NlBlock [] := ⟨[], rfl, by simp, inner_nil⟩

theorem NlBlock.app {a b : Str} (ha : NlBlock a) (hb : NlBlock b) : NlBlock (a ++ b) := by
  obtain ⟨ls, rfl, h1, h2⟩ := ha
  obtain ⟨ms, rfl, h3, h4⟩ := hb
  refine ⟨ls ++ ms, by rw [List.flatMap_append], ?_, h2.app h4⟩
  intro l hl
  rcases List.mem_append.1 hl with h | h
  · exact h1 l h
  · exact h3 l h

theorem dropSpaces_ne {l s : Str} {n : Nat} {c : Char} (hl : l = List.replicate n ' ' ++ c :: s) (hc : c ≠ ' ') :
    dropSpaces l ≠ [] := by
  subst hl
  rw [dropSpaces]
  induction n with
  | zero => rw [List.replicate_zero, List.nil_append, List.dropWhile_cons_of_neg (by simpa using hc)]; simp
  | succ n ih => rw [List.replicate_succ, List.cons_append, List.dropWhile_cons_of_pos (by simp)]; exact ih

/-- A condition, a line, and the end of the block. -/
theorem nlBlock_if {o q t : Str} {i j k : Nat} (ho : '\n' ∉ o) (hq : '\n' ∉ q)
    (ht : t = '\n' :: (List.replicate i ' ' ++ ("if ".toList ++ o ++ " {".toList)) ++
      ('\n' :: (List.replicate j ' ' ++ ('r' :: q ++ [';'])) ++ ('\n' :: (List.replicate k ' ' ++ ['}'])))) : NlBlock t := by
  have hsp : ∀ n, '\n' ∉ List.replicate n ' ' := by
    intro n h; have := List.mem_replicate.1 h; revert this; simp
  refine ⟨[List.replicate i ' ' ++ ("if ".toList ++ o ++ " {".toList), List.replicate j ' ' ++ ('r' :: q ++ [';']),
    List.replicate k ' ' ++ ['}']], ?_, ?_, ?_⟩
  · rw [ht]; simp
  · intro l hl
    simp only [List.mem_cons, List.not_mem_nil, or_false] at hl
    rcases hl with rfl | rfl | rfl
    · exact ⟨nl_append (hsp i) (nl_append (nl_append (by decide) ho) (by decide)), dropSpaces_ne rfl (by decide)⟩
    · exact ⟨nl_append (hsp j) (nl_append (by simpa using hq) (by decide)), dropSpaces_ne rfl (by decide)⟩
    · exact ⟨nl_append (hsp k) (by decide), dropSpaces_ne rfl (by decide)⟩
  · have := Inner.wrap (o := List.replicate i ' ' ++ ("if ".toList ++ o ++ " {".toList))
      (c := List.replicate k ' ' ++ ['}'])
      (opens_other (c := 'i') (s := "f ".toList ++ o ++ " {".toList) rfl (by decide) (lastIsOpen_open ("if ".toList ++ o)))
      (fit_if (n := i) (s := o ++ " {".toList) (by simp only [List.append_assoc]))
      (inner_quiet (quiet_head (n := j) (c := 'r') (s := q) (d := ';') rfl (by decide) (by decide))
        (fit_head (s := q ++ [';']) rfl (by decide) (by decide))) (closes_lit k)
      (fit_head (s := []) rfl (by decide) (by decide))
    exact this

theorem nlBlock_bound {kind op expect n v t : Str} (hk : '\n' ∉ kind) (hop : '\n' ∉ op) (he : '\n' ∉ expect)
    (hn : '\n' ∉ n) (hv : '\n' ∉ v) (ht : '\n' ∉ t) : NlBlock (genBoundValidation kind op expect n v t) := by
  refine nlBlock_if (i := 8) (j := 12) (k := 8)
    (o := "self.".toList ++ n ++ " ".toList ++ op ++ " \"".toList ++ v ++ "\".parse::<".toList ++ t ++ ">().unwrap()".toList)
    (q := "eturn Err(format!(\"".toList ++ kind ++
    " validation error: invalid value of ".toList ++ n ++ "! \\nExpected: ".toList ++ n ++ " ".toList ++ expect ++
    " ".toList ++ v ++ ".\\nActual: ".toList ++ n ++ " == {}\", self.".toList ++ n ++ "))".toList) ?_ ?_ ?_
  · repeat' first | apply nl_append | assumption | decide
  · repeat' first | apply nl_append | assumption | decide
  · delta genBoundValidation
    simp only [List.append_assoc, List.cons_append]
    rfl

theorem nlBlock_len {pre kind op expect n v : Str} (hp : NlBlock pre) (hk : '\n' ∉ kind) (hop : '\n' ∉ op)
    (he : '\n' ∉ expect) (hn : '\n' ∉ n) (hv : '\n' ∉ v) : NlBlock (genLenValidation pre kind op expect n v) := by
  have key : NlBlock ("\n        if self.".toList ++ (n ++ (".len() ".toList ++ (op ++ (" ".toList ++ (v ++
    (" {\n            return Err(format!(\"".toList ++ (kind ++ (" validation error. \\nExpected: ".toList ++ (n ++
    (" length ".toList ++ (expect ++ (" ".toList ++ (v ++ (" \\nActual: ".toList ++ (n ++
    (" length == {}\", self.".toList ++ (n ++ ".len()));\n        }".toList)))))))))))))))))) := by
    refine nlBlock_if (i := 8) (j := 12) (k := 8)
      (o := "self.".toList ++ n ++ ".len() ".toList ++ op ++ " ".toList ++ v)
      (q := "eturn Err(format!(\"".toList ++ kind ++ " validation error. \\nExpected: ".toList ++ n ++
      " length ".toList ++ expect ++ " ".toList ++ v ++ " \\nActual: ".toList ++ n ++
      " length == {}\", self.".toList ++ n ++ ".len()))".toList) ?_ ?_ ?_
    · repeat' first | apply nl_append | assumption | decide
    · repeat' first | apply nl_append | assumption | decide
    · simp only [List.append_assoc, List.cons_append]
      rfl
  delta genLenValidation
  simp only [List.append_assoc]
  exact hp.app key

theorem nlBlock_facet {f : FacetType} {t : Str} (ht : '\n' ∉ t)
    (hv : ∀ v, facetBound f = some v → QuoteSafe v) {r : Str} (h : genFacetValidation f "0".toList t = .ok r) : NlBlock r := by
  have hpre : NlBlock "\n        #[allow(clippy::len_zero)]".toList :=
    ⟨["        #[allow(clippy::len_zero)]".toList], rfl, by decide, inner_quiet
      (quiet_head (n := 8) (c := '#') (s := "[allow(clippy::len_zero)".toList) (d := ']') rfl (by decide) (by decide))
      (fit_head (n := 8) rfl (by decide) (by decide))⟩
  cases f <;> simp only [genFacetValidation] at h
  case maxExclusive v =>
    obtain rfl := Res.ok.inj h
    exact nlBlock_bound (by decide) (by decide) (by decide) (by decide) (hv v rfl).nl ht
  case maxInclusive v =>
    obtain rfl := Res.ok.inj h
    exact nlBlock_bound (by decide) (by decide) (by decide) (by decide) (hv v rfl).nl ht
  case minExclusive v =>
    obtain rfl := Res.ok.inj h
    exact nlBlock_bound (by decide) (by decide) (by decide) (by decide) (hv v rfl).nl ht
  case minInclusive v =>
    obtain rfl := Res.ok.inj h
    exact nlBlock_bound (by decide) (by decide) (by decide) (by decide) (hv v rfl).nl ht
  case length v =>
    obtain ⟨k, -, h2⟩ := Res.bind_eq_ok.1 h
    obtain rfl := Res.ok.inj h2
    exact nlBlock_len nlBlock_nil (by decide) (by decide) (by decide) (by decide) (natStr_word k).nl
  case maxLength v =>
    obtain ⟨k, -, h2⟩ := Res.bind_eq_ok.1 h
    obtain rfl := Res.ok.inj h2
    exact nlBlock_len nlBlock_nil (by decide) (by decide) (by decide) (by decide) (natStr_word k).nl
  case minLength v =>
    obtain ⟨k, -, h2⟩ := Res.bind_eq_ok.1 h
    split at h2
    · obtain rfl := Res.ok.inj h2; exact nlBlock_nil
    · obtain rfl := Res.ok.inj h2
      exact nlBlock_len hpre (by decide) (by decide) (by decide) (by decide) (natStr_word k).nl
  all_goals (obtain rfl := Res.ok.inj h; exact nlBlock_nil)

theorem nlBlock_facets {t : Str} (ht : '\n' ∉ t) {fs : List Facet}
    (hv : ∀ f ∈ fs, ∀ v, facetBound f.facetType = some v → QuoteSafe v) {r : Str} (h : facetBodies t fs = .ok r) :
    NlBlock r := by
  induction fs generalizing r with
  | nil => obtain rfl := Res.ok.inj h; exact nlBlock_nil
  | cons f fs ih =>
    rw [facetBodies] at h
    obtain ⟨a, h1, h⟩ := Res.bind_eq_ok.1 h
    obtain ⟨b, h2, h⟩ := Res.bind_eq_ok.1 h
    obtain rfl := Res.ok.inj h
    exact .app (nlBlock_facet ht (hv f (by simp)) h1) (ih (fun f hf => hv f (by simp [hf])) h2)

theorem seg_implLine {n : Str} (hn : WordText n) :
    Seg [] ("impl Validate for ".toList ++ n ++ " {}".toList ++ ['\n']) [] none' := by
  refine seg_quiet (l := "impl Validate for ".toList ++ n ++ " {}".toList) (quiet_head (n := 0) (c := 'i')
    (s := "mpl Validate for ".toList ++ n ++ " {".toList) (d := '}') ?_ (by decide) (by decide)) ?_ rfl
  · simp only [List.append_assoc, List.cons_append]
    rfl
  · exact nl_append (nl_append (by decide) hn.nl) (by decide)

theorem seg_validate {n body : Str} (hn : WordText n) (hb : NlBlock body) :
    Seg [] (genValidateImpl n body ++ ['\n']) [] none' := by
  rw [genValidateImpl]
  split
  · exact seg_implLine hn
  · obtain ⟨ls, rfl, hnl, hbl⟩ := hb
    have h1 : Seg [] ("impl Validate for ".toList ++ n ++ " {".toList ++ ['\n']) [none] none' :=
      seg_opens (l := "impl Validate for ".toList ++ n ++ " {".toList)
        (opens_other (i := 0) (c := 'i') (s := "mpl Validate for ".toList ++ n ++ " {".toList) rfl (by decide)
        (lastIsOpen_open ("impl Validate for ".toList ++ n))) (nl_append (nl_append (by decide) hn.nl) (by decide)) rfl
    have h2 : Seg [none] ("    fn validate(&self) -> Result<(), String> { ".toList ++ ['\n']) [none, none] none' :=
      (seg_opens (x := none) (d := none') (opens_other (i := 4) (c := 'f')
        (s := "n validate(&self) -> Result<(), String> { ".toList) rfl (by decide) (by decide)) (by decide) rfl).inNone
    have h3 : Seg [none, none] (ls.flatMap (· ++ ['\n'])) [none, none] none' :=
      Seg.push ⟨ls, rfl, fun l hl => (hnl l hl).1, hbl.block⟩ _
    have h4 : Seg [none, none] ("        Ok(())".toList ++ ['\n']) [none, none] none' :=
      Seg.push (seg_quiet (quiet_head (n := 8) (c := 'O') (s := "k(()".toList) (d := ')') rfl (by decide) (by decide))
        (by decide) rfl) _
    have h5 : Seg [none, none] ("    }".toList ++ ['\n']) [none] none' := seg_closes (closes_lit 4) (by decide) rfl
    have h6 : Seg [none] ("}".toList ++ ['\n']) [] none' := seg_closes (closes_lit 0) (by decide) rfl
    have h := h1.none_app (h2.none_app (h3.none_app (h4.none_app (h5.none_app (h6.none_app (seg_empty rfl))))))
    have e := nl_rotate ls
    have e2 : "impl Validate for ".toList ++ n ++ " {\n    fn validate(&self) -> Result<(), String> { ".toList ++
        ls.flatMap ('\n' :: ·) ++ "\n        Ok(())\n    }\n}\n".toList ++ ['\n'] =
      "impl Validate for ".toList ++ (n ++ (" {\n    fn validate(&self) -> Result<(), String> { ".toList ++
        ((ls.flatMap ('\n' :: ·) ++ ['\n']) ++ ("        Ok(())\n    }\n}\n".toList ++ ['\n'])))) := by
      simp only [List.append_assoc]
      rfl
    rw [e2, ← e]
    simp only [List.append_assoc, List.cons_append, List.nil_append] at h ⊢
    exact h

/-! ## Structs -/

/-- The first character. -/
def Starts (t : Str) : Prop := t.head? = some '/' ∨ t.head? = some '#'

theorem Starts.append {a : Str} (h : Starts a) (b : Str) : Starts (a ++ b) := by
  cases a with
  | nil => rcases h with h | h <;> cases h
  | cons c a => exact h

theorem starts_comment (doc : Option Str) : GenCtx.formatComment doc 0 = [] ∨ Starts (GenCtx.formatComment doc 0) := by
  obtain ⟨ls, h1, h2⟩ := comment_lines doc 0
  cases ls with
  | nil => left; exact h1
  | cons l ls =>
    right
    obtain ⟨rest, e⟩ := (h2 l (by simp)).2
    rw [h1, List.flatMap_cons, e]
    left; rfl

theorem starts_comment_append (doc : Option Str) {t : Str} (h : Starts t) : Starts (GenCtx.formatComment doc 0 ++ t) := by
  rcases starts_comment doc with e | e
  · rw [e]; exact h
  · exact e.append t

theorem seg_structMacros (ht : SafeNamespace g.targetNs) : Seg [] (structMacros g) [] none' := by
  have h1 : Seg [] "#[derive(Default, Clone, PartialEq, Debug, YaSerialize, YaDeserialize)]\n".toList [] none' :=
    seg_attr (i := 0) (s := "[derive(Default, Clone, PartialEq, Debug, YaSerialize, YaDeserialize)".toList) (by decide) rfl
  have key : ∀ {r : Str}, '\n' ∉ r → Seg [] ('#' :: r ++ [']', '\n']) [] none' := by
    intro r hr
    refine seg_attr (i := 0) (s := r) hr ?_
    simp
  rw [structMacros]
  cases hn : g.targetNs with
  | none => exact h1.none_app (key (r := "[yaserde()".toList) (by decide))
  | some ns =>
    obtain ⟨o, uri⟩ := ns
    have hns := ht ⟨o, uri⟩ hn
    cases o with
    | none =>
      have := h1.none_app (key (r := "[yaserde(namespace = \"".toList ++ uri ++ "\")".toList)
        (nl_append (nl_append (by decide) hns.1.nl) (by decide)))
      simp only [List.append_assoc, List.cons_append] at this ⊢
      exact this
    | some p =>
      have hp := (hns.2 p rfl).nl
      have := h1.none_app (key (r := "[yaserde(prefix = \"".toList ++ p ++ "\", namespace = \"".toList ++ p ++ ": ".toList ++ uri ++ "\")".toList)
        (nl_append (nl_append (nl_append (nl_append (nl_append (nl_append (by decide) hp) (by decide)) hp) (by decide)) hns.1.nl) (by decide)))
      simp only [List.append_assoc, List.cons_append] at this ⊢
      exact this

theorem starts_structMacros : Starts (structMacros g) := by
  have : ∃ s, structMacros g = '#' :: s := by
    rw [structMacros]
    split <;> exact ⟨_, rfl⟩
  obtain ⟨s, e⟩ := this
  right; rw [e]; rfl

/-- `use super::*;` before the first line. -/
theorem seg_useSuper {b : Str} {f : Defs} (hb : Seg [] b [] f) (hs : b = [] ∨ Starts b) :
    Seg [] (List.replicate 4 ' ' ++ ("use super::*;".toList ++ (b ++ ['\n']))) [] f := by
  obtain ⟨ls, rfl, hn, hbl⟩ := hb
  have htr : ∀ l : Str, (l.head? ≠ some ' ') → trimLine (List.replicate 4 ' ' ++ ("use super::*;".toList ++ l)) = l := by
    intro l hl
    have h0 : ("use super::*;".toList ++ l).dropWhile (· = ' ') = "use super::*;".toList ++ l :=
      dropSpaces_of_head (by simp)
    rw [trimLine_spaces, trimLine, h0, afterPrefix_append, Option.getD_some, dropSpaces_of_head hl]
  cases ls with
  | nil =>
    have hq : Quiet (List.replicate 4 ' ' ++ ("use super::*;".toList ++ [])) := by
      apply quiet_of <;> rw [htr [] (by simp)] <;> decide
    have := seg_quiet hq (by decide) rfl
    obtain ⟨ms, e, hm, hms⟩ := this
    refine ⟨ms, ?_, hm, ?_⟩
    · rw [← e]; rfl
    · intro stk
      have h0 := (hbl stk).2
      rw [(hms stk).1, (hms stk).2, ← h0]
      exact ⟨rfl, rfl⟩
  | cons l ls =>
    have hhead : l.head? = some '/' ∨ l.head? = some '#' := by
      rcases hs with h | h
      · simp at h
      · cases l with
        | nil => rcases h with h | h <;> simp at h
        | cons c l =>
          rcases h with h | h <;> simp only [List.flatMap_cons, List.cons_append, List.head?_cons] at h
          · left; exact h
          · right; exact h
    have hsp : l.head? ≠ some ' ' := by rcases hhead with h | h <;> rw [h] <;> decide
    have hu : l.head? ≠ some 'u' := by rcases hhead with h | h <;> rw [h] <;> decide
    have e1 : ∀ stk, lineStack stk (List.replicate 4 ' ' ++ ("use super::*;".toList ++ l)) = lineStack stk l := by
      intro stk; rw [lineStack, htr l hsp, lineStack, trimLine_of_head hsp hu]
    have e2 : ∀ stk, lineDef stk (List.replicate 4 ' ' ++ ("use super::*;".toList ++ l)) = lineDef stk l := by
      intro stk; rw [lineDef, htr l hsp, lineDef, trimLine_of_head hsp hu]
    refine ⟨((List.replicate 4 ' ' ++ ("use super::*;".toList ++ l)) :: ls) ++ [[]], ?_, ?_, ?_⟩
    · simp only [List.flatMap_cons, List.flatMap_append, List.append_assoc, List.cons_append, List.nil_append, List.flatMap_nil]
    · intro m hm
      simp only [List.cons_append, List.mem_cons, List.mem_append, List.not_mem_nil, or_false] at hm
      rcases hm with rfl | hm | rfl
      · exact nl_append (by decide) (nl_append (by decide) (hn l (by simp)))
      · exact hn m (by simp [hm])
      · simp
    · refine Block.app_none (fun stk => ?_) quiet_nil.block
      have := hbl stk
      rw [stackAfter, readDefs] at this ⊢
      rw [e1, e2]
      exact this

theorem seg_structSubtypes {n a b : Str} {fa fb : Defs} (ha : Seg [] a [] fa) (hb : Seg [] b [] fb) (hs : b = [] ∨ Starts b) :
    Seg [] (structSubtypes g n a b ++ ['\n']) [] fun p =>
      if a ≠ [] ∨ b ≠ [] then (p, .mod, g.name n) :: (fb (p ++ [g.name n]) ++ fa (p ++ [g.name n])) else [] := by
  delta structSubtypes
  by_cases h : a ≠ [] ∨ b ≠ []
  · simp only [if_pos h]
    have hm : WordText (g.name n) := (name_nameText g.U n).word
    have h1 : Seg [] ("pub mod ".toList ++ (g.name n ++ ' ' :: ['{']) ++ ['\n']) [some (g.name n)]
        fun p => [(p, .mod, g.name n)] := by
      refine seg_opens (l := "pub mod ".toList ++ (g.name n ++ ' ' :: ['{'])) (opens_mod (s := "ub mod ".toList ++ (g.name n ++ ' ' :: ['{'])) rfl (readHead_mod hm.sp _) ?_) ?_ rfl
      · have := lastIsOpen_open ("pub mod ".toList ++ g.name n)
        rw [List.append_assoc] at this; exact this
      · exact nl_append (by decide) (nl_append hm.nl (by decide))
    have h2 := (seg_useSuper hb hs).inMod (g.name n)
    have h3 := (seg_of_block (shift_block ha.block 4) rfl).inMod (g.name n)
    have h4 : Seg [some (g.name n)] ("}".toList ++ ['\n']) [] none' := seg_closes (closes_lit 0) (by decide) rfl
    have h := (seg_empty rfl).none_app (h1.app (h2.app (h3.app (h4.none_app (seg_empty rfl)))))
    refine Seg.congr (f := fun p => [(p, .mod, g.name n)] ++ (fb (p ++ [g.name n]) ++ (fa (p ++ [g.name n]) ++ none' p))) ?_ ?_
    · simp only [List.append_assoc, List.cons_append, List.nil_append] at h ⊢
      exact h
    · intro p; simp [none']
  · simp only [if_neg h]
    simp only [not_or, not_not] at h
    obtain ⟨rfl, rfl⟩ := h
    exact (seg_empty rfl).none_app (seg_empty rfl)

theorem seg_structText {n : Str} {c : Option Str} {fs : List StructField} {a b : Str} {fa fb : Defs} (hn : PrefixSafe n)
    (hf : ∀ f ∈ fs, FieldSafe f) (ht : SafeNamespace g.targetNs)
    (ha : Seg [] a [] fa) (hb : Seg [] b [] fb) (hs : b = [] ∨ Starts b) :
    Seg [] (structText g n c fs a b) [] (fun p => (p, .struct, g.typeName n) ::
      if a ≠ [] ∨ b ≠ [] then (p, .mod, g.name n) :: (fb (p ++ [g.name n]) ++ fa (p ++ [g.name n])) else []) ∧
    Starts (structText g n c fs a b) := by
  have hw := typeName_word g hn
  delta structText
  simp only [List.append_assoc]
  refine ⟨?_, starts_comment_append c (starts_structMacros.append _)⟩
  sg (seg_comment _ _)
  sg (seg_structMacros ht)
  have h2 : Seg [] (genValidateImpl (g.typeName n) [] ++ ['\n']) [] none' := seg_validate hw nlBlock_nil
  have h3 := seg_structSubtypes (g := g) (n := n) ha hb hs
  have hrest := Seg.none_app (seg_empty (t := ['\n']) rfl) (h2.none_app h3)
  have key : Seg [] ("pub struct ".toList ++ (g.typeName n ++ (" {".toList ++ (genFields g n fs ++ "}\n".toList)))) []
      fun p => [(p, .struct, g.typeName n)] := by
    rcases genFields_seg (n := n) hf ht with e | ⟨u, e, hu⟩
    · rw [e]
      refine seg_def (i := 0) (l := "pub struct ".toList ++ (g.typeName n ++ ' ' :: "{}".toList))
        (s := "ub struct ".toList ++ (g.typeName n ++ ' ' :: "{}".toList)) rfl (readHead_struct hw.sp _) ?_ ?_ ?_
      · rw [show "pub struct ".toList ++ (g.typeName n ++ ' ' :: "{}".toList) =
          ("pub struct ".toList ++ (g.typeName n ++ ' ' :: ['{'])) ++ ['}'] by simp, lastIsOpen_snoc _ _ (by decide)]
        rfl
      · exact nl_append (by decide) (nl_append hw.nl (by decide))
      · simp only [List.append_assoc, List.cons_append, List.nil_append]
        rfl
    · rw [e]
      have h1 : Seg [] ("pub struct ".toList ++ (g.typeName n ++ ' ' :: ['{']) ++ ['\n']) [none]
          fun p => [(p, .struct, g.typeName n)] := by
        refine seg_opens (l := "pub struct ".toList ++ (g.typeName n ++ ' ' :: ['{'])) (opens_def (k := .struct) (s := "ub struct ".toList ++ (g.typeName n ++ ' ' :: ['{'])) rfl
          (by decide) (readHead_struct hw.sp _) ?_) ?_ rfl
        · have := lastIsOpen_open ("pub struct ".toList ++ g.typeName n)
          rw [List.append_assoc] at this; exact this
        · exact nl_append (by decide) (nl_append hw.nl (by decide))
      have h4 : Seg [none] ("}".toList ++ ['\n']) [] none' := seg_closes (closes_lit 0) (by decide) rfl
      have := h1.app_none ((hu.push [none]).none_app h4)
      simp only [List.append_assoc, List.cons_append, List.nil_append] at this ⊢
      exact this
  have h := key.app hrest
  simp only [List.append_assoc, List.cons_append, List.nil_append] at h ⊢
  exact h

/-! ## Enums -/

theorem seg_caseMacros {c : EnumCase} (h : CaseSafe c) : Seg [] (caseMacros g c) [] none' := by
  have hattr : ∀ {s : Str}, '\n' ∉ s → Seg [] (GenCtx.indent ++ ('#' :: s ++ [']', '\n'])) [] none' := by
    intro s hs
    refine seg_attr (i := 4) hs ?_
    simp [GenCtx.indent, GenCtx.indentSize, spaces]
  rw [caseMacros]
  split
  · exact seg_nil _
  · cases hs : splitName c.name with
    | mk o m =>
      obtain ⟨h1, h2⟩ := h.1.split hs
      cases o with
      | none =>
        dsimp only
        split
        · exact seg_nil _
        · have := hattr (s := "[yaserde(rename = \"".toList ++ m ++ "\")".toList)
            (nl_append (nl_append (by decide) h1.nl) (by decide))
          simp only [List.append_assoc, List.cons_append] at this ⊢
          exact this
      | some p =>
        have := hattr (s := "[yaserde(prefix = \"".toList ++ p ++ "\", rename = \"".toList ++ m ++ "\")".toList)
          (nl_append (nl_append (nl_append (nl_append (by decide) (h2 p rfl).nl) (by decide)) h1.nl) (by decide))
        simp only [List.append_assoc, List.cons_append] at this ⊢
        exact this

/-- A line of a case: a name followed by a bracket or a comma. -/
theorem quiet_case {n r : Str} {d : Char} (hn : WordText n) (hd : d = '(' ∨ d = ',')
    (ho : lastIsOpen (n ++ d :: r) = false) : Quiet (List.replicate 4 ' ' ++ (n ++ d :: r)) ∧
    Fit (List.replicate 4 ' ' ++ (n ++ d :: r)) := by
  have hhead : ∀ c, c ∈ [' ', '}', '/'] → (n ++ d :: r).head? ≠ some c := by
    intro c hc
    cases n with
    | nil => rcases hd with rfl | rfl <;> (simp only [List.nil_append, List.head?_cons]; revert c; decide)
    | cons a n =>
      simp only [List.cons_append, List.head?_cons, ne_eq, Option.some.injEq]
      rintro rfl
      have hall : ∀ c ∈ [' ', '}', '/'], c ∈ wordBad := by decide
      exact hn a (by simp) (hall a hc)
  have hno : ∀ w : Str, '(' ∉ w → ',' ∉ w → ' ' ∈ w → afterPrefix w (n ++ d :: r) = none := by
    intro w h1 h2 h3
    refine afterPrefix_none ?_ h3 hn.sp
    rcases hd with rfl | rfl
    · exact h1
    · exact h2
  have htr : trimLine (List.replicate 4 ' ' ++ (n ++ d :: r)) = n ++ d :: r := by
    rw [trimLine_spaces]
    exact trimLine_of (hhead _ (by decide)) (hno _ (by decide) (by decide) (by decide))
  have hds : dropSpaces (List.replicate 4 ' ' ++ (n ++ d :: r)) = n ++ d :: r :=
    dropSpaces_of_head (s := n ++ d :: r) (hhead _ (by decide))
  refine ⟨?_, ⟨htr.trans hds.symm⟩⟩
  apply quiet_of <;> rw [htr]
  · exact hhead _ (by decide)
  · exact ho
  · rw [readHead, hno _ (by decide) (by decide) (by decide), hno _ (by decide) (by decide) (by decide),
      hno _ (by decide) (by decide) (by decide), hno _ (by decide) (by decide) (by decide)]

theorem seg_genCase {c : EnumCase} (h : CaseSafe c) : Seg [] (genCase g c ++ ['\n']) [] none' := by
  delta genCase
  simp only [List.append_assoc]
  sg (seg_comment _ _)
  sg (seg_caseMacros h)
  cases hty : c.typeName with
  | none =>
    refine seg_quiet (l := List.replicate 4 ' ' ++ (caseName g c ++ ',' :: [])) (quiet_case (caseName_word g c) (.inr rfl) ?_).1 ?_ ?_
    · rw [lastIsOpen_snoc _ _ (by decide)]; rfl
    · exact nl_append (by decide) (nl_append (caseName_word g c).nl (by decide))
    · simp only [List.append_assoc, List.cons_append, List.nil_append]; rfl
  | some t =>
    have hnl := modifyType_nl (typeName_word g (h.2 t hty)) c.typeModifiers
    refine seg_quiet (l := List.replicate 4 ' ' ++ (caseName g c ++ '(' ::
      (defaultModifyType (g.typeName t) c.typeModifiers ++ "),".toList))) (quiet_case (caseName_word g c) (.inl rfl) ?_).1 ?_ ?_
    · rw [show caseName g c ++ '(' :: (defaultModifyType (g.typeName t) c.typeModifiers ++ "),".toList) =
        (caseName g c ++ '(' :: (defaultModifyType (g.typeName t) c.typeModifiers ++ [')'])) ++ [','] by simp,
        lastIsOpen_snoc _ _ (by decide)]
      rfl
    · refine nl_append (by decide) (nl_append (caseName_word g c).nl ?_)
      exact nl_append (a := ['(']) (by decide) (nl_append hnl (by decide))
    · simp only [List.append_assoc, List.cons_append]; rfl

theorem seg_enumMacros (ht : SafeNamespace g.targetNs) (src : EnumSource) : Seg [] (enumMacros g src ++ ['\n']) [] none' := by
  rw [enumMacros]
  split
  · exact seg_attr (i := 0) (s := "[derive(PartialEq, Debug, UtilsUnionSerDe)".toList) (by decide) rfl
  · refine Seg.none_app ?_ (seg_empty rfl)
    exact seg_nsMacros (d := "#[derive(PartialEq, Debug, Clone, YaSerialize, YaDeserialize)]".toList)
      ⟨"[derive(PartialEq, Debug, Clone, YaSerialize, YaDeserialize)".toList, rfl, by decide⟩ ht

theorem starts_enumMacros (src : EnumSource) : Starts (enumMacros g src) := by
  have : ∃ s, enumMacros g src = '#' :: s := by
    rw [enumMacros]
    split
    · exact ⟨_, rfl⟩
    · dsimp only
      split <;> exact ⟨_, rfl⟩
  obtain ⟨s, e⟩ := this
  right; rw [e]; rfl

theorem seg_enumDefault {n : Str} (hn : WordText n) : Seg [] (enumDefault n ++ ['\n']) [] none' := by
  have h1 : Seg [] ("impl Default for ".toList ++ n ++ " {".toList ++ ['\n']) [none] none' :=
    seg_opens (l := "impl Default for ".toList ++ n ++ " {".toList)
      (opens_other (i := 0) (c := 'i') (s := "mpl Default for ".toList ++ n ++ " {".toList) rfl (by decide)
      (lastIsOpen_open ("impl Default for ".toList ++ n))) (nl_append (nl_append (by decide) hn.nl) (by decide)) rfl
  have h2 : Seg [none] (List.replicate 4 ' ' ++ ("fn default() -> ".toList ++ n ++ " {".toList) ++ ['\n']) [none, none] none' :=
    (seg_opens (x := none) (d := none') (l := List.replicate 4 ' ' ++ ("fn default() -> ".toList ++ n ++ " {".toList))
      (opens_other (i := 4) (c := 'f') (s := "n default() -> ".toList ++ n ++ " {".toList) rfl (by decide)
      (lastIsOpen_open ("fn default() -> ".toList ++ n)))
      (nl_append (by decide) (nl_append (nl_append (by decide) hn.nl) (by decide))) rfl).inNone
  have h4 : Seg [none, none] ("        Self::__Unknown__(\"No valid variants\".into())".toList ++ ['\n']) [none, none] none' :=
    Seg.push (seg_quiet (quiet_head (n := 8) (c := 'S') (s := "elf::__Unknown__(\"No valid variants\".into()".toList)
      (d := ')') rfl (by decide) (by decide)) (by decide) rfl) _
  have h5 : Seg [none, none] ("    }".toList ++ ['\n']) [none] none' := seg_closes (closes_lit 4) (by decide) rfl
  have h6 : Seg [none] ("}".toList ++ ['\n']) [] none' := seg_closes (closes_lit 0) (by decide) rfl
  have h := h1.none_app (h2.none_app (h4.none_app (h5.none_app h6)))
  delta enumDefault
  simp only [List.append_assoc] at h ⊢
  exact h

theorem seg_enumText {n t : Str} {cs : List EnumCase} {c : Option Str} {src : EnumSource} {a : Str} {fa : Defs}
    (hn : PrefixSafe n) (htn : PrefixSafe t) (hc : ∀ c ∈ cs, CaseSafe c) (ht : SafeNamespace g.targetNs)
    (ha : Seg [] a [] fa) :
    Seg [] (enumText g n cs c t src a) [] (fun p => (p, .enum, g.typeName n) :: fa p) ∧
    Starts (enumText g n cs c t src a) := by
  have hw := typeName_word g hn
  have hwt := typeName_word g htn
  delta enumText
  simp only [List.append_assoc]
  refine ⟨?_, starts_comment_append c ((starts_enumMacros src).append _)⟩
  sg (seg_comment _ _)
  have h0 := seg_enumMacros ht src
  have h1 : Seg [] ("pub enum ".toList ++ (g.typeName n ++ ' ' :: ['{']) ++ ['\n']) [none]
      fun p => [(p, .enum, g.typeName n)] := by
    refine seg_opens (l := "pub enum ".toList ++ (g.typeName n ++ ' ' :: ['{'])) (opens_def (k := .enum)
      (s := "ub enum ".toList ++ (g.typeName n ++ ' ' :: ['{'])) rfl
      (by decide) (readHead_enum hw.sp _) ?_) ?_ rfl
    · have := lastIsOpen_open ("pub enum ".toList ++ g.typeName n)
      rw [List.append_assoc] at this; exact this
    · exact nl_append (by decide) (nl_append hw.nl (by decide))
  have h2 : Seg [] (joinWith "\n".toList (cs.map (genCase g)) ++ ['\n']) [] none' := by
    by_cases hcs : cs = []
    · subst hcs; exact seg_empty rfl
    · refine seg_joinWith_nl ⟨[], rfl, seg_nil _⟩ (by simpa using hcs) ?_
      intro x hx
      obtain ⟨d, hd, rfl⟩ := List.mem_map.1 hx
      exact seg_genCase (hc d hd)
  have h3 : Seg [] (List.replicate 4 ' ' ++ ("__Unknown__(".toList ++ g.typeName t ++ "),".toList) ++ ['\n']) [] none' := by
    refine seg_quiet (l := List.replicate 4 ' ' ++ ("__Unknown__(".toList ++ g.typeName t ++ "),".toList))
      (quiet_head (n := 4) (c := '_') (s := "_Unknown__(".toList ++ g.typeName t ++ ")".toList) (d := ',') ?_ (by decide) (by decide)) ?_ rfl
    · simp only [List.append_assoc, List.cons_append]
      rfl
    · exact nl_append (by decide) (nl_append (nl_append (by decide) hwt.nl) (by decide))
  have h4 : Seg [none] ("}".toList ++ ['\n']) [] none' := seg_closes (closes_lit 0) (by decide) rfl
  have hbody := h1.app_none ((h2.push [none]).none_app ((h3.push [none]).none_app h4))
  have hdef := seg_enumDefault hw
  have hval : Seg [] (genValidateImpl (g.typeName n) [] ++ ['\n']) [] none' := seg_validate hw nlBlock_nil
  have e : Seg [] ['\n'] [] none' := seg_empty rfl
  have h := h0.none_app (hbody.app (e.none_app (hdef.none_app (e.none_app (hval.none_app (e.none_app (ha.app_none (e.app_none e))))))))
  simp only [List.append_assoc, List.cons_append, List.nil_append] at h ⊢
  exact h

/-! ## Tuple structs, aliases, imports -/

theorem seg_tupleText {n : Str} {c : Option Str} {t : Str} {ms : List TypeModifier} {fs : List Facet} {sub : Str} {fa : Defs}
    (hn : PrefixSafe n) (ht : PrefixSafe t)
    (hv : ∀ f ∈ fs, ∀ v, facetBound f.facetType = some v → QuoteSafe v) (ha : Seg [] sub [] fa) {r : Str}
    (h : tupleText g n c t ms fs sub = .ok r) :
    Seg [] r [] (fun p => (p, .struct, g.typeName n) :: fa p) ∧ Starts r := by
  rw [tupleText] at h
  obtain ⟨body, h1, h⟩ := Res.bind_eq_ok.1 h
  obtain rfl := Res.ok.inj h
  have hw := typeName_word g hn
  have htn : '\n' ∉ tupleTypeName g t ms := modifyType_nl (typeName_word g ht) ms
  have hm : Seg [] "#[derive(Default, Clone, PartialEq, Debug, UtilsTupleIo, UtilsDefaultSerde)]\n".toList [] none' :=
    seg_attr (i := 0) (s := "[derive(Default, Clone, PartialEq, Debug, UtilsTupleIo, UtilsDefaultSerde)".toList) (by decide) rfl
  simp only [List.append_assoc]
  refine ⟨?_, starts_comment_append c (Starts.append (.inr rfl) _)⟩
  sg (seg_comment _ _)
  sg hm
  have hd : Seg [] ("pub struct ".toList ++ (g.typeName n ++ ' ' :: ("(pub ".toList ++ (tupleTypeName g t ms ++ ");".toList))) ++ ['\n']) []
      fun p => [(p, .struct, g.typeName n)] := by
    refine seg_def (i := 0) (l := "pub struct ".toList ++ (g.typeName n ++ ' ' :: ("(pub ".toList ++ (tupleTypeName g t ms ++ ");".toList))))
        (s := "ub struct ".toList ++ (g.typeName n ++ ' ' :: ("(pub ".toList ++ (tupleTypeName g t ms ++ ");".toList)))) rfl
        (readHead_struct hw.sp _) ?_ ?_ rfl
    · rw [show "pub struct ".toList ++ (g.typeName n ++ ' ' :: ("(pub ".toList ++ (tupleTypeName g t ms ++ ");".toList))) =
        ("pub struct ".toList ++ (g.typeName n ++ ' ' :: ("(pub ".toList ++ (tupleTypeName g t ms ++ [')'])))) ++ [';'] by simp,
        lastIsOpen_snoc _ _ (by decide)]
      rfl
    · refine nl_append (by decide) (nl_append hw.nl ?_)
      exact nl_append (a := " (pub ".toList) (by decide) (nl_append htn (by decide))
  have hval := seg_validate hw (nlBlock_facets htn hv h1)
  have h := hd.app (ha.app_none ((seg_empty (t := ['\n']) rfl).none_app hval))
  simp only [List.append_assoc, List.cons_append, List.nil_append] at h ⊢
  exact h

theorem seg_genAlias {n o : Str} {c : Option Str} (hn : PrefixSafe n) (ho : PrefixSafe o) :
    Seg [] (genAlias g n o c) [] (fun p => if decide (GenCtx.formatComment c 0 ≠ []) then [(p, .type, g.typeName n)] else []) ∧
    Starts (genAlias g n o c) := by
  have hw := typeName_word g hn
  have hwo := typeName_word g ho
  have hst : Starts (genAlias g n o c) := by
    delta genAlias
    simp only [List.append_assoc]
    exact Starts.append (.inl rfl) _
  refine ⟨?_, hst⟩
  delta genAlias
  obtain ⟨ls, h1, h2⟩ := comment_lines c 0
  cases ls with
  | nil =>
    have e : GenCtx.formatComment c 0 = [] := h1
    simp only [e, ne_eq, not_true_eq_false, decide_false, Bool.false_eq_true, if_false]
    refine seg_quiet (l := "//".toList ++ (" pub type ".toList ++ (g.typeName n ++ (" = ".toList ++ (g.typeName o ++ ";".toList)))))
      (quiet_comment (s := " pub type ".toList ++ (g.typeName n ++ (" = ".toList ++ (g.typeName o ++ ";".toList)))) ?_) ?_ ?_
    · exact trimLine_of_head (by simp) (by simp)
    · exact nl_append (by decide) (nl_append (by decide) (nl_append hw.nl (nl_append (by decide) (nl_append hwo.nl (by decide)))))
    · simp only [List.append_assoc, List.nil_append]; rfl
  | cons l ls =>
    have e : GenCtx.formatComment c 0 ≠ [] := by rw [h1]; simp
    simp only [decide_eq_true e, if_true]
    have hc : Seg [] ("//".toList ++ GenCtx.formatComment c 0) [] none' := by
      refine ⟨("//".toList ++ l) :: ls, ?_, ?_, ?_⟩
      · rw [h1, List.flatMap_cons, List.flatMap_cons]; simp only [List.append_assoc]
      · intro m hm
        rcases List.mem_cons.1 hm with rfl | hm
        · exact nl_append (by decide) (h2 l (by simp)).1
        · exact (h2 m (by simp [hm])).1
      · refine block_quiet ?_
        intro m hm
        rcases List.mem_cons.1 hm with rfl | hm
        · exact quiet_comment (s := l) (trimLine_of_head (by simp) (by simp))
        · obtain ⟨rest, er⟩ := (h2 m (by simp [hm])).2
          refine quiet_comment (s := rest) ?_
          rw [er, trimLine_spaces]
          exact trimLine_of_head (by simp) (by simp)
    have hd : Seg [] (List.replicate 1 ' ' ++ ("pub type ".toList ++ (g.typeName n ++ ' ' :: ("= ".toList ++ (g.typeName o ++ ";".toList)))) ++ ['\n']) []
        fun p => [(p, .type, g.typeName n)] := by
      refine seg_def (i := 1) (l := "pub type ".toList ++ (g.typeName n ++ ' ' :: ("= ".toList ++ (g.typeName o ++ ";".toList))))
          (s := "ub type ".toList ++ (g.typeName n ++ ' ' :: ("= ".toList ++ (g.typeName o ++ ";".toList)))) rfl
          (readHead_type hw.sp _) ?_ ?_ rfl
      · rw [show "pub type ".toList ++ (g.typeName n ++ ' ' :: ("= ".toList ++ (g.typeName o ++ ";".toList))) =
          ("pub type ".toList ++ (g.typeName n ++ ' ' :: ("= ".toList ++ g.typeName o))) ++ [';'] by simp,
          lastIsOpen_snoc _ _ (by decide)]
        rfl
      · refine nl_append (by decide) (nl_append hw.nl ?_)
        exact nl_append (a := " = ".toList) (by decide) (nl_append hwo.nl (by decide))
    have h := hc.none_app hd
    simp only [List.append_assoc, List.cons_append] at h ⊢
    exact h

theorem seg_genImport {i : Import} (h1 : '\n' ∉ i.location) (h2 : '\n' ∉ i.name) :
    Seg [] (genImport i) [] none' ∧ Starts (genImport i) := by
  delta genImport
  simp only [List.append_assoc]
  refine ⟨?_, Starts.append (.inl rfl) _⟩
  refine seg_quiet (l := "//use ".toList ++ (i.location ++ ("  ".toList ++ (i.name ++ ";".toList))))
    (quiet_comment (s := "use ".toList ++ (i.location ++ ("  ".toList ++ (i.name ++ ";".toList)))) ?_) ?_ ?_
  · exact trimLine_of_head (by simp) (by simp)
  · exact nl_append (by decide) (nl_append h1 (nl_append (by decide) (nl_append h2 (by decide))))
  · simp only [List.append_assoc]; rfl

end Verif.Lemmas.Gen
