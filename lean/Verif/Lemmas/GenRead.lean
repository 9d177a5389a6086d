import Verif.Spec.Items
import Verif.Lemmas.GenRec

/-! # Reading generated code line by line -/

namespace Verif.Lemmas.Gen

open Verif Verif.Model Verif.Spec Inflector

attribute [local irreducible] genBoundValidation genLenValidation structText enumText genField genCase

/-! ## Lines -/

abbrev lns (t : Str) : List Str := Str.splitOn '\n' t

theorem lns_cons (c : Char) (t : Str) (h : c ≠ '\n') : ∃ p ps, lns t = p :: ps ∧ lns (c :: t) = (c :: p) :: ps := by
  have hne : lns t ≠ [] := by
    intro h0
    have := flatMap_nl_splitOn t
    rw [show Str.splitOn '\n' t = [] from h0] at this
    cases this
  obtain ⟨p, ps, hp⟩ := List.exists_cons_of_ne_nil hne
  refine ⟨p, ps, hp, ?_⟩
  rw [lns, Str.splitOn, if_neg h]
  rw [lns] at hp
  rw [hp]

theorem lns_nl (t : Str) : lns ('\n' :: t) = [] :: lns t := by rw [lns, Str.splitOn, if_pos rfl]

theorem lns_ne_nil (t : Str) : lns t ≠ [] := by
  intro h0
  have := flatMap_nl_splitOn t
  rw [show Str.splitOn '\n' t = [] from h0] at this
  cases this

/-- A line end separates. -/
theorem lns_append_nl (a b : Str) : lns (a ++ '\n' :: b) = lns a ++ lns b := by
  induction a with
  | nil => rw [List.nil_append, lns_nl]; rfl
  | cons c a ih =>
    by_cases h : c = '\n'
    · subst h; rw [List.cons_append, lns_nl, lns_nl, ih]; rfl
    · obtain ⟨p, ps, h1, h2⟩ := lns_cons c a h
      obtain ⟨q, qs, h3, h4⟩ := lns_cons c (a ++ '\n' :: b) h
      rw [List.cons_append, h4, h2]
      rw [ih, h1] at h3
      simp only [List.cons_append, List.cons.injEq] at h3
      obtain ⟨rfl, rfl⟩ := h3
      rfl

theorem lns_single {a : Str} (h : '\n' ∉ a) : lns a = [a] := splitOn_of_not_mem h

theorem lns_lined {ls : List Str} (h : ∀ l ∈ ls, '\n' ∉ l) (t : Str) :
    lns (ls.flatMap (· ++ ['\n']) ++ t) = ls ++ lns t := by
  induction ls with
  | nil => rfl
  | cons l ls ih =>
    rw [List.flatMap_cons, List.append_assoc, List.append_assoc]
    show lns (l ++ '\n' :: (ls.flatMap (· ++ ['\n']) ++ t)) = _
    rw [lns_append_nl, lns_single (h l (by simp)), ih fun l hl => h l (by simp [hl])]
    rfl

theorem lns_nlLines {a : Str} (ha : '\n' ∉ a) {ls : List Str} (h : ∀ l ∈ ls, '\n' ∉ l) :
    lns (a ++ ls.flatMap ('\n' :: ·)) = a :: ls := by
  induction ls generalizing a with
  | nil => rw [List.flatMap_nil, List.append_nil]; exact lns_single ha
  | cons l ls ih =>
    rw [List.flatMap_cons, List.cons_append, lns_append_nl, lns_single ha, ih (h l (by simp)) fun l hl => h l (by simp [hl])]
    rfl

theorem lines_lns (t : Str) : Lines t (lns t) := ⟨splitOn_intercalate, lns_ne_nil t, splitOn_not_mem⟩

theorem lines_unique {t : Str} {ls : List Str} (h : Lines t ls) : ls = lns t := by
  obtain ⟨h1, h2, h3⟩ := h
  subst h1
  cases ls with
  | nil => exact absurd rfl h2
  | cons l ls =>
    have : List.intercalate ['\n'] (l :: ls) = l ++ ls.flatMap ('\n' :: ·) := by
      clear h2 h3
      induction ls generalizing l with
      | nil => simp [List.intercalate]
      | cons m ls ih =>
        have e : List.intercalate ['\n'] (l :: m :: ls) = l ++ ['\n'] ++ List.intercalate ['\n'] (m :: ls) := by
          simp [List.intercalate]
        rw [e, ih m]
        simp
    rw [this, lns_nlLines (h3 l (by simp)) fun l hl => h3 l (by simp [hl])]

/-! ## Blocks of lines -/

/-- What is read from a block of lines, given the module it stands in. -/
abbrev Defs := List Str → List (List Str × DefKind × Str)

/-- The lines leave the open blocks as they are and have these definitions. -/
def Block (ls : List Str) (f : Defs) : Prop :=
  ∀ stk, stackAfter stk ls = stk ∧ readDefs stk ls = f (modPath stk)

theorem stackAfter_append (stk : Blocks) (a b : List Str) :
    stackAfter stk (a ++ b) = stackAfter (stackAfter stk a) b := by
  induction a generalizing stk with
  | nil => rfl
  | cons l a ih => exact ih _

theorem readDefs_append (stk : Blocks) (a b : List Str) :
    readDefs stk (a ++ b) = readDefs stk a ++ readDefs (stackAfter stk a) b := by
  induction a generalizing stk with
  | nil => rfl
  | cons l a ih => rw [List.cons_append, readDefs, readDefs, ih, stackAfter, List.append_assoc]

theorem Block.app {a b : List Str} {f h : Defs} (ha : Block a f) (hb : Block b h) :
    Block (a ++ b) fun p => f p ++ h p := by
  intro stk
  rw [stackAfter_append, readDefs_append, (ha stk).1, (ha stk).2, (hb stk).1, (hb stk).2]
  exact ⟨rfl, rfl⟩

def none' : Defs := fun _ => []

theorem block_nil : Block [] none' := fun _ => ⟨rfl, rfl⟩

/-- A line without meaning. -/
def Quiet (l : Str) : Prop := ∀ stk, lineStack stk l = stk ∧ lineDef stk l = []

theorem Quiet.block {l : Str} (h : Quiet l) : Block [l] none' := by
  intro stk
  rw [stackAfter, readDefs, (h stk).1, (h stk).2]
  exact ⟨rfl, rfl⟩

theorem Block.app_none {a b : List Str} {f : Defs} (ha : Block a f) (hb : Block b none') : Block (a ++ b) f := by
  have := ha.app hb
  simpa [none'] using this

theorem Block.none_app {a b : List Str} {f : Defs} (ha : Block a none') (hb : Block b f) : Block (a ++ b) f := by
  have := ha.app hb
  simpa [none'] using this

theorem block_quiet {ls : List Str} (h : ∀ l ∈ ls, Quiet l) : Block ls none' := by
  induction ls with
  | nil => exact block_nil
  | cons l ls ih => exact (h l (by simp)).block.none_app (ih fun l hl => h l (by simp [hl]))

/-- A line which opens a block. -/
def Opens (l : Str) (x : Option Str) (d : Defs) : Prop :=
  ∀ stk, lineStack stk l = x :: stk ∧ lineDef stk l = d (modPath stk)

def Closes (l : Str) : Prop := ∀ stk, lineStack stk l = stk.tail ∧ lineDef stk l = []

theorem Block.wrap {o c : Str} {ls : List Str} {d f : Defs} (ho : Opens o none d) (hl : Block ls f) (hc : Closes c) :
    Block (o :: (ls ++ [c])) fun p => d p ++ f p := by
  intro stk
  rw [stackAfter, readDefs, (ho stk).1, (ho stk).2, stackAfter_append, readDefs_append, (hl _).1, (hl _).2, stackAfter,
    readDefs, (hc _).1, (hc _).2]
  refine ⟨rfl, ?_⟩
  simp [modPath, readDefs]

theorem Block.wrapMod {o c m : Str} {ls : List Str} {d f : Defs} (ho : Opens o (some m) d) (hl : Block ls f) (hc : Closes c) :
    Block (o :: (ls ++ [c])) fun p => d p ++ f (p ++ [m]) := by
  intro stk
  rw [stackAfter, readDefs, (ho stk).1, (ho stk).2, stackAfter_append, readDefs_append, (hl _).1, (hl _).2, stackAfter,
    readDefs, (hc _).1, (hc _).2]
  refine ⟨rfl, ?_⟩
  simp [modPath, readDefs]

/-! ## Single lines -/

theorem afterPrefix_append (p s : Str) : afterPrefix p (p ++ s) = some s := by
  induction p with
  | nil => cases s <;> rfl
  | cons c p ih => rw [List.cons_append, afterPrefix, if_pos rfl, ih]

theorem afterPrefix_common (p q s : Str) : afterPrefix (p ++ q) (p ++ s) = afterPrefix q s := by
  induction p with
  | nil => rfl
  | cons c p ih => rw [List.cons_append, List.cons_append, afterPrefix, if_pos rfl, ih]

/-- A word which ends before the prefix does, with another character. -/
theorem afterPrefix_none {w n r : Str} {c d : Char} (hc : c ∉ w) (hd : d ∈ w) (hn : d ∉ n) :
    afterPrefix w (n ++ c :: r) = none := by
  induction w generalizing n with
  | nil => cases hd
  | cons e w ih =>
    cases n with
    | nil =>
      rw [List.nil_append, afterPrefix, if_neg]
      rintro rfl; exact hc (by simp)
    | cons m n =>
      rw [List.cons_append, afterPrefix]
      split
      · rename_i h
        subst h
        refine ih (fun h => hc (by simp [h])) ?_ (fun h => hn (by simp [h]))
        rcases List.mem_cons.1 hd with rfl | h
        · exact absurd (by simp) hn
        · exact h
      · rfl

theorem afterPrefix_head {p : Char} {ps s : Str} (h : s.head? ≠ some p) : afterPrefix (p :: ps) s = none := by
  cases s with
  | nil => rfl
  | cons c s =>
    rw [afterPrefix, if_neg]
    rintro rfl; exact h rfl

theorem readHead_of_head {s : Str} (h : s.head? ≠ some 'p') : readHead s = none := by
  have e : ∀ ps, afterPrefix ('p' :: ps) s = none := fun ps => afterPrefix_head h
  have h1 : afterPrefix "pub struct ".toList s = none := e "ub struct ".toList
  have h2 : afterPrefix "pub enum ".toList s = none := e "ub enum ".toList
  have h3 : afterPrefix "pub mod ".toList s = none := e "ub mod ".toList
  have h4 : afterPrefix "pub type ".toList s = none := e "ub type ".toList
  rw [readHead, h1, h2, h3, h4]

theorem trimLine_spaces (n : Nat) (s : Str) : trimLine (List.replicate n ' ' ++ s) = trimLine s := by
  have : (List.replicate n ' ' ++ s).dropWhile (· = ' ') = s.dropWhile (· = ' ') := by
    induction n with
    | zero => rfl
    | succ n ih => rw [List.replicate_succ, List.cons_append, List.dropWhile_cons_of_pos (by simp), ih]
  rw [trimLine, this, trimLine]

theorem dropSpaces_of_head {s : Str} (h : s.head? ≠ some ' ') : s.dropWhile (· = ' ') = s := by
  cases s with
  | nil => rfl
  | cons c s =>
    rw [List.dropWhile_cons_of_neg]
    simp only [decide_eq_true_eq]
    rintro rfl; exact h rfl

theorem trimLine_of {s : Str} (h : s.head? ≠ some ' ') (hu : afterPrefix "use super::*;".toList s = none) :
    trimLine s = s := by
  rw [trimLine, dropSpaces_of_head h]
  rw [hu, Option.getD_none, dropSpaces_of_head h]

theorem trimLine_of_head {s : Str} (h : s.head? ≠ some ' ') (hu : s.head? ≠ some 'u') : trimLine s = s :=
  trimLine_of h (afterPrefix_head (p := 'u') hu)

theorem lastIsOpen_snoc (s : Str) (c : Char) (h : c ≠ ' ') : lastIsOpen (s ++ [c]) = decide (c = '{') := by
  rw [lastIsOpen, List.reverse_append]
  show decide ((List.dropWhile (· = ' ') (c :: s.reverse)).head? = some '{') = _
  rw [List.dropWhile_cons_of_neg (by simpa using h)]
  simp

theorem quiet_comment {l s : Str} (ht : trimLine l = '/' :: '/' :: s) : Quiet l := by
  have hc : isCommentLine (trimLine l) = true := by rw [ht]; rfl
  intro stk
  rw [lineStack, lineDef, hc]
  exact ⟨rfl, rfl⟩

theorem quiet_of {l : Str} (h1 : (trimLine l).head? ≠ some '}') (h2 : lastIsOpen (trimLine l) = false)
    (h3 : readHead (trimLine l) = none) : Quiet l := by
  intro stk
  rw [lineStack, lineDef, if_neg h1, h2, h3]
  simp [defAt]

/-- A line whose first character (after the indentation) is harmless, as is its last. -/
theorem quiet_head {l s : Str} {n : Nat} {c d : Char} (hl : l = List.replicate n ' ' ++ (c :: s ++ [d]))
    (hc : c ∉ ['p', '}', 'u', ' ']) (hd : d ∉ ['{', ' ']) : Quiet l := by
  simp only [List.mem_cons, List.not_mem_nil, or_false, not_or] at hc hd
  have hh : (c :: s ++ [d]).head? = some c := rfl
  have ht : trimLine l = c :: s ++ [d] := by
    rw [hl, trimLine_spaces, trimLine_of_head]
    · rw [hh]; simp [hc]
    · rw [hh]; simp [hc]
  apply quiet_of
  · rw [ht, hh]; simp [hc]
  · rw [ht, lastIsOpen_snoc _ _ hd.2]; simp [hd.1]
  · rw [ht, readHead_of_head]; rw [hh]; simp [hc]

theorem quiet_nil : Quiet [] := fun _ => ⟨rfl, rfl⟩

theorem quiet_spaces (n : Nat) : Quiet (List.replicate n ' ') := by
  have ht : trimLine (List.replicate n ' ') = [] := by
    have := trimLine_spaces n []
    rw [List.append_nil] at this
    rw [this]; rfl
  apply quiet_of <;> rw [ht] <;> decide

/-- Indentation does not matter. -/
theorem lineStack_spaces (stk : Blocks) (n : Nat) (l : Str) : lineStack stk (List.replicate n ' ' ++ l) = lineStack stk l := by
  rw [lineStack, trimLine_spaces, ← lineStack]

theorem lineDef_spaces (stk : Blocks) (n : Nat) (l : Str) : lineDef stk (List.replicate n ' ' ++ l) = lineDef stk l := by
  rw [lineDef, trimLine_spaces, ← lineDef]

/-! ## Shifting -/

theorem block_filter (ls : List Str) (f : Defs) : Block (ls.filter (· ≠ [])) f ↔ Block ls f := by
  have key : ∀ stk, stackAfter stk (ls.filter (· ≠ [])) = stackAfter stk ls ∧
      readDefs stk (ls.filter (· ≠ [])) = readDefs stk ls := by
    induction ls with
    | nil => intro stk; exact ⟨rfl, rfl⟩
    | cons l ls ih =>
      intro stk
      by_cases hl : l = []
      · subst hl
        rw [List.filter_cons_of_neg (by simp), stackAfter, readDefs, (quiet_nil stk).1, (quiet_nil stk).2]
        exact ih stk
      · rw [List.filter_cons_of_pos (by simpa using hl), stackAfter, readDefs, stackAfter, readDefs, (ih _).1, (ih _).2]
        exact ⟨rfl, rfl⟩
  constructor <;> intro h stk
  · rw [← (key stk).1, ← (key stk).2]; exact h stk
  · rw [(key stk).1, (key stk).2]; exact h stk

theorem replaceTripleNl_lines (t : Str) : ∃ p ps qs, lns t = p :: ps ∧ lns (replaceTripleNl t) = p :: qs ∧
    ps.filter (· ≠ []) = qs.filter (· ≠ []) := by
  fun_induction replaceTripleNl t with
  | case1 cs ih =>
    obtain ⟨p, ps, qs, h1, h2, h3⟩ := ih
    refine ⟨[], [] :: [] :: p :: ps, p :: qs, ?_, ?_, ?_⟩
    · rw [lns_nl, lns_nl, lns_nl, h1]
    · rw [lns_nl, h2]
    · rw [List.filter_cons_of_neg (by simp), List.filter_cons_of_neg (by simp), List.filter_cons, List.filter_cons, h3]
  | case2 c cs h0 ih =>
    obtain ⟨p, ps, qs, h1, h2, h3⟩ := ih
    by_cases h : c = '\n'
    · subst h
      refine ⟨[], p :: ps, p :: qs, by rw [lns_nl, h1], by rw [lns_nl, h2], ?_⟩
      rw [List.filter_cons, List.filter_cons, h3]
    · obtain ⟨q, rs, k1, k2⟩ := lns_cons c cs h
      obtain ⟨q', rs', k3, k4⟩ := lns_cons c (replaceTripleNl cs) h
      rw [h1] at k1; rw [h2] at k3
      cases k1; cases k3
      exact ⟨c :: p, ps, qs, k2, k4, h3⟩
  | case3 => exact ⟨[], [], [], rfl, rfl, rfl⟩

/-- The lines of a text which was shifted: the non-empty lines, indented. -/
theorem shift_lines (t : Str) (n : Nat) :
    (lns (shift t (List.replicate n ' '))).head? = some (List.replicate n ' ') ∧
    ((lns (shift t (List.replicate n ' '))).tail.filter (· ≠ [])) =
      ((lns t).filter (· ≠ [])).map (List.replicate n ' ' ++ ·) := by
  have hmap : ∀ ls : List Str, indentLines n ls =
      (ls.map fun s => if s ≠ [] then List.replicate n ' ' ++ s else []).flatMap ('\n' :: ·) := by
    intro ls
    rw [indentLines, List.flatMap_map]
    congr 1; funext s
    split <;> rfl
  obtain ⟨p, ps, qs, h1, h2, h3⟩ := replaceTripleNl_lines t
  have hsp : '\n' ∉ List.replicate n ' ' := by
    intro h; rw [List.mem_replicate] at h; revert h; simp
  rw [shift_eq, hmap, lns_nlLines hsp]
  · refine ⟨rfl, ?_⟩
    rw [List.tail_cons, show Str.splitOn '\n' (replaceTripleNl t) = p :: qs from h2, h1]
    have : ((p :: ps).filter (· ≠ [])) = ((p :: qs).filter (· ≠ [])) := by rw [List.filter_cons, List.filter_cons, h3]
    rw [this]
    generalize p :: qs = ls
    induction ls with
    | nil => rfl
    | cons l ls ih =>
      rw [List.map_cons, List.filter_cons, List.filter_cons]
      by_cases hl : l = []
      · subst hl; simpa using ih
      · simp only [hl, ne_eq, not_false_eq_true, if_true, decide_true, List.append_eq_nil_iff, and_false, List.map_cons]
        rw [ih]
  · intro l hl
    obtain ⟨s, hs, rfl⟩ := List.mem_map.1 hl
    have := splitOn_not_mem s hs
    split
    · intro h
      rcases List.mem_append.1 h with h | h
      · exact hsp h
      · exact this h
    · simp

theorem shift_block {t : Str} {f : Defs} (h : Block (lns t) f) (n : Nat) :
    Block (lns (shift t (List.replicate n ' '))) f := by
  obtain ⟨h1, h2⟩ := shift_lines t n
  cases hs : lns (shift t (List.replicate n ' ')) with
  | nil => rw [hs] at h1; cases h1
  | cons a ls =>
    rw [hs] at h1 h2
    cases h1
    refine (quiet_spaces n).block.none_app (a := [_]) ?_
    rw [← block_filter, show ls.filter (· ≠ []) = _ from h2]
    have hk := (block_filter (lns t) f).2 h
    generalize (lns t).filter (· ≠ []) = ms at hk
    have key : ∀ stk, stackAfter stk (ms.map (List.replicate n ' ' ++ ·)) = stackAfter stk ms ∧
        readDefs stk (ms.map (List.replicate n ' ' ++ ·)) = readDefs stk ms := by
      clear hk h2
      induction ms with
      | nil => intro stk; exact ⟨rfl, rfl⟩
      | cons m ms ih =>
        intro stk
        rw [List.map_cons, stackAfter, readDefs, stackAfter, readDefs, lineStack_spaces, lineDef_spaces, (ih _).1, (ih _).2]
        exact ⟨rfl, rfl⟩
    intro stk
    rw [(key stk).1, (key stk).2]
    exact hk stk

/-! ## Lines inside a block -/

/-- A line inside a block: nothing is hidden before it, and it is no implementation. -/
structure Fit (l : Str) : Prop where
  trim : trimLine l = dropSpaces l

/-- Lines inside a block which leave the blocks as they are, and define nothing. -/
structure Inner (ls : List Str) : Prop where
  block : Block ls none'
  lines : ∀ d rest, blockLines d (ls ++ rest) = (ls.map dropSpaces).filter (· ≠ []) ++ blockLines d rest
  deep : ∀ (stk : Blocks) as, stk.head? = some none → ∃ bs, ∀ rest, readItems stk as (ls ++ rest) = readItems stk bs rest

theorem lineItem_deep {stk : Blocks} (h : stk.head? = some none) (as : List Str) (l : Str) (rest : List Str) :
    lineItem stk as l rest = [] := by
  rw [lineItem]
  exact if_pos (.inl h)

theorem depth_quiet {l : Str} (h : Quiet l) (hf : Fit l) (d : Nat) : depthAfter d (dropSpaces l) = some d := by
  have h0 := (h [none]).1
  rw [lineStack, hf.trim] at h0
  rw [depthAfter.eq_def]
  by_cases hc : isCommentLine (dropSpaces l) = true
  · rw [if_pos hc]
  · rw [if_neg hc] at h0 ⊢
    by_cases h1 : (dropSpaces l).head? = some '}'
    · rw [if_pos h1] at h0; cases h0
    · rw [if_neg h1] at h0 ⊢
      by_cases h2 : lastIsOpen (dropSpaces l) = true
      · rw [if_pos h2] at h0; simp at h0
      · rw [if_neg h2]

theorem depth_opens {l : Str} {d' : Defs} (h : Opens l none d') (hf : Fit l) (d : Nat) :
    depthAfter d (dropSpaces l) = some (d + 1) := by
  have h0 := (h [none]).1
  rw [lineStack, hf.trim] at h0
  rw [depthAfter.eq_def]
  by_cases hc : isCommentLine (dropSpaces l) = true
  · rw [if_pos hc] at h0; simp at h0
  · rw [if_neg hc] at h0 ⊢
    by_cases h1 : (dropSpaces l).head? = some '}'
    · rw [if_pos h1] at h0; simp at h0
    · rw [if_neg h1] at h0 ⊢
      by_cases h2 : lastIsOpen (dropSpaces l) = true
      · rw [if_pos h2]
      · rw [if_neg h2] at h0; simp at h0

theorem closes_head {l : Str} (h : Closes l) (hf : Fit l) :
    isCommentLine (dropSpaces l) = false ∧ (dropSpaces l).head? = some '}' := by
  have h0 := (h [none]).1
  rw [lineStack, hf.trim] at h0
  by_cases hc : isCommentLine (dropSpaces l) = true
  · rw [if_pos hc] at h0; simp at h0
  · rw [if_neg hc] at h0
    refine ⟨by simpa using hc, ?_⟩
    by_contra h1
    rw [if_neg h1] at h0
    split at h0 <;> simp at h0

theorem inner_nil : Inner [] := ⟨block_nil, fun _ _ => rfl, fun _ as _ => ⟨as, fun _ => rfl⟩⟩

theorem Inner.app {a b : List Str} (ha : Inner a) (hb : Inner b) : Inner (a ++ b) where
  block := ha.block.app_none hb.block
  lines d rest := by
    rw [List.append_assoc, ha.lines, hb.lines, List.map_append, List.filter_append, List.append_assoc]
  deep stk as h := by
    obtain ⟨bs, h1⟩ := ha.deep stk as h
    obtain ⟨cs, h2⟩ := hb.deep stk bs h
    exact ⟨cs, fun rest => by rw [List.append_assoc, h1, h2]⟩

theorem filter_one (s : Str) : [s].filter (· ≠ []) = if s = [] then [] else [s] := by
  by_cases h : s = [] <;> simp [h]

theorem inner_quiet {l : Str} (h : Quiet l) (hf : Fit l) : Inner [l] where
  block := h.block
  lines d rest := by
    rw [List.singleton_append, blockLines, depth_quiet h hf, List.map_singleton, filter_one]
  deep stk as hs := ⟨attrsAfter as l, fun rest => by
    rw [List.singleton_append, readItems, lineItem_deep hs, (h stk).1]; rfl⟩

theorem Inner.wrap {o c : Str} {ls : List Str} (ho : Opens o none none') (hfo : Fit o) (hl : Inner ls) (hc : Closes c)
    (hfc : Fit c) : Inner (o :: (ls ++ [c])) where
  block := Block.wrap ho hl.block hc
  lines d rest := by
    have hcd : depthAfter (d + 1) (dropSpaces c) = some d := by
      rw [depthAfter.eq_def, (closes_head hc hfc).1, if_neg (by simp), if_pos (closes_head hc hfc).2]
    rw [List.cons_append, blockLines, depth_opens ho hfo]
    dsimp only
    rw [List.append_assoc, hl.lines, List.singleton_append, blockLines, hcd]
    dsimp only
    rw [List.map_cons, List.map_append, List.map_singleton, show dropSpaces o :: (List.map dropSpaces ls ++ [dropSpaces c]) = [dropSpaces o] ++ (List.map dropSpaces ls ++ [dropSpaces c]) from rfl, List.filter_append,
      List.filter_append, filter_one, filter_one]
    simp only [List.append_assoc]
  deep stk as hs := by
    obtain ⟨bs, h1⟩ := hl.deep (none :: stk) (attrsAfter as o) rfl
    refine ⟨attrsAfter bs c, fun rest => ?_⟩
    rw [List.cons_append, readItems, lineItem_deep hs, (ho stk).1, List.append_assoc, h1, List.singleton_append, readItems,
      lineItem_deep rfl, (hc (none :: stk)).1]
    rfl

/-- The end of the block. -/
theorem Inner.close {c : Str} {ls : List Str} (hl : Inner ls) (hc : Closes c) (hfc : Fit c) (rest : List Str) :
    blockLines 0 (ls ++ c :: rest) = (ls.map dropSpaces).filter (· ≠ []) := by
  have hcd : depthAfter 0 (dropSpaces c) = none := by
    rw [depthAfter.eq_def, (closes_head hc hfc).1, if_neg (by simp), if_pos (closes_head hc hfc).2]
  rw [hl.lines, blockLines, hcd]
  simp

theorem inner_lines {ls : List Str} (h : ∀ l ∈ ls, Quiet l ∧ Fit l) : Inner ls := by
  induction ls with
  | nil => exact inner_nil
  | cons l ls ih =>
    exact (inner_quiet (h l (by simp)).1 (h l (by simp)).2).app (ih fun l hl => h l (by simp [hl]))

/-- By the first character after the indentation. -/
theorem fit_head {l s : Str} {n : Nat} {c : Char} (hl : l = List.replicate n ' ' ++ (c :: s)) (h1 : c ≠ ' ') (h2 : c ≠ 'u') :
    Fit l := by
  have ht : trimLine l = c :: s := by
    rw [hl, trimLine_spaces, trimLine_of_head] <;> simpa
  have hd : dropSpaces l = c :: s := by
    rw [hl, dropSpaces]
    clear ht hl
    induction n with
    | zero => exact dropSpaces_of_head (by simpa using h1)
    | succ n ih => rw [List.replicate_succ, List.cons_append, List.dropWhile_cons_of_pos (by simp)]; exact ih
  exact ⟨ht.trans hd.symm⟩

theorem fit_nil : Fit [] := ⟨rfl⟩

theorem fit_if {l s : Str} {n : Nat} (hl : l = List.replicate n ' ' ++ ("if ".toList ++ s)) : Fit l := by
  have hd : dropSpaces l = "if ".toList ++ s := by
    subst hl
    rw [dropSpaces]
    induction n with
    | zero => exact dropSpaces_of_head (by simp)
    | succ n ih => rw [List.replicate_succ, List.cons_append, List.dropWhile_cons_of_pos (by simp)]; exact ih
  have ht : trimLine l = "if ".toList ++ s := by
    rw [hl, trimLine_spaces, trimLine_of_head] <;> simp
  exact ⟨ht.trans hd.symm⟩

end Verif.Lemmas.Gen
