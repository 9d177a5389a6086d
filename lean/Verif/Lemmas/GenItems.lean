import Verif.Lemmas.GenMembers
import Verif.Lemmas.GenValidate

/-! # The items which are read from generated code -/

namespace Verif.Lemmas.Gen

open Verif Verif.Model Verif.Spec Inflector

attribute [local irreducible] genBoundValidation genLenValidation structText enumText genField genCase

variable {g : GenCtx}

/-! ## Indentation and empty lines do not matter -/

def norm (ls : List Str) : List Str := (ls.map dropSpaces).filter (· ≠ [])

theorem norm_append (a b : List Str) : norm (a ++ b) = norm a ++ norm b := by
  rw [norm, List.map_append, List.filter_append]; rfl

theorem norm_cons (l : Str) (ls : List Str) : norm (l :: ls) = (if dropSpaces l = [] then [] else [dropSpaces l]) ++ norm ls := by
  rw [show l :: ls = [l] ++ ls from rfl, norm_append]
  congr 1
  exact filter_one _

theorem dropSpaces_idem (l : Str) : dropSpaces (dropSpaces l) = dropSpaces l := by
  rw [dropSpaces, dropSpaces]
  induction l with
  | nil => rfl
  | cons c l ih =>
    by_cases hc : c = ' '
    · rw [List.dropWhile_cons_of_pos (by simpa using hc)]; exact ih
    · rw [List.dropWhile_cons_of_neg (by simpa using hc)]
      exact List.dropWhile_cons_of_neg (by simpa using hc)

theorem trimLine_dropSpaces (l : Str) : trimLine (dropSpaces l) = trimLine l := by
  have := dropSpaces_idem l
  rw [dropSpaces, dropSpaces] at this
  rw [trimLine, trimLine, dropSpaces, this]

theorem trimLine_blank {l : Str} (h : dropSpaces l = []) : trimLine l = [] := by
  rw [← trimLine_dropSpaces, h]; rfl

theorem blockLines_norm (ls : List Str) : ∀ d, blockLines d (norm ls) = blockLines d ls := by
  induction ls with
  | nil => intro d; rfl
  | cons l ls ih =>
    intro d
    rw [norm_cons]
    by_cases h : dropSpaces l = []
    · rw [if_pos h, List.nil_append, ih, blockLines, h]
      rfl
    · rw [if_neg h, List.singleton_append, blockLines, blockLines, dropSpaces_idem]
      cases depthAfter d (dropSpaces l) with
      | none => rfl
      | some d' => dsimp only; rw [ih]

theorem usesSuper_norm (ls : List Str) : usesSuper (norm ls) = usesSuper ls := by
  have : ((norm ls).map dropSpaces).filter (· ≠ []) = (ls.map dropSpaces).filter (· ≠ []) := by
    induction ls with
    | nil => rfl
    | cons l ls ih =>
      rw [norm_cons]
      by_cases h : dropSpaces l = []
      · rw [if_pos h, List.nil_append, List.map_cons, h, List.filter_cons_of_neg (by simp), ih]
      · rw [if_neg h, List.singleton_append, List.map_cons, List.map_cons, dropSpaces_idem,
          List.filter_cons_of_pos (by simpa using h), List.filter_cons_of_pos (by simpa using h), ih]
  rw [usesSuper.eq_def, this]; rfl

theorem readItems_norm (ls : List Str) : ∀ stk as, readItems stk as (norm ls) = readItems stk as ls := by
  induction ls with
  | nil => intro stk as; rfl
  | cons l ls ih =>
    intro stk as
    rw [norm_cons]
    by_cases h : dropSpaces l = []
    · have ht := trimLine_blank h
      have h1 : lineItem stk as l ls = [] := by rw [lineItem, ht]; exact if_pos (.inr (.inr (.inl rfl)))
      have h2 : lineStack stk l = stk := by rw [lineStack, ht]; rfl
      have h3 : attrsAfter as l = as := by rw [attrsAfter, ht]; rfl
      rw [if_pos h, List.nil_append, ih, readItems, h1, h2, h3, List.nil_append]
    · rw [if_neg h, List.singleton_append, readItems, readItems, ih]
      have h1 : lineItem stk as (dropSpaces l) (norm ls) = lineItem stk as l ls := by
        rw [lineItem, lineItem, trimLine_dropSpaces, blockLines_norm, usesSuper_norm]
      have h2 : lineStack stk (dropSpaces l) = lineStack stk l := by rw [lineStack, lineStack, trimLine_dropSpaces]
      have h3 : attrsAfter as (dropSpaces l) = attrsAfter as l := by rw [attrsAfter, attrsAfter, trimLine_dropSpaces]
      rw [h1, h2, h3]

/-! ## Complete lines -/

def atPath (p : List Str) (i : Item) : Item := { i with path := p ++ i.path }

theorem atPath_nil (is : List Item) : is.map (atPath []) = is := by
  have : atPath [] = id := rfl
  rw [this, List.map_id]

theorem atPath_atPath (p q : List Str) (is : List Item) : (is.map (atPath q)).map (atPath p) = is.map (atPath (p ++ q)) := by
  rw [List.map_map]
  congr 1
  funext i
  simp [atPath, Function.comp]

/-- What the reader finds in lines, whatever comes after them. -/
def IBlock (a : Blocks) (as : List Str) (ls : List Str) (b : Blocks) (bs : List Str) (is : List Item) : Prop :=
  ∀ (stk : Blocks) rest, stk.head? ≠ some none → readItems (a ++ stk) as (ls ++ rest) = is.map (atPath (modPath stk)) ++ readItems (b ++ stk) bs rest

theorem IBlock.norm_congr {a b : Blocks} {as bs : List Str} {ls ms : List Str} {is : List Item} (h : IBlock a as ls b bs is)
    (e : norm ms = norm ls) : IBlock a as ms b bs is := by
  intro stk rest hk
  rw [← h stk rest hk, ← readItems_norm, norm_append, e, ← norm_append, readItems_norm]

/-- The text is a sequence of complete lines with these items. -/
def ISeg (a : Blocks) (as : List Str) (t : Str) (b : Blocks) (bs : List Str) (is : List Item) : Prop :=
  ∃ ls : List Str, t = ls.flatMap (· ++ ['\n']) ∧ (∀ l ∈ ls, '\n' ∉ l) ∧ IBlock a as ls b bs is

theorem IBlock.app {a b c : Blocks} {as bs cs : List Str} {ls ms : List Str} {is js : List Item} (h1 : IBlock a as ls b bs is)
    (h2 : IBlock b bs ms c cs js) : IBlock a as (ls ++ ms) c cs (is ++ js) := by
  intro stk rest hk
  rw [List.append_assoc, h1 _ _ hk, h2 _ _ hk, List.map_append, List.append_assoc]

theorem ISeg.app {a b c : Blocks} {as bs cs : List Str} {t u : Str} {is js : List Item} (h1 : ISeg a as t b bs is)
    (h2 : ISeg b bs u c cs js) : ISeg a as (t ++ u) c cs (is ++ js) := by
  obtain ⟨ls, rfl, hn, hs⟩ := h1
  obtain ⟨ms, rfl, hm, hr⟩ := h2
  refine ⟨ls ++ ms, by rw [List.flatMap_append], ?_, hs.app hr⟩
  intro l hl
  rcases List.mem_append.1 hl with h | h
  · exact hn l h
  · exact hm l h

theorem ISeg.app_none {a b c : Blocks} {as bs cs : List Str} {t u : Str} {is : List Item} (h1 : ISeg a as t b bs is)
    (h2 : ISeg b bs u c cs []) : ISeg a as (t ++ u) c cs is := by
  have := h1.app h2
  rwa [List.append_nil] at this

theorem ISeg.none_app {a b c : Blocks} {as bs cs : List Str} {t u : Str} {is : List Item} (h1 : ISeg a as t b bs [])
    (h2 : ISeg b bs u c cs is) : ISeg a as (t ++ u) c cs is := h1.app h2

theorem iseg_nil (a : Blocks) (as : List Str) : ISeg a as [] a as [] := ⟨[], rfl, by simp, fun _ _ _ => rfl⟩

theorem ISeg.inMod {a b : Blocks} {as bs : List Str} {t : Str} {is : List Item} (h : ISeg a as t b bs is) (m : Str) :
    ISeg (a ++ [some m]) as t (b ++ [some m]) bs (is.map (atPath [m])) := by
  obtain ⟨ls, e, hn, hs⟩ := h
  refine ⟨ls, e, hn, fun stk rest _ => ?_⟩
  have := hs (some m :: stk) rest (by simp)
  rw [modPath_some] at this
  rw [atPath_atPath]
  simpa using this

theorem iseg_line {a b : Blocks} {as bs : List Str} {l t : Str} {is : List Item} (hn : '\n' ∉ l)
    (h : ∀ (stk : Blocks) rest, stk.head? ≠ some none → lineStack (a ++ stk) l = b ++ stk ∧ lineItem (a ++ stk) as l rest = is.map (atPath (modPath stk)) ∧
      attrsAfter as l = bs) (ht : t = l ++ ['\n']) : ISeg a as t b bs is := by
  refine ⟨[l], by simp [ht], by simpa using hn, fun stk rest hk => ?_⟩
  rw [List.singleton_append, readItems, (h stk rest hk).1, (h stk rest hk).2.1, (h stk rest hk).2.2]

/-- Lines which start no item. -/
theorem lineItem_none {stk : Blocks} {l : Str} (as rest : List Str) (h : isCommentLine (trimLine l) ∨ trimLine l = [] ∨
    (trimLine l).head? = some '#' ∨ (trimLine l).head? = some '}') : lineItem stk as l rest = [] := by
  rw [lineItem]
  exact if_pos (.inr h)

theorem iseg_empty {t : Str} (as : List Str) (ht : t = ['\n']) : ISeg [] as t [] as [] :=
  iseg_line (l := []) (by simp) (fun _ _ _ => ⟨rfl, lineItem_none _ _ (.inr (.inl rfl)), rfl⟩) ht

theorem lineItem_some {stk : Blocks} {l : Str} {c : Char} (as rest : List Str) (hs : stk.head? ≠ some none)
    (hl : (trimLine l).head? = some c) (h1 : c ≠ '/') (h2 : c ≠ '#') (h3 : c ≠ '}') :
    lineItem stk as l rest = match readHead (trimLine l) with
    | some (.mod, _) => [⟨modPath stk, as, trimLine l, if usesSuper rest then ["use super::*;".toList] else []⟩]
    | _ => [⟨modPath stk, as, trimLine l, if lastIsOpen (trimLine l) then blockLines 0 rest else []⟩] := by
  rw [lineItem]
  refine if_neg ?_
  rintro (h | h | h | h | h)
  · exact hs h
  · rw [isComment_of_head (by rw [hl]; simpa using h1)] at h; cases h
  · rw [h] at hl; cases hl
  · rw [hl] at h; exact h2 (Option.some.inj h)
  · rw [hl] at h; exact h3 (Option.some.inj h)

/-- A line which opens an item. -/
def Heads (l : Str) : Prop := ∀ (stk : Blocks) as rest, stk.head? ≠ some none → lineStack stk l = none :: stk ∧ attrsAfter as l = [] ∧
  lineItem stk as l rest = [⟨modPath stk, as, l, blockLines 0 rest⟩]

theorem heads_def {l s : Str} {k : DefKind} {n : Str} (hl : l = 'p' :: s) (hk : k ≠ .mod) (hr : readHead l = some (k, n))
    (ho : lastIsOpen l = true) : Heads l := by
  have ht : trimLine l = l := trimLine_of_head (by rw [hl]; simp) (by rw [hl]; simp)
  have hc : isCommentLine l = false := isComment_of_head (by rw [hl]; simp)
  intro stk as rest hs
  refine ⟨(opens_def hl hk hr ho stk).1, ?_, ?_⟩
  · rw [attrsAfter, ht]
    rw [hc, if_neg (by rw [hl]; simp), if_neg (by rw [hl]; simp)]
  · rw [lineItem_some (c := 'p') as rest hs (by rw [ht, hl]; rfl) (by decide) (by decide) (by decide), ht, hr, if_pos ho]
    cases k <;> first | rfl | exact absurd rfl hk

theorem attrsAfter_impl (as : List Str) (s : Str) : attrsAfter as ("impl ".toList ++ s) = [] := by
  have ht : trimLine ("impl ".toList ++ s) = "impl ".toList ++ s := trimLine_of_head (by simp) (by simp)
  have hc : isCommentLine ("impl ".toList ++ s) = false := isComment_of_head (by simp)
  rw [attrsAfter, ht]
  rw [hc, if_neg (by simp), if_neg (by simp)]

theorem heads_impl {l s : Str} (hl : l = "impl ".toList ++ s) (ho : lastIsOpen l = true) : Heads l := by
  have ht : trimLine l = l := trimLine_of_head (by rw [hl]; simp) (by rw [hl]; simp)
  have hc : isCommentLine l = false := isComment_of_head (by rw [hl]; simp)
  have h0 : readHead l = none := readHead_of_head (by rw [hl]; simp)
  intro stk as rest hs
  refine ⟨?_, by rw [hl]; exact attrsAfter_impl as s, ?_⟩
  · rw [lineStack, ht]
    rw [hc, if_neg (by simp), if_neg (by rw [hl]; simp), if_pos ho, h0]
    rfl
  · rw [lineItem_some (c := 'i') as rest hs (by rw [ht, hl]; rfl) (by decide) (by decide) (by decide), ht, h0, if_pos ho]

/-- An item with a block. -/
theorem iseg_block {o c t : Str} {ls as : List Str} (ho : Heads o) (hl : Inner ls) (hc : Closes c) (hfc : Fit c)
    (hn : '\n' ∉ o) (hn' : ∀ l ∈ ls, '\n' ∉ l) (hnc : '\n' ∉ c)
    (ht : t = o ++ '\n' :: (ls.flatMap (· ++ ['\n']) ++ (c ++ ['\n']))) :
    ISeg [] as t [] [] [⟨[], as, o, norm ls⟩] := by
  refine ⟨o :: (ls ++ [c]), ?_, ?_, ?_⟩
  · rw [ht]; simp [List.flatMap_append]
  · intro l h
    simp only [List.mem_cons, List.mem_append, List.not_mem_nil, or_false] at h
    rcases h with rfl | h | rfl
    · exact hn
    · exact hn' l h
    · exact hnc
  · intro stk rest hk
    obtain ⟨h1, h2, h3⟩ := ho stk as (ls ++ c :: rest) hk
    rw [List.nil_append, List.cons_append, readItems]
    simp only [List.append_assoc, List.singleton_append]
    rw [h1, h2, h3, hl.close hc hfc]
    obtain ⟨bs, hb⟩ := hl.deep (none :: stk) [] rfl
    rw [hb, readItems, (hc (none :: stk)).1, lineItem_deep rfl]
    have ha : attrsAfter bs c = [] := by
      obtain ⟨k1, k2⟩ := closes_head hc hfc
      rw [attrsAfter, hfc.trim]
      rw [k1, if_neg, if_neg (by rw [k2]; simp)]
      simp only [Bool.false_eq_true, false_or]
      intro h; rw [h] at k2; cases k2
    rw [ha]
    simp [atPath, norm]

/-- Lines of comments. -/
theorem iseg_comment (as : List Str) (doc : Option Str) (i : Nat) : ISeg [] as (GenCtx.formatComment doc i) [] as [] := by
  obtain ⟨ls, h1, h2⟩ := comment_lines doc i
  refine ⟨ls, h1, fun l hl => (h2 l hl).1, ?_⟩
  clear h1
  induction ls with
  | nil => exact fun _ _ _ => rfl
  | cons l ls ih =>
    obtain ⟨s, e⟩ := (h2 l (by simp)).2
    have ht : trimLine l = '/' :: '/' :: s := by rw [e, trimLine_spaces]; exact trimLine_of_head (by simp) (by simp)
    refine IBlock.app (ls := [l]) (b := []) (bs := as) (is := []) ?_ (ih fun l hl => h2 l (by simp [hl]))
    intro stk rest _
    have h3 : lineItem stk as l rest = [] := lineItem_none _ _ (.inl (by rw [ht]; rfl))
    have h4 : lineStack stk l = stk := by rw [lineStack, ht]; rfl
    have h5 : attrsAfter as l = as := by rw [attrsAfter, ht]; rfl
    rw [List.nil_append, List.singleton_append, readItems, h3, h4, h5]
    rfl

/-- A line with an attribute. -/
theorem iseg_attr {s t : Str} {as : List Str} (hn : '\n' ∉ s) (he : Ends s) (ht : t = '#' :: s ++ ['\n']) :
    ISeg [] as t [] (as ++ ['#' :: s]) [] := by
  have htr : trimLine ('#' :: s) = '#' :: s := trimLine_of_head (by simp) (by simp)
  obtain ⟨h1, h2⟩ := quiet_attr 0 he
  rw [List.replicate_zero, List.nil_append] at h1 h2
  refine iseg_line (l := '#' :: s) (by simpa using hn) (fun stk rest _ => ⟨(h1 _).1, ?_, ?_⟩) ht
  · exact lineItem_none as rest (.inr (.inr (.inl (by rw [htr]; rfl))))
  · rw [attrsAfter, htr]; rfl

/-- An item on one line. -/
theorem iseg_def {l s t : Str} {k : DefKind} {n : Str} {i : Nat} {as : List Str} (hl : l = 'p' :: s) (hk' : k ≠ .mod)
    (hr : readHead l = some (k, n)) (ho : lastIsOpen l = false) (hn : '\n' ∉ l)
    (ht : t = List.replicate i ' ' ++ l ++ ['\n']) : ISeg [] as t [] [] [⟨[], as, l, []⟩] := by
  have htr : trimLine (List.replicate i ' ' ++ l) = l := by
    rw [trimLine_spaces]; exact trimLine_of_head (by rw [hl]; simp) (by rw [hl]; simp)
  have h0 : isCommentLine l = false := by apply isComment_of_head; rw [hl]; simp
  have h1 : l.head? ≠ some '}' := by rw [hl]; simp
  refine iseg_line (l := List.replicate i ' ' ++ l) ?_ (fun stk rest hk => ⟨?_, ?_, ?_⟩) ht
  · intro h
    rcases List.mem_append.1 h with h | h
    · have := List.mem_replicate.1 h; revert this; simp
    · exact hn h
  · rw [lineStack, htr]; rw [h0, if_neg (by simp), if_neg h1, ho, if_neg (by simp)]
  · rw [List.nil_append, lineItem_some (c := 'p') as rest hk (by rw [htr, hl]; rfl) (by decide) (by decide) (by decide), htr, hr, ho]
    cases k <;> first | exact absurd rfl hk' | simp [atPath]
  · rw [attrsAfter, htr]
    rw [h0, if_neg (by rw [hl]; simp), if_neg (by rw [hl]; simp)]

theorem iseg_implLine {l s t : Str} {as : List Str} (hl : l = "impl ".toList ++ s) (ho : lastIsOpen l = false) (hn : '\n' ∉ l)
    (ht : t = l ++ ['\n']) : ISeg [] as t [] [] [⟨[], as, l, []⟩] := by
  have htr : trimLine l = l := trimLine_of_head (by rw [hl]; simp) (by rw [hl]; simp)
  have h0 : isCommentLine l = false := by apply isComment_of_head; rw [hl]; simp
  have hr : readHead l = none := readHead_of_head (by rw [hl]; simp)
  refine iseg_line (l := l) hn (fun stk rest hk => ⟨?_, ?_, ?_⟩) ht
  · rw [lineStack, htr]; rw [h0, if_neg (by simp), if_neg (by rw [hl]; simp), ho, if_neg (by simp)]
  · rw [List.nil_append, lineItem_some (c := 'i') as rest hk (by rw [htr, hl]; rfl) (by decide) (by decide) (by decide), htr, hr, ho]
    simp [atPath]
  · rw [hl]; exact attrsAfter_impl as s

/-- The end of a module. -/
theorem iseg_close {t : Str} {m : Str} (ht : t = ['}', '\n']) : ISeg [some m] [] t [] [] [] :=
  iseg_line (l := ['}']) (by decide) (fun _ _ _ => ⟨rfl, lineItem_none _ _ (.inr (.inr (.inr rfl))), rfl⟩) ht

theorem iseg_shift {t : Str} {is : List Item} (h : ISeg [] [] t [] [] is) (n : Nat) :
    ISeg [] [] (shift t (List.replicate n ' ') ++ ['\n']) [] [] is := by
  obtain ⟨ls, rfl, hn, hs⟩ := h
  generalize ht : ls.flatMap (· ++ ['\n']) = t
  have hl : lns t = ls ++ [[]] := by
    have := lns_lined hn []
    rw [List.append_nil, ht] at this
    rw [this]; rfl
  refine ⟨lns (shift t (List.replicate n ' ')), (lines_eq _).symm, splitOn_not_mem, hs.norm_congr ?_⟩
  obtain ⟨h1, h2⟩ := shift_lines t n
  have hsp : ∀ l : Str, dropSpaces (List.replicate n ' ' ++ l) = dropSpaces l := fun l => dropSpaces_replicate n l
  have hnf : ∀ ms : List Str, norm (ms.filter (· ≠ [])) = norm ms := by
    intro ms
    induction ms with
    | nil => rfl
    | cons m ms ih =>
      by_cases hm : m = []
      · subst hm; rw [List.filter_cons_of_neg (by simp), ih, norm_cons]; rfl
      · rw [List.filter_cons_of_pos (by simpa using hm), norm_cons, norm_cons, ih]
  have hnm : ∀ ms : List Str, norm (ms.map (List.replicate n ' ' ++ ·)) = norm ms := by
    intro ms
    rw [norm, List.map_map]
    congr 2
    funext l; exact hsp l
  cases hsh : lns (shift t (List.replicate n ' ')) with
  | nil => rw [hsh] at h1; cases h1
  | cons x xs =>
    rw [hsh] at h1 h2
    cases h1
    have e0 : dropSpaces (List.replicate n ' ') = [] := by
      have := hsp []
      rw [List.append_nil] at this; rw [this]; rfl
    rw [norm_cons, e0, if_pos rfl, List.nil_append, ← hnf xs, show xs.filter (· ≠ []) = _ from h2, hnm, hnf, hl, norm_append]
    simp [norm, dropSpaces]

/-- `use super::*;` before the first line. -/
theorem iblock_useSuper {b : Str} {is : List Item} (hb : ISeg [] [] b [] [] is) (hs : b = [] ∨ Starts b) :
    ∃ l ls, List.replicate 4 ' ' ++ ("use super::*;".toList ++ (b ++ ['\n'])) = (l :: ls).flatMap (· ++ ['\n']) ∧
      (∀ m ∈ l :: ls, '\n' ∉ m) ∧ IBlock [] [] (l :: ls) [] [] is ∧ ∀ rest, usesSuper (l :: rest) = true := by
  obtain ⟨ls, rfl, hn, hbl⟩ := hb
  have htr : ∀ l : Str, (l.head? ≠ some ' ') → trimLine (List.replicate 4 ' ' ++ ("use super::*;".toList ++ l)) = l := by
    intro l hl
    have h0 : ("use super::*;".toList ++ l).dropWhile (· = ' ') = "use super::*;".toList ++ l :=
      dropSpaces_of_head (by simp)
    rw [trimLine_spaces, trimLine, h0, afterPrefix_append, Option.getD_some, dropSpaces_of_head hl]
  have hus : ∀ (l : Str) (rest : List Str), usesSuper ((List.replicate 4 ' ' ++ ("use super::*;".toList ++ l)) :: rest) = true := by
    intro l rest
    have h0 : dropSpaces (List.replicate 4 ' ' ++ ("use super::*;".toList ++ l)) = "use super::*;".toList ++ l := by
      rw [dropSpaces, dropSpaces_replicate]; exact dropSpaces_of_head (by simp)
    rw [usesSuper, List.map_cons, h0, List.filter_cons_of_pos (by simp)]
    dsimp only
    rw [afterPrefix_append]; rfl
  have hcong : ∀ l m : Str, trimLine l = trimLine m → ∀ stk as rest,
      readItems stk as (l :: rest) = readItems stk as (m :: rest) := by
    intro l m h stk as rest
    rw [readItems, readItems, lineItem, lineItem, lineStack, lineStack, attrsAfter, attrsAfter, h]
  have e0 : IBlock [] [] [([] : Str)] [] [] [] := by
    obtain ⟨ls, h1, h2, h3⟩ := iseg_empty (t := ['\n']) [] rfl
    exact h3.norm_congr (by
      have : norm ls = [] := by
        cases ls with
        | nil => rfl
        | cons l ls =>
          cases l with
          | nil => cases ls with
            | nil => rfl
            | cons m ls => exact absurd (congrArg List.length h1) (by simp)
          | cons c l => exact absurd (congrArg List.length h1) (by simp)
      rw [this]; rfl)
  cases ls with
  | nil =>
    refine ⟨List.replicate 4 ' ' ++ ("use super::*;".toList ++ []), [], by simp, by simp, ?_, hus _⟩
    intro stk rest hk
    have := hbl stk rest hk
    rw [List.singleton_append, hcong _ [] (by rw [htr [] (by simp)]; rfl)]
    have h2 := e0 stk rest hk
    rw [List.nil_append] at this
    rw [List.singleton_append] at h2
    exact h2.trans this
  | cons l ls =>
    have hhead : l.head? = some '/' ∨ l.head? = some '#' := by
      rcases hs with h | h
      · simp at h
      · cases l with
        | nil => rcases h with h | h <;> simp at h
        | cons c l =>
          rcases h with h | h <;> simp only [List.flatMap_cons, List.cons_append, List.head?_cons] at h
          · left; exact h
          · right; exact h
    have hsp : l.head? ≠ some ' ' := by rcases hhead with h | h <;> rw [h] <;> decide
    have hu : l.head? ≠ some 'u' := by rcases hhead with h | h <;> rw [h] <;> decide
    refine ⟨List.replicate 4 ' ' ++ ("use super::*;".toList ++ l), ls ++ [[]], ?_, ?_, ?_, hus _⟩
    · simp only [List.flatMap_cons, List.flatMap_append, List.append_assoc, List.cons_append, List.nil_append, List.flatMap_nil]
    · intro m hm
      simp only [List.mem_cons, List.mem_append, List.not_mem_nil, or_false] at hm
      rcases hm with rfl | hm | rfl
      · exact nl_append (by decide) (nl_append (by decide) (hn l (by simp)))
      · exact hn m (by simp [hm])
      · simp
    · have h1 : IBlock [] [] ((List.replicate 4 ' ' ++ ("use super::*;".toList ++ l)) :: ls) [] [] is := by
        intro stk rest hk
        rw [List.cons_append, hcong _ l (by rw [htr l hsp, trimLine_of_head hsp hu])]
        exact hbl stk rest hk
      have := h1.app e0
      rwa [List.append_nil] at this

/-- The beginning of a module, with what is first in it. -/
theorem iseg_mod {l s b : Str} {n : Str} {as : List Str} {is : List Item} (hl : l = 'p' :: s) (hr : readHead l = some (.mod, n))
    (ho : lastIsOpen l = true) (hn : '\n' ∉ l) (hb : ISeg [] [] b [] [] is) (hs : b = [] ∨ Starts b) :
    ISeg [] as (l ++ ['\n'] ++ (List.replicate 4 ' ' ++ ("use super::*;".toList ++ (b ++ ['\n'])))) [some n] []
      (⟨[], as, l, ["use super::*;".toList]⟩ :: is.map (atPath [n])) := by
  have htr : trimLine l = l := trimLine_of_head (by rw [hl]; simp) (by rw [hl]; simp)
  have h0 : isCommentLine l = false := by apply isComment_of_head; rw [hl]; simp
  obtain ⟨m, ms, e, hm, hi, hu⟩ := iblock_useSuper hb hs
  refine ⟨l :: m :: ms, by rw [e]; rfl, ?_, ?_⟩
  · intro x hx
    rcases List.mem_cons.1 hx with rfl | hx
    · exact hn
    · exact hm x hx
  · intro stk rest hk
    rw [List.nil_append, List.cons_append, readItems]
    rw [lineItem_some (c := 'p') as _ hk (by rw [htr, hl]; rfl) (by decide) (by decide) (by decide), htr, hr, List.cons_append]
    rw [show usesSuper (m :: ms ++ rest) = true from hu _, if_pos rfl, (opens_mod hl hr ho stk).1]
    have ha : attrsAfter as l = [] := by
      rw [attrsAfter, htr]
      rw [h0, if_neg (by rw [hl]; simp), if_neg (by rw [hl]; simp)]
    have := hi (some n :: stk) rest (by simp)
    rw [modPath_some] at this
    rw [ha, show some n :: stk = [] ++ (some n :: stk) from rfl, this]
    simp [atPath]

end Verif.Lemmas.Gen
