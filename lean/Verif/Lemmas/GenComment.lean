import Verif.Lemmas.GenNames

/-! # Comments of generated code -/

namespace Verif.Lemmas.Gen

open Verif Verif.Model Verif.Spec

theorem bytes_eq (s : Str) : bytes s = Str.byteLen s := by
  induction s with
  | nil => rfl
  | cons c cs ih => simp [bytes] at ih ⊢; omega

theorem bytes_append (a b : Str) : bytes (a ++ b) = bytes a + bytes b := by simp [bytes_eq]

theorem bytes_spaces (n : Nat) : bytes (List.replicate n ' ') = n := by
  have h : (' ' : Char).utf8Size = 1 := by decide
  simp [bytes, h]

theorem bytes_commentLine (indent : Nat) (ws : List Str) :
    bytes (commentLine indent ws) = indent + 2 + bytes (ws.flatMap (' ' :: ·)) := by
  have h : bytes ['/', '/'] = 2 := by decide
  rw [commentLine, bytes_append, bytes_append, bytes_spaces, h]

theorem bytes_commentLine_snoc (indent : Nat) (ws : List Str) (w : Str) :
    bytes (commentLine indent (ws ++ [w])) = bytes (commentLine indent ws) + (1 + bytes w) := by
  have h : (' ' : Char).utf8Size = 1 := by decide
  rw [bytes_commentLine, bytes_commentLine, List.flatMap_append, bytes_append]
  simp [bytes, h]; omega

theorem bytes_commentLine_one (indent : Nat) (w : Str) :
    bytes (commentLine indent [w]) = indent + 3 + bytes w := by
  have h : (' ' : Char).utf8Size = 1 := by decide
  rw [bytes_commentLine]
  simp [bytes, h]; omega

theorem splitCommentGo_wrapped (maxLen indent : Nat) (ws : List Str) (p : List Str)
    (hp : bytes (commentLine indent p) ≤ maxLen ∨ p.length ≤ 1) :
    ∃ (g0 : List Str) (gs : List (List Str)),
      splitCommentGo maxLen indent (bytes (commentLine indent p)) ws =
        g0.flatMap (' ' :: ·) ++ gs.flatMap (fun g => '\n' :: commentLine indent g) ∧
      Wrapped maxLen indent (p ++ ws) ((p ++ g0) :: gs) := by
  induction ws generalizing p with
  | nil =>
    refine ⟨[], [], rfl, by simp, by simp, by simp, by simpa using hp, ?_⟩
    intro a g w g' b h
    have := congrArg List.length h
    simp at this
    omega
  | cons w ws ih =>
    by_cases hc : bytes (commentLine indent p) + Str.byteLen w < maxLen
    · have hlen := bytes_commentLine_snoc indent p w
      rw [bytes_eq w] at hlen
      obtain ⟨g0, gs, h1, h2⟩ := ih (p ++ [w]) (.inl (by omega))
      refine ⟨w :: g0, gs, ?_, ?_⟩
      · rw [splitCommentGo, if_pos hc, ← hlen, h1]; simp
      · simpa using h2
    · have hlen := bytes_commentLine_one indent w
      rw [bytes_eq w] at hlen
      obtain ⟨g0, gs, h1, h2⟩ := ih [w] (.inr (by simp))
      refine ⟨[], (w :: g0) :: gs, ?_, ?_⟩
      · rw [splitCommentGo, if_neg hc, ← hlen, h1]
        simp [commentLine, spaces]
      · obtain ⟨-, k2, k3, k4, k5⟩ := h2
        refine ⟨by simp, ?_, ?_, ?_, ?_⟩
        · simp only [List.flatten_cons, List.append_nil] at k2 ⊢
          rw [← List.singleton_append (x := w) (l := g0), k2]; rfl
        · intro g hg
          simp only [List.tail_cons, List.mem_cons] at hg
          rcases hg with rfl | hg
          · simp
          · exact k3 g hg
        · intro g hg
          simp only [List.append_nil, List.mem_cons] at hg
          rcases hg with rfl | hg
          · exact hp
          · exact k4 g (by simpa using hg)
        · intro a g v g' b h
          cases a with
          | nil =>
            simp only [List.append_nil, List.nil_append, List.cons.injEq] at h
            obtain ⟨rfl, ⟨rfl, -⟩, -⟩ := h
            rw [bytes_eq w]; omega
          | cons a0 a =>
            simp only [List.append_nil, List.cons_append, List.cons.injEq] at h
            exact k5 a g v g' b h.2

theorem splitCommentLine_wrapped (s : Str) (maxLen indent : Nat) :
    ∃ gs, splitCommentLine s maxLen indent = gs.flatMap (fun g => commentLine indent g ++ ['\n']) ∧
      Wrapped maxLen indent (splitWhitespace s) gs := by
  have h0 : bytes (commentLine indent []) = indent + 2 := by rw [bytes_commentLine]; simp [bytes]
  obtain ⟨g0, gs, h1, h2⟩ := splitCommentGo_wrapped maxLen indent (splitWhitespace s) [] (.inr (by simp))
  refine ⟨g0 :: gs, ?_, by simpa using h2⟩
  rw [h0] at h1
  rw [splitCommentLine, h1]
  have hshift : ∀ (l : Str) (gs : List (List Str)),
      l ++ gs.flatMap (fun g => '\n' :: commentLine indent g) ++ ['\n'] =
      l ++ '\n' :: gs.flatMap (fun g => commentLine indent g ++ ['\n']) := by
    intro l gs
    induction gs generalizing l with
    | nil => simp
    | cons g gs ih =>
      rw [List.flatMap_cons, List.flatMap_cons, ← List.append_assoc, ih]
      simp
  have := hshift (spaces indent ++ "//".toList ++ g0.flatMap (' ' :: ·)) gs
  simp only [List.append_assoc] at this ⊢
  rw [this, List.flatMap_cons]
  simp [commentLine, spaces]

/-! ## Trimming -/

theorem trimStart_append {a s : Str} (h : Spaces a) :
    (a ++ s).dropWhile Chrono.isWhitespace = s.dropWhile Chrono.isWhitespace := by
  induction a with
  | nil => rfl
  | cons c cs ih =>
    rw [List.cons_append, List.dropWhile_cons_of_pos (Chr.isWhitespace_iff.2 (h c (by simp)))]
    exact ih fun d hd => h d (by simp [hd])

theorem spaces_reverse {a : Str} (h : Spaces a) : Spaces a.reverse := fun c hc => h c (by simpa using hc)

theorem dropWhile_white {a : Str} (h : Spaces a) : a.dropWhile Chrono.isWhitespace = [] := by
  have := trimStart_append (s := []) h
  simpa using this

theorem strTrim_spaces {a : Str} (h : Spaces a) : strTrim a = [] := by
  rw [strTrim, dropWhile_white h]; rfl

theorem strTrim_append_left {a s : Str} (h : Spaces a) : strTrim (a ++ s) = strTrim s := by
  rw [strTrim, trimStart_append h]; rfl

theorem strTrim_append_right {b s : Str} (h : Spaces b) : strTrim (s ++ b) = strTrim s := by
  induction s with
  | nil => rw [List.nil_append, strTrim_spaces h]; rfl
  | cons c cs ih =>
    by_cases hc : Chrono.isWhitespace c = true
    · have hs : Spaces [c] := by intro d hd; simp at hd; subst hd; exact Chr.isWhitespace_iff.1 hc
      have e1 := strTrim_append_left (a := [c]) (s := cs ++ b) hs
      have e2 := strTrim_append_left (a := [c]) (s := cs) hs
      simp only [List.singleton_append] at e1 e2
      rw [List.cons_append, e1, e2, ih]
    · rw [strTrim, strTrim, List.cons_append, List.dropWhile_cons_of_neg hc, List.dropWhile_cons_of_neg hc,
        ← List.cons_append, List.reverse_append, trimStart_append (spaces_reverse h)]

theorem strTrim_spec (s : Str) : ∃ a b, s = a ++ strTrim s ++ b ∧ Spaces a ∧ Spaces b ∧
    (∀ c, (strTrim s).head? = some c → ¬ Space c) := by
  refine ⟨s.takeWhile Chrono.isWhitespace,
    ((s.dropWhile Chrono.isWhitespace).reverse.takeWhile Chrono.isWhitespace).reverse, ?_,
    Chr.spaces_takeWhile s, spaces_reverse (Chr.spaces_takeWhile _), ?_⟩
  · rw [strTrim, List.append_assoc, ← List.reverse_append, List.takeWhile_append_dropWhile,
      List.reverse_reverse, List.takeWhile_append_dropWhile]
  · intro c hc hsp
    have hw := Chr.isWhitespace_iff.2 hsp
    -- the head of the trimmed text is the head of the text trimmed at the start
    have hpre : ∃ t, s.dropWhile Chrono.isWhitespace = strTrim s ++ t := by
      refine ⟨((s.dropWhile Chrono.isWhitespace).reverse.takeWhile Chrono.isWhitespace).reverse, ?_⟩
      rw [strTrim, ← List.reverse_append, List.takeWhile_append_dropWhile, List.reverse_reverse]
    obtain ⟨t, ht⟩ := hpre
    have hh : (s.dropWhile Chrono.isWhitespace).head? = some c := by
      rw [ht]
      cases hs : strTrim s with
      | nil => rw [hs] at hc; cases hc
      | cons d ds => rw [hs] at hc; exact hc
    have := List.head?_dropWhile_not Chrono.isWhitespace s
    rw [hh] at this
    simp [hw] at this

theorem strTrim_dropCr (l : Str) : strTrim (dropCr l) = strTrim l := by
  unfold dropCr
  cases h : Str.stripSuffix '\r' l with
  | none => rfl
  | some t =>
    rw [Str.stripSuffix_eq_some] at h
    rw [h, Option.getD_some, strTrim_append_right]
    intro c hc
    simp at hc; subst hc
    exact Chr.isWhitespace_iff.1 (by decide)

/-! ## Lines -/

theorem splitOn_cons_ne {c d : Char} {ds : Str} (h : d ≠ c) :
    ∃ p ps, Str.splitOn c ds = p :: ps ∧ Str.splitOn c (d :: ds) = (d :: p) :: ps := by
  cases hp : Str.splitOn c ds with
  | nil => exact absurd hp (Str.splitOn_ne_nil c ds)
  | cons p ps => exact ⟨p, ps, rfl, by rw [Str.splitOn, if_neg h, hp]⟩

theorem splitOn_of_not_mem {c : Char} {s : Str} (h : c ∉ s) : Str.splitOn c s = [s] := by
  induction s with
  | nil => rfl
  | cons d ds ih =>
    simp only [List.mem_cons, not_or] at h
    rw [Str.splitOn, if_neg (fun h' => h.1 h'.symm), ih h.2]

theorem splitOn_append {c : Char} {a s : Str} (h : c ∉ a) :
    Str.splitOn c (a ++ c :: s) = a :: Str.splitOn c s := by
  induction a with
  | nil => rw [List.nil_append, Str.splitOn, if_pos rfl]
  | cons d ds ih =>
    simp only [List.mem_cons, not_or] at h
    rw [List.cons_append, Str.splitOn, if_neg (fun h' => h.1 h'.symm), ih h.2]

theorem splitOn_not_mem {c : Char} {s : Str} : ∀ p ∈ Str.splitOn c s, c ∉ p := by
  induction s with
  | nil => simp [Str.splitOn]
  | cons d ds ih =>
    by_cases h : d = c
    · subst h
      rw [Str.splitOn, if_pos rfl]
      intro p hp
      rcases List.mem_cons.1 hp with rfl | hp
      · simp
      · exact ih p hp
    · obtain ⟨q, qs, e1, e2⟩ := splitOn_cons_ne (ds := ds) h
      rw [e2]; rw [e1] at ih
      intro p hp
      rcases List.mem_cons.1 hp with rfl | hp
      · simp only [List.mem_cons, not_or]
        exact ⟨fun h' => h h'.symm, ih q (by simp)⟩
      · exact ih p (by simp [hp])

theorem splitOn_intercalate {c : Char} {s : Str} : List.intercalate [c] (Str.splitOn c s) = s := by
  induction s with
  | nil => rfl
  | cons d ds ih =>
    by_cases h : d = c
    · subst h
      rw [Str.splitOn, if_pos rfl]
      cases hp : Str.splitOn d ds with
      | nil => exact absurd hp (Str.splitOn_ne_nil d ds)
      | cons q qs =>
        rw [hp] at ih
        rw [List.intercalate_cons_cons, ih]; rfl
    · obtain ⟨q, qs, e1, e2⟩ := splitOn_cons_ne (ds := ds) h
      rw [e2]; rw [e1] at ih
      cases qs with
      | nil => simpa using ih
      | cons r rs =>
        rw [List.intercalate_cons_cons] at ih ⊢
        rw [List.cons_append, List.cons_append, ih]

/-- A line is kept when more than one byte is left of it after trimming. -/
abbrev keep (s : Str) : Bool := decide (1 < Str.byteLen s)

theorem lines_kept (acc s : Str) (h : '\n' ∉ acc) :
    ((strLines.go acc s).map strTrim).filter keep =
      ((Str.splitOn '\n' (acc.reverse ++ s)).map strTrim).filter keep := by
  induction s generalizing acc with
  | nil =>
    rw [List.append_nil, splitOn_of_not_mem (by simpa using h), strLines.go]
    split
    · rename_i h'; subst h'; rfl
    · rfl
  | cons c cs ih =>
    rw [strLines.go]
    split
    · rename_i hc
      subst hc
      rw [splitOn_append (by simpa using h), List.map_cons, List.map_cons, List.filter_cons, List.filter_cons,
        strTrim_dropCr, ih [] (by simp)]
      rfl
    · rename_i hc
      rw [ih (c :: acc) (by simp only [List.mem_cons, not_or]; exact ⟨fun h' => hc h'.symm, h⟩)]
      simp

/-! ## Words -/

theorem words_append_left {a s : Str} {ts : List Str} (h : Spaces a) (hw : Words s ts) : Words (a ++ s) ts := by
  cases hw with
  | nil h' =>
    refine .nil ?_
    intro c hc
    rcases List.mem_append.1 hc with hc | hc
    · exact h c hc
    · exact h' c hc
  | @cons w t rest ts h1 h2 h3 h4 =>
    have : a ++ (w ++ t ++ rest) = (a ++ w) ++ t ++ rest := by simp
    rw [this]
    refine .cons ?_ h2 h3 h4
    intro c hc
    rcases List.mem_append.1 hc with hc | hc
    · exact h c hc
    · exact h1 c hc

theorem words_append_right {b s : Str} {ts : List Str} (h : Spaces b) (hw : Words s ts) : Words (s ++ b) ts := by
  induction hw with
  | nil h' =>
    refine .nil ?_
    intro c hc
    rcases List.mem_append.1 hc with hc | hc
    · exact h' c hc
    · exact h c hc
  | @cons w t rest ts h1 h2 h3 h4 ih =>
    rw [List.append_assoc]
    refine .cons h1 h2 ?_ ih
    intro c hc
    cases rest with
    | nil =>
      cases b with
      | nil => cases hc
      | cons d ds => cases hc; exact h _ (by simp)
    | cons d ds => exact h3 c hc

theorem words_strTrim (l : Str) : Words l (splitWhitespace (strTrim l)) := by
  obtain ⟨a, b, h1, h2, h3, -⟩ := strTrim_spec l
  have := words_append_right h3 (words_append_left h2 (Ser.splitWhitespace_iff.1 (rfl : splitWhitespace (strTrim l) = _)))
  rw [← h1] at this
  exact this

theorem words_word {l : Str} {ws : List Str} (h : Words l ws) : ∀ w ∈ ws, Word w := by
  induction h with
  | nil => simp
  | cons _ h _ _ ih =>
    intro w hm
    rcases List.mem_cons.1 hm with rfl | hm
    · exact h
    · exact ih w hm

theorem words_nil_spaces {l : Str} (h : Words l []) : Spaces l := by cases h; assumption

theorem dropped_iff (l : Str) : Dropped l ↔ keep (strTrim l) = false := by
  simp only [keep, decide_eq_false_iff_not, Nat.not_lt]
  constructor
  · rintro (h | ⟨c, hc, h⟩)
    · rw [strTrim_spaces (words_nil_spaces h)]; simp
    · cases h with
      | cons h1 h2 h3 h4 =>
        rw [List.append_assoc, strTrim_append_left h1, strTrim_append_right (words_nil_spaces h4)]
        have hns := h2.2 c (by simp)
        have hw : Chrono.isWhitespace c = false := Ser.isWhitespace_false hns
        have : strTrim [c] = [c] := by simp [strTrim, hw]
        rw [this]; simp [hc]
  · intro h
    have hw := words_strTrim l
    obtain ⟨a, b, h1, h2, h3, h4⟩ := strTrim_spec l
    cases ht : strTrim l with
    | nil => rw [ht] at hw; exact .inl hw
    | cons c cs =>
      rw [ht] at h
      simp only [Str.byteLen_cons] at h
      have hpos := Char.utf8Size_pos c
      have hcs : cs = [] := Str.byteLen_eq_zero.1 (by omega)
      subst hcs
      rw [ht] at h4 h1
      refine .inr ⟨c, by omega, ?_⟩
      have hwd : Word [c] := ⟨by simp, by intro d hd; simp at hd; subst hd; exact h4 d rfl⟩
      have := Words.cons (w := []) (rest := []) (ts := []) (by intro d hd; cases hd) hwd
        (by intro d hd; cases hd) (.nil (by intro d hd; cases hd))
      have := words_append_right h3 (words_append_left h2 (by simpa using this))
      rw [← h1] at this
      exact this

/-! ## The whole comment -/

theorem foldl_append (l : List Str) (x : Str) : l.foldl (fun x y => x ++ y) x = x ++ l.flatten := by
  induction l generalizing x with
  | nil => simp
  | cons a l ih => rw [List.foldl_cons, ih]; simp

/-- The lines of comment made of one line of documentation. -/
theorem line_groups (maxLen indent : Nat) (l : Str) : ∃ gs : List (List Str),
    (if keep (strTrim l) then splitCommentLine (strTrim l) maxLen indent else []) =
      gs.flatMap (fun g => commentLine indent g ++ ['\n']) ∧
    (Dropped l → gs = []) ∧ (¬ Dropped l → ∃ ws, Words l ws ∧ Wrapped maxLen indent ws gs) := by
  by_cases h : keep (strTrim l) = true
  · obtain ⟨gs, h1, h2⟩ := splitCommentLine_wrapped (strTrim l) maxLen indent
    refine ⟨gs, by rw [if_pos h, h1], ?_, fun _ => ⟨_, words_strTrim l, h2⟩⟩
    intro hd
    rw [dropped_iff, h] at hd; cases hd
  · refine ⟨[], by rw [if_neg h]; rfl, fun _ => rfl, ?_⟩
    intro hd
    rw [Bool.not_eq_true] at h
    exact absurd ((dropped_iff l).2 h) hd

theorem flatten_kept (f : Str → Str) (ls : List Str) :
    (((ls.map strTrim).filter keep).map f).flatten =
      ls.flatMap fun l => if keep (strTrim l) then f (strTrim l) else [] := by
  induction ls with
  | nil => rfl
  | cons l ls ih =>
    rw [List.map_cons, List.filter_cons, List.flatMap_cons]
    split
    · rw [List.map_cons, List.flatten_cons, ih]
    · rw [ih]; rfl

theorem comment_eq (doc : Option Str) (maxLen indent : Nat) :
    defaultFormatComment doc maxLen indent =
      (Str.splitOn '\n' (doc.getD [])).flatMap fun l =>
        if keep (strTrim l) then splitCommentLine (strTrim l) maxLen indent else [] := by
  have h := lines_kept [] (doc.getD []) (by simp)
  rw [List.reverse_nil, List.nil_append] at h
  rw [defaultFormatComment, foldl_append, List.nil_append, ← flatten_kept (fun s => splitCommentLine s maxLen indent)]
  congr 2

end Verif.Lemmas.Gen
