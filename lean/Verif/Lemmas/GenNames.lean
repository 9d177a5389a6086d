import Verif.Model.GenNames
import Verif.Spec.GenNames
import Verif.Lemmas.Serde

/-! # Names of generated code: characters, keywords, case conversion -/

namespace Verif.Lemmas.Gen

open Verif Verif.Model Verif.Spec Inflector

/-! ## Characters -/

theorem asciiUpper_iff {c : Char} : asciiUpper c = true ↔ 65 ≤ c.toNat ∧ c.toNat ≤ 90 := by
  simp only [asciiUpper, Bool.and_eq_true, decide_eq_true_eq, Char.le_def, UInt32.le_iff_toNat_le, Char.toNat]
  exact Iff.rfl

theorem asciiLower_iff {c : Char} : asciiLower c = true ↔ 97 ≤ c.toNat ∧ c.toNat ≤ 122 := by
  simp only [asciiLower, Bool.and_eq_true, decide_eq_true_eq, Char.le_def, UInt32.le_iff_toNat_le, Char.toNat]
  exact Iff.rfl

theorem asciiAlnum_iff {c : Char} : asciiAlnum c = true ↔
    (48 ≤ c.toNat ∧ c.toNat ≤ 57) ∨ (65 ≤ c.toNat ∧ c.toNat ≤ 90) ∨ (97 ≤ c.toNat ∧ c.toNat ≤ 122) := by
  simp only [asciiAlnum, Bool.or_eq_true, asciiUpper_iff, asciiLower_iff, Str.isAsciiDigit_iff, or_assoc]

theorem toNat_ofNat {n : Nat} (h : n < 128) : (Char.ofNat n).toNat = n := by
  have : ∀ n < 128, (Char.ofNat n).toNat = n := by decide
  exact this n h

theorem toNat_lower (c : Char) :
    (toAsciiLower c).toNat = if 65 ≤ c.toNat ∧ c.toNat ≤ 90 then c.toNat + 32 else c.toNat := by
  unfold toAsciiLower
  by_cases h : asciiUpper c = true
  · have h' := asciiUpper_iff.1 h
    rw [if_pos h, if_pos h', toNat_ofNat (by omega)]
  · rw [if_neg h, if_neg (fun h' => h (asciiUpper_iff.2 h'))]

theorem toNat_upper (c : Char) :
    (toAsciiUpper c).toNat = if 97 ≤ c.toNat ∧ c.toNat ≤ 122 then c.toNat - 32 else c.toNat := by
  unfold toAsciiUpper
  by_cases h : asciiLower c = true
  · have h' := asciiLower_iff.1 h
    rw [if_pos h, if_pos h', toNat_ofNat (by omega)]
  · rw [if_neg h, if_neg (fun h' => h (asciiLower_iff.2 h'))]

theorem char_ext {a b : Char} (h : a.toNat = b.toNat) : a = b := Char.toNat_inj.1 h

theorem lower_upper (c : Char) : toAsciiLower (toAsciiUpper c) = toAsciiLower c := by
  apply char_ext
  simp only [toNat_lower, toNat_upper]
  repeat' split
  all_goals omega

theorem lower_lower (c : Char) : toAsciiLower (toAsciiLower c) = toAsciiLower c := by
  apply char_ext
  simp only [toNat_lower]
  repeat' split
  all_goals omega

theorem asciiAlnum_lower (c : Char) : asciiAlnum (toAsciiLower c) = asciiAlnum c := by
  rw [Bool.eq_iff_iff, asciiAlnum_iff, asciiAlnum_iff, toNat_lower]
  split <;> omega

theorem asciiAlnum_upper (c : Char) : asciiAlnum (toAsciiUpper c) = asciiAlnum c := by
  rw [Bool.eq_iff_iff, asciiAlnum_iff, asciiAlnum_iff, toNat_upper]
  split <;> omega

theorem alnum_lt {c : Char} (h : asciiAlnum c = true) : c.toNat < 128 := by
  have := asciiAlnum_iff.1 h; omega

variable (U : UnicodeTable)

theorem alnum_of_ascii {c : Char} (h : asciiAlnum c = true) : U.isAlphanumeric c = true := by
  rw [U.alnum_ascii c (alnum_lt h), h]

theorem not_alnum_underscore : U.isAlphanumeric '_' = false := by
  rw [U.alnum_ascii _ (by decide)]; decide

theorem alnum_lower (c : Char) : U.isAlphanumeric (toAsciiLower c) = U.isAlphanumeric c := by
  by_cases h : asciiUpper c = true
  · have h' := asciiUpper_iff.1 h
    rw [U.alnum_ascii c (by omega), U.alnum_ascii _ (by rw [toNat_lower, if_pos h']; omega), asciiAlnum_lower]
  · rw [toAsciiLower, if_neg h]

theorem alnum_upper (c : Char) : U.isAlphanumeric (toAsciiUpper c) = U.isAlphanumeric c := by
  by_cases h : asciiLower c = true
  · have h' := asciiLower_iff.1 h
    rw [U.alnum_ascii c (by omega), U.alnum_ascii _ (by rw [toNat_upper, if_pos h']; omega), asciiAlnum_upper]
  · rw [toAsciiUpper, if_neg h]

/-! ## Splitting -/

theorem splitName_some {s p n : Str} : splitName s = (some p, n) ↔ ':' ∉ p ∧ s = p ++ ':' :: n := by
  induction s generalizing p n with
  | nil => simp [splitName]
  | cons c cs ih =>
    rw [splitName]
    split
    · rename_i hc
      subst hc
      constructor
      · intro h; cases h; simp
      · rintro ⟨h1, h2⟩
        cases p with
        | nil => simp at h2; rw [h2]
        | cons d p => simp at h1 h2; exact absurd h2.1 h1.1
    · rename_i hc
      cases hr : splitName cs with
      | mk o m =>
        cases o with
        | none =>
          constructor
          · intro h; cases h
          · rintro ⟨h1, h2⟩
            cases p with
            | nil => simp at h2; exact absurd h2.1 hc
            | cons d p =>
              simp at h1 h2
              have := (ih (p := p) (n := n)).2 ⟨h1.2, h2.2⟩
              rw [hr] at this; cases this
        | some q =>
          have hq := ih.1 hr
          constructor
          · intro h; cases h
            exact ⟨by simp; exact ⟨fun h => hc h.symm, hq.1⟩, by rw [hq.2]; rfl⟩
          · rintro ⟨h1, h2⟩
            cases p with
            | nil => simp at h2; exact absurd h2.1 hc
            | cons d p =>
              simp at h1 h2
              have := (ih (p := p) (n := n)).2 ⟨h1.2, h2.2⟩
              rw [hr] at this; cases this
              rw [h2.1]

theorem splitName_none {s n : Str} : splitName s = (none, n) ↔ ':' ∉ s ∧ n = s := by
  induction s generalizing n with
  | nil => simp [splitName, eq_comm]
  | cons c cs ih =>
    rw [splitName]
    split
    · rename_i hc; subst hc; simp
    · rename_i hc
      cases hr : splitName cs with
      | mk o m =>
        cases o with
        | none =>
          have h := ih.1 hr
          simp only [Prod.mk.injEq, true_and, List.mem_cons, not_or, h.2]
          constructor
          · intro h'; exact ⟨⟨fun h => hc h.symm, h.1⟩, h'.symm⟩
          · intro h'; exact h'.2.symm
        | some q =>
          have h := splitName_some.1 hr
          simp [h.2]

/-- A reference is split into its prefix and name, uniquely. -/
theorem splitName_iff {s n : Str} {o : Option Str} : splitName s = (o, n) ↔ Ref o n s := by
  cases o with
  | none =>
    rw [splitName_none]
    constructor
    · rintro ⟨h, rfl⟩; exact .bare h
    · intro h; cases h; exact ⟨‹_›, rfl⟩
  | some p =>
    rw [splitName_some]
    constructor
    · rintro ⟨h, rfl⟩; exact .prefixed h
    · intro h; cases h; exact ⟨‹_›, rfl⟩

theorem splitOn_getLast {s : Str} : AfterLastColon s (lastSegment s) := by
  unfold lastSegment
  induction s with
  | nil => exact ⟨by simp [Str.splitOn], .inl (by simp [Str.splitOn])⟩
  | cons c cs ih =>
    rw [Str.splitOn]
    have hne := Str.splitOn_ne_nil ':' cs
    split
    · rename_i hc
      subst hc
      cases hp : Str.splitOn ':' cs with
      | nil => exact absurd hp hne
      | cons p ps =>
        rw [hp] at ih
        rw [List.getLast?_cons_cons]
        refine ⟨ih.1, .inr ?_⟩
        rcases ih.2 with h | ⟨q, h⟩
        · exact ⟨[], by rw [List.nil_append, ← h]⟩
        · exact ⟨':' :: q, by rw [List.cons_append, ← h]⟩
    · rename_i hc
      cases hp : Str.splitOn ':' cs with
      | nil => exact absurd hp hne
      | cons p ps =>
        rw [hp] at ih
        cases ps with
        | nil =>
          simp only [List.getLast?_singleton, Option.getD_some] at ih ⊢
          refine ⟨?_, ?_⟩
          · simp only [List.mem_cons, not_or]
            exact ⟨fun h => hc h.symm, ih.1⟩
          · rcases ih.2 with h | ⟨q, h⟩
            · exact .inl (by rw [h])
            · -- a single piece: no colon at all
              exfalso
              have : ∀ (s : Str), ':' ∈ s → ∀ x, Str.splitOn ':' s ≠ [x] := by
                intro s
                induction s with
                | nil => simp
                | cons d ds ih2 =>
                  intro hm x
                  rw [Str.splitOn]
                  split
                  · simp [Str.splitOn_ne_nil]
                  · rename_i hd
                    have hm' : ':' ∈ ds := by
                      simp only [List.mem_cons] at hm
                      exact hm.resolve_left (fun h => hd h.symm)
                    cases hsp : Str.splitOn ':' ds with
                    | nil => exact absurd hsp (Str.splitOn_ne_nil _ _)
                    | cons y ys =>
                      simp only [ne_eq, List.cons.injEq, not_and]
                      rintro - rfl
                      exact ih2 hm' y hsp
              exact this cs (by rw [h]; simp) p hp
        | cons p2 ps =>
          rw [List.getLast?_cons_cons] at ih ⊢
          refine ⟨ih.1, .inr ?_⟩
          rcases ih.2 with h | ⟨q, h⟩
          · exfalso
            have h1 : ':' ∉ cs := by rw [h]; exact ih.1
            have : ∀ (s : Str), ':' ∉ s → Str.splitOn ':' s = [s] := by
              intro s
              induction s with
              | nil => simp [Str.splitOn]
              | cons d ds ih2 =>
                intro hm
                simp only [List.mem_cons, not_or] at hm
                rw [Str.splitOn, if_neg (fun h => hm.1 h.symm), ih2 hm.2]
            rw [this cs h1] at hp
            simp at hp
          · exact ⟨c :: q, by rw [List.cons_append, ← h]⟩

theorem afterLastColon_unique {s t u : Str} (h : AfterLastColon s t) (h' : AfterLastColon s u) : t = u := by
  obtain ⟨ht, h⟩ := h
  obtain ⟨hu, h'⟩ := h'
  rcases h with h | ⟨p, h⟩ <;> rcases h' with h' | ⟨q, h'⟩
  · rw [← h, h']
  · exfalso; apply ht; rw [← h, h']; simp
  · exfalso; apply hu; rw [← h', h]; simp
  · have e : t.reverse ++ ':' :: p.reverse = u.reverse ++ ':' :: q.reverse := by
      have : (p ++ ':' :: t).reverse = (q ++ ':' :: u).reverse := by rw [← h, h']
      simpa using this
    have := Str.split_unique e
    have h1 := this (by
      rw [Str.countChar_eq_zero.2 (by simpa using ht), Str.countChar_eq_zero.2 (by simpa using hu)])
    exact List.reverse_inj.1 h1.1

theorem lastSegment_iff {s t : Str} : lastSegment s = t ↔ AfterLastColon s t :=
  ⟨fun h => h ▸ splitOn_getLast, fun h => afterLastColon_unique splitOn_getLast h⟩

/-! ## Sanitizing -/

theorem keyword_head {k : Str} (h : k ∈ rsKeywords) : ∃ c cs, k = c :: cs ∧ (asciiLower c || c == 'S') = true := by
  have : ∀ k ∈ rsKeywords, (match k with | [] => false | c :: _ => asciiLower c || c == 'S') = true := by decide
  have hk := this k h
  cases k with
  | nil => cases hk
  | cons c cs => exact ⟨c, cs, rfl, hk⟩

theorem underscore_not_keyword (s : Str) : '_' :: s ∉ rsKeywords := by
  intro h
  obtain ⟨c, cs, h1, h2⟩ := keyword_head h
  cases h1
  revert h2; decide

theorem not_numeric_underscore : U.isNumeric '_' = false := by
  rw [U.numeric_ascii _ (by decide)]; decide

theorem sanitize_pos {s : Str} (h : (∃ c, s.head? = some c ∧ U.isNumeric c = true) ∨ s ∈ rsKeywords) :
    sanitize U s = '_' :: s := by
  cases s with
  | nil =>
    rcases h with ⟨c, h, -⟩ | h
    · cases h
    · exact absurd h (by decide)
  | cons c cs =>
    rw [sanitize, if_pos]
    rw [Bool.or_eq_true, List.contains_iff_mem]
    rcases h with ⟨d, h, h'⟩ | h
    · simp at h; subst h; exact .inl h'
    · exact .inr h

theorem sanitize_neg {s : Str} (h : (∀ c, s.head? = some c → U.isNumeric c = false)) (h' : s ∉ rsKeywords) :
    sanitize U s = s := by
  cases s with
  | nil => rfl
  | cons c cs =>
    rw [sanitize, if_neg]
    rw [Bool.or_eq_true, List.contains_iff_mem, h c rfl]
    simp [h']

theorem sanitize_not_keyword (s : Str) : sanitize U s ∉ rsKeywords := by
  by_cases h : (∃ c, s.head? = some c ∧ U.isNumeric c = true) ∨ s ∈ rsKeywords
  · rw [sanitize_pos U h]; exact underscore_not_keyword s
  · simp only [not_or, not_exists, not_and, Bool.not_eq_true] at h
    rw [sanitize_neg U h.1 h.2]; exact h.2

theorem sanitize_head (s : Str) (c : Char) (h : (sanitize U s).head? = some c) : U.isNumeric c = false := by
  by_cases hs : (∃ c, s.head? = some c ∧ U.isNumeric c = true) ∨ s ∈ rsKeywords
  · rw [sanitize_pos U hs] at h; cases h; exact not_numeric_underscore U
  · simp only [not_or, not_exists, not_and, Bool.not_eq_true] at hs
    rw [sanitize_neg U hs.1 hs.2] at h; exact hs.1 c h

theorem sanitize_or (s : Str) : sanitize U s = s ∨ sanitize U s = '_' :: s := by
  by_cases hs : (∃ c, s.head? = some c ∧ U.isNumeric c = true) ∨ s ∈ rsKeywords
  · exact .inr (sanitize_pos U hs)
  · simp only [not_or, not_exists, not_and, Bool.not_eq_true] at hs
    exact .inl (sanitize_neg U hs.1 hs.2)

/-! ## Trimming -/

theorem trimRight_spec (s : Str) : ∃ r, s = trimRight U s ++ r ∧ (∀ c ∈ r, U.isAlphanumeric c = false) ∧
    ∀ c, (trimRight U s).getLast? = some c → U.isAlphanumeric c = true := by
  refine ⟨(s.reverse.takeWhile fun c => !U.isAlphanumeric c).reverse, ?_, ?_, ?_⟩
  · rw [trimRight, ← List.reverse_append, List.takeWhile_append_dropWhile, List.reverse_reverse]
  · intro c hc
    have := List.all_takeWhile (p := fun c => !U.isAlphanumeric c) (l := s.reverse)
    have := List.all_eq_true.1 this c (by simpa using hc)
    simpa using this
  · intro c hc
    rw [trimRight, List.getLast?_reverse] at hc
    have := List.head?_dropWhile_not (fun c => !U.isAlphanumeric c) s.reverse
    rw [hc] at this
    simpa using this

theorem filter_trimRight (p : Char → Bool) (hp : ∀ c, p c = true → U.isAlphanumeric c = true) (s : Str) :
    (trimRight U s).filter p = s.filter p := by
  obtain ⟨r, h1, h2, -⟩ := trimRight_spec U s
  conv_rhs => rw [h1, List.filter_append]
  have : r.filter p = [] := by
    rw [List.filter_eq_nil_iff]
    intro c hc h
    have := hp c h
    rw [h2 c hc] at this; cases this
  rw [this, List.append_nil]

/-! ## Snake case -/

/-- Last character alphanumeric. -/
def EndsAlnum (s : Str) : Prop := ∀ c, s.getLast? = some c → U.isAlphanumeric c = true

theorem EndsAlnum.tail {c : Char} {cs : Str} (h : EndsAlnum U (c :: cs)) : EndsAlnum U cs := by
  intro d hd
  cases cs with
  | nil => cases hd
  | cons e es => exact h d (by rw [List.getLast?_cons_cons]; exact hd)

theorem endsAlnum_nil : EndsAlnum U [] := by intro c h; cases h

/-- A character which is the lower case of an alphanumeric character. -/
def LowAlnum (c : Char) : Prop := ∃ d, U.isAlphanumeric d = true ∧ c = toAsciiLower d

theorem snakeGo_form (whole : Str) (s : Str) (hs : EndsAlnum U s) (i : Nat) :
    (∃ (w : Str) (ws : List Str), snakeGo U whole i false s = w ++ ws.flatMap ('_' :: ·) ∧ (∀ c ∈ w, LowAlnum U c) ∧
      ∀ v ∈ ws, v ≠ [] ∧ ∀ c ∈ v, LowAlnum U c) ∧
    (s ≠ [] → Snake (LowAlnum U) (snakeGo U whole i true s)) := by
  induction s generalizing i with
  | nil => exact ⟨⟨[], [], rfl, by simp, by simp⟩, by simp⟩
  | cons c cs ih =>
    obtain ⟨⟨w, ws, e1, e2, e3⟩, ih2⟩ := ih hs.tail (i + c.utf8Size)
    by_cases hc : U.isAlphanumeric c = true
    · have hl : LowAlnum U (toAsciiLower c) := ⟨c, hc, rfl⟩
      have hw : ∀ d ∈ toAsciiLower c :: w, LowAlnum U d := by
        intro d hd; rcases List.mem_cons.1 hd with rfl | hd; exact hl; exact e2 d hd
      constructor
      · rw [snakeGo]
        simp only [hc, Bool.not_true, Bool.false_eq_true, if_false]
        split
        · refine ⟨[], (toAsciiLower c :: w) :: ws, ?_, by simp, ?_⟩
          · rw [e1]; simp
          · intro v hv
            rcases List.mem_cons.1 hv with rfl | hv
            · exact ⟨by simp, hw⟩
            · exact e3 v hv
        · exact ⟨toAsciiLower c :: w, ws, by rw [e1]; simp, hw, e3⟩
      · intro _
        rw [snakeGo]
        simp only [hc, Bool.not_true, Bool.false_eq_true, if_false, Bool.false_and]
        refine ⟨toAsciiLower c :: w, ws, by rw [e1]; simp, ?_⟩
        intro v hv
        rcases List.mem_cons.1 hv with rfl | hv
        · exact ⟨by simp, hw⟩
        · exact e3 v hv
    · rw [Bool.not_eq_true] at hc
      have hcs : cs ≠ [] := by
        rintro rfl
        have := hs c rfl
        rw [hc] at this; cases this
      obtain ⟨v, vs, f1, f2⟩ := ih2 hcs
      constructor
      · rw [snakeGo]
        simp only [hc, Bool.not_false, if_true, Bool.false_eq_true, if_false]
        exact ⟨[], v :: vs, by rw [f1]; simp, by simp, f2⟩
      · intro _
        rw [snakeGo]
        simp only [hc, Bool.not_false, if_true]
        exact ⟨v, vs, f1, f2⟩

theorem snakeGo_filter (whole s : Str) (i : Nat) (first : Bool) :
    (snakeGo U whole i first s).filter U.isAlphanumeric = (s.filter U.isAlphanumeric).map toAsciiLower := by
  induction s generalizing i first with
  | nil => rfl
  | cons c cs ih =>
    rw [snakeGo]
    by_cases hc : U.isAlphanumeric c = true
    · simp only [hc, Bool.not_true, Bool.false_eq_true, if_false, List.filter_cons_of_pos, List.map_cons]
      split
      · rw [List.filter_cons_of_neg (by simp [not_alnum_underscore]),
          List.filter_cons_of_pos (by rw [alnum_lower]; exact hc), ih]
      · rw [List.filter_cons_of_pos (by rw [alnum_lower]; exact hc), ih]
    · rw [List.filter_cons_of_neg hc]
      rw [Bool.not_eq_true] at hc
      simp only [hc, Bool.not_false, if_true]
      split
      · rw [ih]
      · rw [List.filter_cons_of_neg (by simp [not_alnum_underscore]), ih]

theorem snake_filter (s : Str) :
    (toSnakeCase U s).filter U.isAlphanumeric = skeleton U.isAlphanumeric s := by
  rw [toSnakeCase, snakeGo_filter, filter_trimRight U _ (fun _ h => h), skeleton]

theorem snake_form (s : Str) (h : ∃ c ∈ s, U.isAlphanumeric c = true) :
    Snake (LowAlnum U) (toSnakeCase U s) := by
  obtain ⟨r, h1, h2, h3⟩ := trimRight_spec U s
  refine (snakeGo_form U s (trimRight U s) h3 0).2 ?_
  intro hn
  obtain ⟨c, hc, hc'⟩ := h
  rw [h1, hn, List.nil_append] at hc
  rw [h2 c hc] at hc'; cases hc'

theorem snake_nil (s : Str) (h : ∀ c ∈ s, U.isAlphanumeric c = false) : toSnakeCase U s = [] := by
  have : trimRight U s = [] := by
    obtain ⟨r, h1, -, h3⟩ := trimRight_spec U s
    cases ht : (trimRight U s).getLast? with
    | none => simpa using ht
    | some c =>
      have h4 := h3 c ht
      have : c ∈ s := by rw [h1]; exact List.mem_append_left _ (List.mem_of_getLast? ht)
      rw [h c this] at h4; cases h4
  rw [toSnakeCase, this]; rfl

/-! ## Pascal case -/

theorem pascalGo_filter (p : Char → Bool) (hp : ∀ c, p c = true → U.isAlphanumeric c = true)
    (hl : ∀ c, p (toAsciiLower c) = p c) (hu : ∀ c, p (toAsciiUpper c) = p c)
    (s : Str) (found newWord : Bool) (last : Char) :
    ((pascalGo U found newWord last s).filter p).map toAsciiLower = (s.filter p).map toAsciiLower := by
  induction s generalizing found newWord last with
  | nil => rfl
  | cons c cs ih =>
    rw [pascalGo]
    by_cases hc : U.isAlphanumeric c = true
    · simp only [hc, Bool.not_true, Bool.false_and, Bool.and_false, Bool.false_eq_true, if_false]
      by_cases hpc : p c = true
      · rw [List.filter_cons_of_pos hpc]
        split
        · rw [List.filter_cons_of_pos hpc, List.map_cons, List.map_cons, ih]
        · split
          · rw [List.filter_cons_of_pos (by rw [hu]; exact hpc), List.map_cons, List.map_cons, ih, lower_upper]
          · rw [List.filter_cons_of_pos (by rw [hl]; exact hpc), List.map_cons, List.map_cons, ih, lower_lower]
      · rw [List.filter_cons_of_neg hpc]
        split
        · rw [List.filter_cons_of_neg hpc, ih]
        · split
          · rw [List.filter_cons_of_neg (by rw [hu]; exact hpc), ih]
          · rw [List.filter_cons_of_neg (by rw [hl]; exact hpc), ih]
    · have hpc : ¬ p c = true := fun h => hc (hp c h)
      rw [List.filter_cons_of_neg hpc]
      rw [Bool.not_eq_true] at hc
      simp only [hc, Bool.not_false, Bool.true_and, Bool.and_true]
      cases found
      · simp [ih]
      · simp [ih]

theorem pascalGo_alnum (s : Str) (found newWord : Bool) (last : Char) :
    ∀ c ∈ pascalGo U found newWord last s, U.isAlphanumeric c = true := by
  induction s generalizing found newWord last with
  | nil => simp [pascalGo]
  | cons c cs ih =>
    rw [pascalGo]
    by_cases hc : U.isAlphanumeric c = true
    · simp only [hc, Bool.not_true, Bool.false_and, Bool.and_false, Bool.false_eq_true, if_false]
      intro d
      split
      · intro hd; rcases List.mem_cons.1 hd with rfl | hd; exact hc; exact ih _ _ _ d hd
      · split
        · intro hd; rcases List.mem_cons.1 hd with rfl | hd
          · rw [alnum_upper]; exact hc
          · exact ih _ _ _ d hd
        · intro hd; rcases List.mem_cons.1 hd with rfl | hd
          · rw [alnum_lower]; exact hc
          · exact ih _ _ _ d hd
    · rw [Bool.not_eq_true] at hc
      simp only [hc, Bool.not_false, Bool.true_and, Bool.and_true]
      cases found
      · simp; exact fun c => ih _ _ _ c
      · simp; exact fun c => ih _ _ _ c

theorem not_white_of_alnum {c : Char} (h : asciiAlnum c = true) : Chrono.isWhitespace c = false := by
  have : ∀ n < 128, asciiAlnum (Char.ofNat n) = true → Chrono.isWhitespace (Char.ofNat n) = false := by decide
  have hc := this c.toNat (alnum_lt h)
  rw [Char.ofNat_toNat] at hc
  exact hc h

/-- The type name is made of the ASCII letters and digits of the name, up to case. -/
theorem typeName_eq (name : Str) :
    filterTypeName U (toPascalCase U name) = (toPascalCase U name).filter asciiAlnum := by
  unfold filterTypeName
  apply List.filter_congr
  intro c hc
  have ha : U.isAlphanumeric c = true := pascalGo_alnum U _ _ _ _ c hc
  rw [Bool.eq_iff_iff]
  simp only [ha, Bool.true_or, Bool.true_and, Bool.and_eq_true, charAscii, decide_eq_true_eq,
    Bool.not_eq_true']
  constructor
  · rintro ⟨h1, -⟩
    rw [← U.alnum_ascii c h1]; exact ha
  · intro h
    exact ⟨alnum_lt h, not_white_of_alnum h⟩

theorem typeName_skeleton (name : Str) :
    (filterTypeName U (toPascalCase U name)).map toAsciiLower = skeleton asciiAlnum name := by
  rw [typeName_eq, toPascalCase,
    pascalGo_filter U asciiAlnum (fun c h => alnum_of_ascii U h) asciiAlnum_lower asciiAlnum_upper,
    filter_trimRight U _ (fun c h => alnum_of_ascii U h), skeleton]

end Verif.Lemmas.Gen
