import Verif.Rust.Str

/-! # Helper lemmas about the string model -/

namespace Verif.Str

open Verif

theorem utf8Size_pos' (c : Char) : 0 < c.utf8Size := Char.utf8Size_pos c

@[simp] theorem byteLen_nil : byteLen [] = 0 := rfl
@[simp] theorem byteLen_cons (c : Char) (cs : Str) : byteLen (c :: cs) = c.utf8Size + byteLen cs := rfl

@[simp] theorem byteLen_append (a b : Str) : byteLen (a ++ b) = byteLen a + byteLen b := by
  induction a with
  | nil => simp
  | cons c cs ih => simp [ih, Nat.add_assoc]

theorem byteLen_eq_zero {s : Str} : byteLen s = 0 ↔ s = [] := by
  cases s with
  | nil => simp
  | cons c cs => have := utf8Size_pos' c; simp; omega

theorem length_le_byteLen (s : Str) : s.length ≤ byteLen s := by
  induction s with
  | nil => simp
  | cons c cs ih => have := utf8Size_pos' c; simp; omega

/-- Splitting at a byte offset succeeds exactly at character boundaries. -/
theorem splitByte_eq_some {s : Str} {n : Nat} {a b : Str} :
    splitByte s n = some (a, b) ↔ s = a ++ b ∧ byteLen a = n := by
  induction s generalizing n a b with
  | nil =>
    cases n with
    | zero =>
      simp only [splitByte, Option.some.injEq, Prod.mk.injEq]
      constructor
      · rintro ⟨rfl, rfl⟩; simp
      · rintro ⟨h, h'⟩
        simp at h; simp [h]
    | succ n =>
      simp only [splitByte, reduceCtorEq, false_iff]
      rintro ⟨h, h'⟩
      have : a = [] := by have := h.symm; simp at this; exact this.1
      subst this; simp at h'
  | cons c cs ih =>
    cases n with
    | zero =>
      simp only [splitByte, Option.some.injEq, Prod.mk.injEq]
      constructor
      · rintro ⟨rfl, rfl⟩; simp
      · rintro ⟨h, h'⟩
        rw [byteLen_eq_zero] at h'; subst h'; simp at h; simp [h]
    | succ n =>
      simp only [splitByte]
      have hc := utf8Size_pos' c
      split
      · rename_i hle
        simp only [Option.map_eq_some_iff, Prod.mk.injEq, Prod.exists]
        constructor
        · rintro ⟨p, q, h, rfl, rfl⟩
          rw [ih] at h
          obtain ⟨rfl, h⟩ := h
          simp; omega
        · rintro ⟨h, h'⟩
          cases a with
          | nil => simp at h'
          | cons d a =>
            simp only [List.cons_append, List.cons.injEq] at h
            obtain ⟨rfl, rfl⟩ := h
            refine ⟨a, b, ?_, rfl, rfl⟩
            rw [ih]; simp at h'; exact ⟨rfl, by omega⟩
      · rename_i hle
        simp only [reduceCtorEq, false_iff]
        rintro ⟨h, h'⟩
        cases a with
        | nil => simp at h'
        | cons d a =>
          simp only [List.cons_append, List.cons.injEq] at h
          obtain ⟨rfl, rfl⟩ := h
          simp at h'; omega

theorem splitByte_append (a b : Str) : splitByte (a ++ b) (byteLen a) = some (a, b) :=
  splitByte_eq_some.2 ⟨rfl, rfl⟩

theorem sliceTo_eq_ok {s : Str} {n : Nat} {a : Str} :
    sliceTo s n = .ok a ↔ ∃ b, s = a ++ b ∧ byteLen a = n := by
  unfold sliceTo
  cases h : splitByte s n with
  | none =>
    simp only [Option.map_none, Res.unwrap, reduceCtorEq, false_iff]
    rintro ⟨b, hb⟩
    rw [← splitByte_eq_some, h] at hb; cases hb
  | some p =>
    obtain ⟨x, y⟩ := p
    simp only [Option.map_some, Res.unwrap, Res.ok.injEq]
    have h' := splitByte_eq_some.1 h
    constructor
    · rintro rfl; exact ⟨y, h'⟩
    · rintro ⟨b, hb⟩
      rw [← splitByte_eq_some, h] at hb
      cases hb; rfl

theorem sliceFrom_eq_ok {s : Str} {n : Nat} {b : Str} :
    sliceFrom s n = .ok b ↔ ∃ a, s = a ++ b ∧ byteLen a = n := by
  unfold sliceFrom
  cases h : splitByte s n with
  | none =>
    simp only [Option.map_none, Res.unwrap, reduceCtorEq, false_iff]
    rintro ⟨b, hb⟩
    rw [← splitByte_eq_some, h] at hb; cases hb
  | some p =>
    obtain ⟨x, y⟩ := p
    simp only [Option.map_some, Res.unwrap, Res.ok.injEq]
    have h' := splitByte_eq_some.1 h
    constructor
    · rintro rfl; exact ⟨x, h'⟩
    · rintro ⟨b, hb⟩
      rw [← splitByte_eq_some, h] at hb
      cases hb; rfl

theorem slice_eq_ok {s : Str} {i j : Nat} {m : Str} :
    slice s i j = .ok m ↔ ∃ a b, s = a ++ m ++ b ∧ byteLen a = i ∧ byteLen (a ++ m) = j := by
  unfold slice
  rw [Res.bind_eq_ok]
  constructor
  · rintro ⟨p, hp, hm⟩
    obtain ⟨b, rfl, hb⟩ := sliceTo_eq_ok.1 hp
    obtain ⟨a, rfl, ha⟩ := sliceFrom_eq_ok.1 hm
    exact ⟨a, b, rfl, ha, hb⟩
  · rintro ⟨a, b, rfl, ha, hb⟩
    exact ⟨a ++ m, sliceTo_eq_ok.2 ⟨b, rfl, hb⟩, sliceFrom_eq_ok.2 ⟨a, rfl, ha⟩⟩

theorem sliceTo_ne_err (s : Str) (n : Nat) : sliceTo s n ≠ .err := by
  unfold sliceTo; cases splitByte s n <;> simp

theorem sliceFrom_ne_err (s : Str) (n : Nat) : sliceFrom s n ≠ .err := by
  unfold sliceFrom; cases splitByte s n <;> simp

theorem slice_ne_err (s : Str) (i j : Nat) : slice s i j ≠ .err := by
  unfold slice
  cases h : sliceTo s j with
  | ok a => simp [sliceFrom_ne_err]
  | err => exact absurd h (sliceTo_ne_err _ _)
  | panic => simp

/-! ### ASCII strings -/

theorem utf8Size_ascii {c : Char} (h : c.toNat < 128) : c.utf8Size = 1 := by
  have : c.val.toNat < 128 := h
  unfold Char.utf8Size
  rw [if_pos]
  show c.val.toNat ≤ _
  exact Nat.le_of_lt_succ this

@[simp] theorem isAscii_nil : isAscii [] = true := rfl
@[simp] theorem isAscii_cons (c : Char) (cs : Str) :
    isAscii (c :: cs) = (decide (c.toNat < 128) && isAscii cs) := rfl
@[simp] theorem isAscii_append (a b : Str) : isAscii (a ++ b) = (isAscii a && isAscii b) := by
  simp [isAscii]

theorem byteLen_ascii {s : Str} (h : isAscii s) : byteLen s = s.length := by
  induction s with
  | nil => rfl
  | cons c cs ih =>
    simp only [isAscii_cons, Bool.and_eq_true, decide_eq_true_eq] at h
    simp [utf8Size_ascii h.1, ih h.2, Nat.add_comm]

theorem splitByte_ascii {s : Str} (h : isAscii s) {n : Nat} (hn : n ≤ s.length) :
    splitByte s n = some (s.take n, s.drop n) := by
  rw [splitByte_eq_some]
  refine ⟨(List.take_append_drop n s).symm, ?_⟩
  have : isAscii (s.take n) := by
    have h2 := h
    rw [← List.take_append_drop n s, isAscii_append, Bool.and_eq_true] at h2
    exact h2.1
  rw [byteLen_ascii this]; simp; omega

theorem sliceTo_ascii {s : Str} (h : isAscii s) {n : Nat} (hn : n ≤ s.length) :
    sliceTo s n = .ok (s.take n) := by
  simp [sliceTo, splitByte_ascii h hn]

theorem sliceFrom_ascii {s : Str} (h : isAscii s) {n : Nat} (hn : n ≤ s.length) :
    sliceFrom s n = .ok (s.drop n) := by
  simp [sliceFrom, splitByte_ascii h hn]

theorem slice_ascii {s : Str} (h : isAscii s) {i j : Nat} (hi : i ≤ j) (hj : j ≤ s.length) :
    slice s i j = .ok ((s.take j).drop i) := by
  have h' : isAscii (s.take j) := by
    have h2 := h
    rw [← List.take_append_drop j s, isAscii_append, Bool.and_eq_true] at h2
    exact h2.1
  rw [slice, sliceTo_ascii h hj]
  simp only [Res.ok_bind]
  rw [sliceFrom_ascii h' (by simp; omega)]

/-! ### Digits -/

theorem isAsciiDigit_iff {c : Char} : isAsciiDigit c = true ↔ 48 ≤ c.toNat ∧ c.toNat ≤ 57 := by
  unfold isAsciiDigit
  simp only [Bool.and_eq_true, decide_eq_true_eq]
  exact Iff.rfl

theorem isAsciiDigit_eq_isDigit (c : Char) : isAsciiDigit c = c.isDigit := by
  rfl

theorem isAsciiDigit_lt {c : Char} (h : isAsciiDigit c = true) : c.toNat < 128 := by
  rw [isAsciiDigit_iff] at h; omega

@[simp] theorem allDigits_nil : allDigits [] = true := rfl
@[simp] theorem allDigits_cons (c : Char) (cs : Str) :
    allDigits (c :: cs) = (isAsciiDigit c && allDigits cs) := rfl
@[simp] theorem allDigits_append (a b : Str) : allDigits (a ++ b) = (allDigits a && allDigits b) := by
  simp [allDigits]

theorem allDigits_ascii {s : Str} (h : allDigits s = true) : isAscii s = true := by
  induction s with
  | nil => rfl
  | cons c cs ih =>
    simp only [allDigits_cons, Bool.and_eq_true] at h
    simp [isAsciiDigit_lt h.1, ih h.2]

theorem digit_ne {c d : Char} (h : isAsciiDigit c = true) (hd : isAsciiDigit d = false) : c ≠ d := by
  rintro rfl; simp [h] at hd

/-- A digit is `digitChar` of its value. -/
theorem isAsciiDigit_iff_digitChar {c : Char} :
    isAsciiDigit c = true ↔ ∃ d, d < 10 ∧ c = Nat.digitChar d := by
  constructor
  · intro h
    rw [isAsciiDigit_iff] at h
    refine ⟨c.toNat - 48, by omega, ?_⟩
    apply Char.toNat_inj.1
    obtain ⟨h1, h2⟩ := h
    generalize c.toNat = n at h1 h2
    have : n = 48 ∨ n = 49 ∨ n = 50 ∨ n = 51 ∨ n = 52 ∨ n = 53 ∨ n = 54 ∨ n = 55 ∨ n = 56 ∨ n = 57 := by
      omega
    rcases this with h|h|h|h|h|h|h|h|h|h <;> subst h <;> rfl
  · rintro ⟨d, hd, rfl⟩
    have : d = 0 ∨ d = 1 ∨ d = 2 ∨ d = 3 ∨ d = 4 ∨ d = 5 ∨ d = 6 ∨ d = 7 ∨ d = 8 ∨ d = 9 := by omega
    rcases this with h|h|h|h|h|h|h|h|h|h <;> subst h <;> decide

theorem isAsciiDigit_digitChar {d : Nat} (hd : d < 10) : isAsciiDigit (Nat.digitChar d) = true :=
  isAsciiDigit_iff_digitChar.2 ⟨d, hd, rfl⟩

@[simp] theorem digitsVal_nil : digitsVal [] = 0 := by simp [digitsVal]

theorem digitsVal_append (a b : Str) :
    digitsVal (a ++ b) = 10 ^ b.length * digitsVal a + digitsVal b := by
  unfold digitsVal
  rw [Nat.ofDigitChars_append, Nat.ofDigitChars_eq_ofDigitChars_zero]

theorem digitsVal_cons_digitChar {d : Nat} (hd : d < 10) (cs : Str) :
    digitsVal (Nat.digitChar d :: cs) = 10 ^ cs.length * d + digitsVal cs := by
  have := digitsVal_append [Nat.digitChar d] cs
  rw [List.singleton_append] at this
  rw [this]
  congr 2
  simp [digitsVal, Nat.ofDigitChars_cons_digitChar_of_lt_ten hd]

theorem digitsVal_lt {s : Str} (h : allDigits s = true) : digitsVal s < 10 ^ s.length := by
  induction s with
  | nil => simp
  | cons c cs ih =>
    simp only [allDigits_cons, Bool.and_eq_true] at h
    obtain ⟨d, hd, rfl⟩ := isAsciiDigit_iff_digitChar.1 h.1
    rw [digitsVal_cons_digitChar hd]
    have := ih h.2
    simp only [List.length_cons, Nat.pow_succ]
    have h1 : 10 ^ cs.length * d ≤ 10 ^ cs.length * 9 := Nat.mul_le_mul_left _ (by omega)
    omega

theorem allDigits_natStr (n : Nat) : allDigits (natStr n) = true := by
  unfold allDigits natStr
  rw [List.all_eq_true]
  intro c hc
  rw [isAsciiDigit_eq_isDigit]
  exact Nat.isDigit_of_mem_toDigits (by omega) (by omega) hc

theorem digitsVal_natStr (n : Nat) : digitsVal (natStr n) = n :=
  Nat.ofDigitChars_toDigits (by omega) (by omega)

theorem natStr_ne_nil (n : Nat) : natStr n ≠ [] := Nat.toDigits_ne_nil

theorem parseDigits_eq_some {s : Str} {n : Nat} :
    parseDigits s = some n ↔ s ≠ [] ∧ allDigits s = true ∧ digitsVal s = n := by
  unfold parseDigits
  split
  · simp_all
  · split <;> simp_all

theorem parseDigits_natStr (n : Nat) : parseDigits (natStr n) = some n :=
  parseDigits_eq_some.2 ⟨natStr_ne_nil n, allDigits_natStr n, digitsVal_natStr n⟩

@[simp] theorem length_padZeros (w : Nat) (s : Str) : (padZeros w s).length = max w s.length := by
  simp [padZeros]; omega

theorem allDigits_replicate_zero (n : Nat) : allDigits (List.replicate n '0') = true := by
  unfold allDigits
  rw [List.all_eq_true]
  intro c hc
  rw [List.eq_of_mem_replicate hc]; decide

theorem allDigits_padZeros {w : Nat} {s : Str} (h : allDigits s = true) :
    allDigits (padZeros w s) = true := by
  simp [padZeros, allDigits_replicate_zero, h]

theorem digitsVal_padZeros (w : Nat) (s : Str) : digitsVal (padZeros w s) = digitsVal s := by
  unfold padZeros
  rw [digitsVal_append]
  simp [digitsVal, Nat.ofDigitChars_replicate_zero]

theorem allDigits_fmtPadNat (w n : Nat) : allDigits (fmtPadNat w n) = true :=
  allDigits_padZeros (allDigits_natStr n)

theorem digitsVal_fmtPadNat (w n : Nat) : digitsVal (fmtPadNat w n) = n := by
  rw [fmtPadNat, digitsVal_padZeros, digitsVal_natStr]

theorem length_fmtPadNat_of_lt {w n : Nat} (hw : 0 < w) (h : n < 10 ^ w) : (fmtPadNat w n).length = w := by
  rw [fmtPadNat, length_padZeros]
  have := (Nat.length_toDigits_le_iff (n := n) (b := 10) (k := w) (by omega) hw).2 h
  unfold natStr; omega

theorem length_fmtPadNat_ge (w n : Nat) : w ≤ (fmtPadNat w n).length := by
  rw [fmtPadNat, length_padZeros]; omega

/-- Two strings of digits with the same length and the same value are equal. -/
theorem digits_ext {a b : Str} (ha : allDigits a = true) (hb : allDigits b = true)
    (hl : a.length = b.length) (hv : digitsVal a = digitsVal b) : a = b := by
  induction a generalizing b with
  | nil => cases b with
    | nil => rfl
    | cons => simp at hl
  | cons c cs ih =>
    cases b with
    | nil => simp at hl
    | cons d ds =>
      simp only [allDigits_cons, Bool.and_eq_true, List.length_cons, Nat.add_right_cancel_iff] at ha hb hl
      obtain ⟨x, hx, rfl⟩ := isAsciiDigit_iff_digitChar.1 ha.1
      obtain ⟨y, hy, rfl⟩ := isAsciiDigit_iff_digitChar.1 hb.1
      rw [digitsVal_cons_digitChar hx, digitsVal_cons_digitChar hy] at hv
      have h1 := digitsVal_lt ha.2
      have h2 := digitsVal_lt hb.2
      rw [hl] at h1 hv
      have hp : 0 < 10 ^ ds.length := Nat.pow_pos (by omega)
      have hxy : x = y := by
        have e1 : (10 ^ ds.length * x + digitsVal cs) / 10 ^ ds.length = x := by
          rw [Nat.mul_add_div hp, Nat.div_eq_of_lt h1]; omega
        have e2 : (10 ^ ds.length * y + digitsVal ds) / 10 ^ ds.length = y := by
          rw [Nat.mul_add_div hp, Nat.div_eq_of_lt h2]; omega
        rw [← e1, ← e2, hv]
      subst hxy
      rw [ih ha.2 hb.2 hl (by omega)]

/-! ### Counting and splitting at a character -/

@[simp] theorem countChar_nil (c : Char) : countChar c [] = 0 := rfl
@[simp] theorem countChar_cons (c d : Char) (ds : Str) :
    countChar c (d :: ds) = countChar c ds + (if d = c then 1 else 0) := by
  simp [countChar, List.countP_cons, beq_iff_eq]
@[simp] theorem countChar_append (c : Char) (a b : Str) :
    countChar c (a ++ b) = countChar c a + countChar c b := by
  simp [countChar]

theorem hasChar_iff_mem {c : Char} {s : Str} : hasChar c s = true ↔ c ∈ s := by
  simp [hasChar]

theorem hasChar_iff_countChar {c : Char} {s : Str} : hasChar c s = true ↔ 0 < countChar c s := by
  rw [hasChar_iff_mem, countChar, List.countP_pos_iff]; simp

theorem countChar_eq_zero {c : Char} {s : Str} : countChar c s = 0 ↔ c ∉ s := by
  rw [← hasChar_iff_mem, hasChar_iff_countChar]; omega

theorem countChar_digits {c : Char} {s : Str} (h : allDigits s = true) (hc : isAsciiDigit c = false) :
    countChar c s = 0 := by
  rw [countChar_eq_zero]
  intro hm
  have := List.all_eq_true.1 h c hm
  simp [hc] at this

theorem matchIndex_eq_some {c : Char} {s : Str} {k i : Nat} :
    matchIndex c s k = some i ↔
      ∃ a b, s = a ++ c :: b ∧ countChar c a = k ∧ byteLen a = i := by
  induction s generalizing k i with
  | nil => simp [matchIndex]
  | cons d ds ih =>
    unfold matchIndex
    split
    · rename_i hd
      subst hd
      cases k with
      | zero =>
        simp only [Option.some.injEq]
        constructor
        · rintro rfl; exact ⟨[], ds, by simp⟩
        · rintro ⟨a, b, h, h1, h2⟩
          cases a with
          | nil => simpa using h2
          | cons e a =>
            simp only [List.cons_append, List.cons.injEq] at h
            obtain ⟨rfl, rfl⟩ := h
            simp at h1
      | succ k =>
        simp only [Option.map_eq_some_iff]
        constructor
        · rintro ⟨j, hj, rfl⟩
          obtain ⟨a, b, rfl, h1, h2⟩ := ih.1 hj
          exact ⟨d :: a, b, by simp, by simp [h1], by simp [h2, Nat.add_comm]⟩
        · rintro ⟨a, b, h, h1, h2⟩
          cases a with
          | nil => simp at h1
          | cons e a =>
            simp only [List.cons_append, List.cons.injEq] at h
            obtain ⟨rfl, rfl⟩ := h
            simp at h1 h2
            refine ⟨byteLen a, ih.2 ⟨a, b, rfl, h1, rfl⟩, by omega⟩
    · rename_i hd
      simp only [Option.map_eq_some_iff]
      constructor
      · rintro ⟨j, hj, rfl⟩
        obtain ⟨a, b, rfl, h1, h2⟩ := ih.1 hj
        exact ⟨d :: a, b, by simp, by simp [h1, hd], by simp [h2, Nat.add_comm]⟩
      · rintro ⟨a, b, h, h1, h2⟩
        cases a with
        | nil => simp at h; exact absurd h.1 hd
        | cons e a =>
          simp only [List.cons_append, List.cons.injEq] at h
          obtain ⟨rfl, rfl⟩ := h
          simp [hd] at h1 h2
          refine ⟨byteLen a, ih.2 ⟨a, b, rfl, h1, rfl⟩, by omega⟩

/-- Splitting before the `k`-th occurrence. -/
theorem splitAtMatch_eq_ok {c : Char} {s : Str} {k : Nat} {a b : Str} :
    splitAtMatch c s k = .ok (a, b) ↔ ∃ t, s = a ++ b ∧ b = c :: t ∧ countChar c a = k := by
  unfold splitAtMatch
  rw [Res.bind_eq_ok]
  constructor
  · rintro ⟨i, hi, hs⟩
    cases hm : matchIndex c s k with
    | none => rw [hm] at hi; simp at hi
    | some j =>
      rw [hm] at hi
      simp only [Res.unwrap, Res.ok.injEq] at hi; subst hi
      obtain ⟨a', b', rfl, h1, h2⟩ := matchIndex_eq_some.1 hm
      rw [← h2, splitByte_append] at hs
      simp only [Res.unwrap, Res.ok.injEq, Prod.mk.injEq] at hs
      obtain ⟨rfl, rfl⟩ := hs
      exact ⟨b', rfl, rfl, h1⟩
  · rintro ⟨t, rfl, rfl, h⟩
    refine ⟨byteLen a, ?_, ?_⟩
    · rw [matchIndex_eq_some.2 ⟨a, t, rfl, h, rfl⟩]; rfl
    · rw [splitByte_append]; rfl

/-- There is a `k`-th occurrence when there are more than `k` of them. -/
theorem exists_split_of_lt {c : Char} {s : Str} {k : Nat} (h : k < countChar c s) :
    ∃ a t, s = a ++ c :: t ∧ countChar c a = k := by
  induction s generalizing k with
  | nil => simp at h
  | cons d ds ih =>
    by_cases hd : d = c
    · subst hd
      cases k with
      | zero => exact ⟨[], ds, by simp⟩
      | succ k =>
        simp at h
        obtain ⟨a, t, rfl, h1⟩ := ih h
        exact ⟨d :: a, t, by simp, by simp [h1]⟩
    · simp [hd] at h
      obtain ⟨a, t, rfl, h1⟩ := ih h
      exact ⟨d :: a, t, by simp, by simp [h1, hd]⟩

theorem splitAtMatch_of_lt {c : Char} {s : Str} {k : Nat} (h : k < countChar c s) :
    ∃ a t, splitAtMatch c s k = .ok (a, c :: t) ∧ s = a ++ c :: t ∧ countChar c a = k := by
  obtain ⟨a, t, h1, h2⟩ := exists_split_of_lt h
  exact ⟨a, t, splitAtMatch_eq_ok.2 ⟨t, h1, rfl, h2⟩, h1, h2⟩

/-- The split point before the `k`-th occurrence is unique. -/
theorem split_unique {c : Char} {a b t u : Str} (h : a ++ c :: t = b ++ c :: u)
    (hc : countChar c a = countChar c b) : a = b ∧ t = u := by
  induction a generalizing b with
  | nil =>
    cases b with
    | nil => simp at h; simp [h]
    | cons e b =>
      simp only [List.nil_append, List.cons_append, List.cons.injEq] at h
      obtain ⟨rfl, _⟩ := h
      simp at hc
  | cons d a ih =>
    cases b with
    | nil =>
      simp only [List.nil_append, List.cons_append, List.cons.injEq] at h
      obtain ⟨rfl, _⟩ := h
      simp at hc
    | cons e b =>
      simp only [List.cons_append, List.cons.injEq] at h
      obtain ⟨rfl, h⟩ := h
      simp only [countChar_cons, Nat.add_right_cancel_iff] at hc
      obtain ⟨h1, h2⟩ := ih h hc
      exact ⟨by rw [h1], h2⟩

theorem stripSuffix_eq_some {c : Char} {s t : Str} : stripSuffix c s = some t ↔ s = t ++ [c] := by
  unfold stripSuffix
  split
  · rename_i h
    simp only [Option.some.injEq]
    obtain ⟨ys, rfl⟩ := List.getLast?_eq_some_iff.1 h
    simp only [List.dropLast_concat]
    constructor
    · rintro rfl; rfl
    · intro h; exact (List.append_cancel_right h)
  · rename_i h
    simp only [reduceCtorEq, false_iff]
    rintro rfl; simp at h

theorem stripSuffix_eq_none {c : Char} {s : Str} : stripSuffix c s = none ↔ s.getLast? ≠ some c := by
  unfold stripSuffix; split <;> simp_all

theorem stripPrefix_eq_some {c : Char} {s t : Str} : stripPrefix c s = some t ↔ s = c :: t := by
  cases s with
  | nil => simp [stripPrefix]
  | cons d ds =>
    simp only [stripPrefix]
    split
    · rename_i h; subst h; simp
    · rename_i h; simp [h]

theorem stripPrefix_eq_none {c : Char} {s : Str} : stripPrefix c s = none ↔ s.head? ≠ some c := by
  cases s with
  | nil => simp [stripPrefix]
  | cons d ds => simp only [stripPrefix]; split <;> simp_all

/-! ### `split` on a character -/

theorem splitOn_ne_nil (c : Char) (s : Str) : splitOn c s ≠ [] := by
  cases s with
  | nil => simp [splitOn]
  | cons d ds =>
    unfold splitOn
    split
    · simp
    · split <;> simp

theorem splitOn_eq_pair {c : Char} {s x y : Str} :
    splitOn c s = [x, y] ↔ s = x ++ c :: y ∧ c ∉ x ∧ c ∉ y := by
  have h1 : ∀ (s x : Str), splitOn c s = [x] ↔ s = x ∧ c ∉ x := by
    intro s
    induction s with
    | nil => intro x; simp only [splitOn, List.cons.injEq, and_true]; constructor
             · rintro rfl; simp
             · rintro ⟨rfl, _⟩; rfl
    | cons d ds ih =>
      intro x
      unfold splitOn
      split
      · rename_i hd; subst hd
        have := splitOn_ne_nil d ds
        simp only [List.cons.injEq]
        constructor
        · rintro ⟨_, h⟩; exact absurd h this
        · rintro ⟨rfl, h⟩; simp at h
      · rename_i hd
        cases hs : splitOn c ds with
        | nil => exact absurd hs (splitOn_ne_nil c ds)
        | cons p ps =>
          simp only [List.cons.injEq]
          constructor
          · rintro ⟨rfl, rfl⟩
            obtain ⟨rfl, h⟩ := (ih p).1 hs
            exact ⟨rfl, by simp [h, Ne.symm hd]⟩
          · rintro ⟨rfl, h⟩
            simp only [List.mem_cons, not_or] at h
            have := (ih ds).2 ⟨rfl, h.2⟩
            rw [hs] at this
            simp only [List.cons.injEq] at this
            exact ⟨by rw [this.1], this.2⟩
  induction s generalizing x with
  | nil => simp [splitOn]
  | cons d ds ih =>
    unfold splitOn
    split
    · rename_i hd; subst hd
      simp only [List.cons.injEq]
      constructor
      · rintro ⟨rfl, h⟩
        obtain ⟨rfl, h⟩ := (h1 _ _).1 h
        simp [h]
      · rintro ⟨h, h2, h3⟩
        cases x with
        | nil => simp at h; exact ⟨rfl, (h1 _ _).2 ⟨h, h3⟩⟩
        | cons e x => simp at h; simp [h.1] at h2
    · rename_i hd
      cases hs : splitOn c ds with
      | nil => exact absurd hs (splitOn_ne_nil c ds)
      | cons p ps =>
        simp only [List.cons.injEq]
        constructor
        · rintro ⟨rfl, rfl⟩
          obtain ⟨rfl, h, h'⟩ := ih.1 hs
          exact ⟨rfl, by simp [h, Ne.symm hd], h'⟩
        · rintro ⟨h, h2, h3⟩
          cases x with
          | nil => simp at h; exact absurd h.1 hd
          | cons e x =>
            simp only [List.cons_append, List.cons.injEq] at h
            obtain ⟨rfl, h⟩ := h
            simp only [List.mem_cons, not_or] at h2
            have := ih.2 ⟨h, h2.2, h3⟩
            rw [hs] at this
            simp only [List.cons.injEq] at this
            exact ⟨by rw [this.1], this.2⟩

end Verif.Str
