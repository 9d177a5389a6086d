import Verif.Lemmas.Str
import Verif.Model.Gregorian
import Verif.Spec.Lexical

/-! # Helper lemmas relating the model's parsers to the lexical specifications -/

namespace Verif.Lemmas

open Verif Verif.Model Verif.Spec Chrono

theorem spec_digit_eq {n : Nat} (h : n < 10) : Spec.digit n = Nat.digitChar n := by
  have : n = 0 ∨ n = 1 ∨ n = 2 ∨ n = 3 ∨ n = 4 ∨ n = 5 ∨ n = 6 ∨ n = 7 ∨ n = 8 ∨ n = 9 := by omega
  rcases this with h|h|h|h|h|h|h|h|h|h <;> subst h <;> rfl

theorem isAsciiDigit_spec {n : Nat} (h : n < 10) : Str.isAsciiDigit (Spec.digit n) = true := by
  rw [spec_digit_eq h]; exact Str.isAsciiDigit_digitChar h

theorem allDigits_two {n : Nat} (h : n < 100) : Str.allDigits (two n) = true := by
  unfold two
  simp [isAsciiDigit_spec (show n / 10 < 10 by omega), isAsciiDigit_spec (show n % 10 < 10 by omega)]

theorem digitsVal_two {n : Nat} (h : n < 100) : Str.digitsVal (two n) = n := by
  unfold two
  rw [spec_digit_eq (show n / 10 < 10 by omega), spec_digit_eq (show n % 10 < 10 by omega),
    Str.digitsVal_cons_digitChar (by omega), Str.digitsVal_cons_digitChar (by omega)]
  simp; omega

theorem byteLen_two {n : Nat} (h : n < 100) : Str.byteLen (two n) = 2 := by
  rw [Str.byteLen_ascii (Str.allDigits_ascii (allDigits_two h))]; rfl

theorem two_inj {m n : Nat} (hm : m < 100) (hn : n < 100) (h : two m = two n) : m = n := by
  rw [← digitsVal_two hm, ← digitsVal_two hn, h]

/-- Two bytes, all digits: exactly the two-digit texts. -/
theorem two_digits_iff {s : Str} :
    (Str.byteLen s = 2 ∧ Str.allDigits s = true) ↔ ∃ n, n < 100 ∧ s = two n := by
  constructor
  · rintro ⟨h1, h2⟩
    have hl : s.length = 2 := by rw [← Str.byteLen_ascii (Str.allDigits_ascii h2)]; exact h1
    have hlt := Str.digitsVal_lt h2
    rw [hl] at hlt
    refine ⟨Str.digitsVal s, hlt, ?_⟩
    apply Str.digits_ext h2 (allDigits_two hlt)
    · rw [hl]; rfl
    · rw [digitsVal_two hlt]
  · rintro ⟨n, hn, rfl⟩
    exact ⟨byteLen_two hn, allDigits_two hn⟩

theorem fmtPadNat_two {n : Nat} (h : n < 100) : Str.fmtPadNat 2 n = two n := by
  apply Str.digits_ext (Str.allDigits_fmtPadNat 2 n) (allDigits_two h)
  · rw [Str.length_fmtPadNat_of_lt (by omega) (by omega)]; rfl
  · rw [Str.digitsVal_fmtPadNat, digitsVal_two h]

theorem fmtPad_two {n : Nat} (h : n < 100) : Str.fmtPad 2 (n : Int) = two n := by
  have h2 : ¬ ((n : Int) < 0) := by omega
  simp only [Str.fmtPad, h2, if_false]
  exact fmtPadNat_two h

theorem head_ne_of_digits {s : Str} {c : Char} (h : Str.allDigits s = true)
    (hc : Str.isAsciiDigit c = false) : ∀ t, s ≠ c :: t := by
  rintro t rfl; simp [hc] at h

theorem parseI32_digits {s : Str} (h : Str.allDigits s = true) (hne : s ≠ []) :
    Str.parseI32 s =
      if Str.digitsVal s ≤ 2147483647 then some (Str.digitsVal s : Int) else none := by
  have hp : Str.parseDigits s = some (Str.digitsVal s) := Str.parseDigits_eq_some.2 ⟨hne, h, rfl⟩
  have hm := head_ne_of_digits h (c := '-') (by decide)
  have hpl := head_ne_of_digits h (c := '+') (by decide)
  unfold Str.parseI32 Str.parseSigned
  cases s with
  | nil => exact absurd rfl hne
  | cons c cs =>
    have h1 : c ≠ '-' := fun e => hm cs (by rw [e])
    have h2 : c ≠ '+' := fun e => hpl cs (by rw [e])
    simp only [hp, Option.map_some, Option.bind_some, Int.ofNat_eq_natCast]
    generalize Str.digitsVal (c :: cs) = n
    have e1 : Str.i32Min = -2147483648 := rfl
    have e2 : Str.i32Max = 2147483647 := rfl
    by_cases hn : n ≤ 2147483647
    · rw [if_pos hn, if_pos (by omega)]
    · rw [if_neg hn, if_neg (by omega)]

theorem parseI32_two {n : Nat} (h : n < 100) : Str.parseI32 (two n) = some (n : Int) := by
  rw [parseI32_digits (allDigits_two h) (by simp [two]), digitsVal_two h, if_pos (by omega)]

theorem colon_not_mem_two {n : Nat} (h : n < 100) : ':' ∉ two n := by
  rw [← Str.countChar_eq_zero]
  exact Str.countChar_digits (allDigits_two h) (by decide)

theorem eastOpt_zero : eastOpt 0 = some 0 := by decide

/-- Acceptance of `parse_timezone` after the `Z` test, on a text starting with one-byte `c`. -/
theorem parseTimezone_shape {h m : Nat} (hh : h < 100) (hm : m < 100) (c : Char) (hc : c.utf8Size = 1) :
    parseTimezone (c :: (two h ++ ':' :: two m)) =
      if 60 * h + m ≤ 14 * 60 ∧ m < 60 then
        (if c = '+' then .ok (3600 * h + 60 * m)
         else if c = '-' then .ok (-(3600 * h + 60 * m)) else .err)
      else .err := by
  unfold parseTimezone
  have h1 : (c :: (two h ++ ':' :: two m)) ≠ ['Z'] := by simp [two]
  have h2 : Str.sliceFrom (c :: (two h ++ ':' :: two m)) 1 = .ok (two h ++ ':' :: two m) :=
    Str.sliceFrom_eq_ok.2 ⟨[c], rfl, by simp [hc]⟩
  have h3 : Str.splitOn ':' (two h ++ ':' :: two m) = [two h, two m] :=
    Str.splitOn_eq_pair.2 ⟨rfl, colon_not_mem_two hh, colon_not_mem_two hm⟩
  rw [if_neg h1, h2]
  simp only [Res.ok_bind, h3, byteLen_two hh, byteLen_two hm, allDigits_two hh, allDigits_two hm,
    parseI32_two hh, parseI32_two hm, Res.unwrap]
  simp only [ne_eq, not_true_eq_false, or_self, if_false, and_self]
  by_cases hr : 60 * h + m ≤ 14 * 60 ∧ m < 60
  · rw [if_pos hr, if_neg (by omega)]
    by_cases hp : c = '+'
    · subst hp
      rw [if_pos rfl]
      simp only [eastOpt]
      rw [if_pos (by omega)]
      simp only [Res.ofOption, Res.ok.injEq]
      exact (by omega : 60 * (60 * (h : Int) + m) = 3600 * h + 60 * m)
    · rw [if_neg hp]
      by_cases hq : c = '-'
      · subst hq
        rw [if_pos rfl]
        simp only [westOpt]
        rw [if_pos (by omega)]
        simp only [Res.ofOption, Res.ok.injEq]
        exact (by omega : -(60 * (60 * (h : Int) + m)) = -(3600 * h + 60 * m))
      · rw [if_neg hq]
        split <;> simp_all
  · rw [if_neg hr, if_pos (by omega)]

/-- The two shapes on which `parse_timezone` does anything but fail. -/
theorem parseTimezone_not_err {s : Str} (h : parseTimezone s ≠ .err) :
    s = ['Z'] ∨ s = [] ∨ (∃ c t, s = c :: t ∧ c.utf8Size ≠ 1) ∨
    ∃ c h m, s = c :: (two h ++ ':' :: two m) ∧ c.utf8Size = 1 ∧ h < 100 ∧ m < 100 := by
  cases s with
  | nil => simp
  | cons c t =>
    by_cases hz : c :: t = ['Z']
    · exact Or.inl hz
    by_cases hc : c.utf8Size = 1
    · right; right; right
      have h2 : Str.sliceFrom (c :: t) 1 = .ok t := Str.sliceFrom_eq_ok.2 ⟨[c], rfl, by simp [hc]⟩
      unfold parseTimezone at h
      rw [if_neg hz, h2] at h
      simp only [Res.ok_bind] at h
      split at h
      · rename_i t0 t1 hs
        obtain ⟨rfl, -, -⟩ := Str.splitOn_eq_pair.1 hs
        by_cases hb : Str.byteLen t0 ≠ 2 ∨ Str.byteLen t1 ≠ 2
        · rw [if_pos hb] at h; exact absurd rfl h
        rw [if_neg hb] at h
        by_cases hd : ¬ (Str.allDigits t0 = true ∧ Str.allDigits t1 = true)
        · rw [if_pos hd] at h; exact absurd rfl h
        simp only [ne_eq, not_or, Decidable.not_not] at hb hd
        obtain ⟨x, hx, rfl⟩ := two_digits_iff.1 ⟨hb.1, hd.1⟩
        obtain ⟨y, hy, rfl⟩ := two_digits_iff.1 ⟨hb.2, hd.2⟩
        exact ⟨c, x, y, rfl, hc, hx, hy⟩
      · exact absurd rfl h
    · exact Or.inr (Or.inr (Or.inl ⟨c, t, rfl, hc⟩))

theorem parseTimezone_nil : parseTimezone [] = .panic := by decide

theorem parseTimezone_multibyte {c : Char} {t : Str} (hc : c.utf8Size ≠ 1) :
    parseTimezone (c :: t) = .panic := by
  have hp := Str.utf8Size_pos' c
  unfold parseTimezone
  have hz : c :: t ≠ ['Z'] := by
    intro h; simp only [List.cons.injEq] at h; rw [h.1] at hc; exact hc (by decide)
  rw [if_neg hz]
  have : Str.sliceFrom (c :: t) 1 = .panic := by
    simp only [Str.sliceFrom, Str.splitByte]
    rw [if_neg (by omega)]; rfl
  rw [this]; rfl

theorem parseTimezone_ok_iff {s : Str} {off : Int} : parseTimezone s = .ok off ↔ TzText s off := by
  constructor
  · intro h
    rcases parseTimezone_not_err (s := s) (by rw [h]; simp) with rfl | rfl | ⟨c, t, rfl, hc⟩ | ⟨c, x, y, rfl, hc, hx, hy⟩
    · have : parseTimezone ['Z'] = .ok 0 := by decide
      rw [this] at h
      simp only [Res.ok.injEq] at h; subst h; exact TzText.zulu
    · rw [parseTimezone_nil] at h; simp at h
    · rw [parseTimezone_multibyte hc] at h; simp at h
    · rw [parseTimezone_shape hx hy c hc] at h
      split at h
      · rename_i hr
        split at h
        · rename_i hp; subst hp
          simp only [Res.ok.injEq] at h; subst h
          exact TzText.east x y hr.2 hr.1
        · split at h
          · rename_i hp; subst hp
            simp only [Res.ok.injEq] at h; subst h
            exact TzText.west x y hr.2 hr.1
          · simp at h
      · simp at h
  · intro h
    cases h with
    | zulu => decide
    | east x y h1 h2 =>
      rw [parseTimezone_shape (by omega) (by omega) '+' (by decide), if_pos ⟨h2, h1⟩, if_pos rfl]
    | west x y h1 h2 =>
      rw [parseTimezone_shape (by omega) (by omega) '-' (by decide), if_pos ⟨h2, h1⟩,
        if_neg (by decide), if_pos rfl]

theorem parseTimezone_panic_iff {s : Str} :
    parseTimezone s = .panic ↔ s = [] ∨ ∃ c t, s = c :: t ∧ c.utf8Size ≠ 1 := by
  constructor
  · intro h
    rcases parseTimezone_not_err (s := s) (by rw [h]; simp) with rfl | rfl | hc | ⟨c, x, y, rfl, hc, hx, hy⟩
    · exact absurd h (by decide)
    · exact Or.inl rfl
    · exact Or.inr hc
    · rw [parseTimezone_shape hx hy c hc] at h
      split at h
      · split at h
        · simp at h
        · split at h <;> simp at h
      · simp at h
  · rintro (rfl | ⟨c, t, rfl, hc⟩)
    · exact parseTimezone_nil
    · exact parseTimezone_multibyte hc

theorem parseTimezone_ne_panic {c : Char} {t : Str} (hc : c.utf8Size = 1) :
    parseTimezone (c :: t) ≠ .panic := by
  intro h
  rcases parseTimezone_panic_iff.1 h with h | ⟨d, u, h, hd⟩
  · simp at h
  · simp only [List.cons.injEq] at h; rw [h.1] at hc; exact hd hc

/-! ### The common "value token, then optional timezone" structure -/

/-- Shape shared by the five `from_str` functions: strip `Z`, else split at the only `+`, else
split at the `k`-th `-` when there are `k+1`, else no timezone. -/
def tzSplit {β γ : Type} (k : Nat) (pv : Str → Res β) (mk : β → Option Int → Res γ) (s : Str) : Res γ :=
  match Str.stripSuffix 'Z' s with
  | some s => (pv s).bind fun v => (Res.unwrap (eastOpt 0)).bind fun z => mk v (some z)
  | none =>
    if Str.hasChar '+' s then
      if Str.countChar '+' s > 1 then .err
      else
        (Str.splitAtMatch '+' s 0).bind fun p =>
        (pv p.1).bind fun v => (parseTimezone p.2).bind fun tz => mk v (some tz)
    else if Str.countChar '-' s = k + 1 then
      (Str.splitAtMatch '-' s k).bind fun p =>
      (pv p.1).bind fun v => (parseTimezone p.2).bind fun tz => mk v (some tz)
    else (pv s).bind fun v => mk v none

theorem getLast?_two_append (a : Str) (n : Nat) : (a ++ two n).getLast? = some (Spec.digit (n % 10)) := by
  simp [two]

theorem digit_ne_of {n : Nat} (h : n < 10) {c : Char} (hc : Str.isAsciiDigit c = false) :
    Spec.digit n ≠ c := Str.digit_ne (isAsciiDigit_spec h) hc

theorem count_tz_tail {c : Char} (hc : Str.isAsciiDigit c = false) (hcol : c ≠ ':') {h m : Nat}
    (hh : h < 100) (hm : m < 100) : Str.countChar c (two h ++ ':' :: two m) = 0 := by
  rw [Str.countChar_append, Str.countChar_cons, Str.countChar_digits (allDigits_two hh) hc,
    Str.countChar_digits (allDigits_two hm) hc, if_neg (Ne.symm hcol)]

theorem tzSplit_ok_iff {β γ : Type} {k : Nat} {pv : Str → Res β} {mk : β → Option Int → Res γ}
    (hplus : ∀ s v, pv s = .ok v → Str.countChar '+' s = 0)
    (hdash : ∀ s v, pv s = .ok v → Str.countChar '-' s = k)
    (hlast : ∀ s v, pv s = .ok v → s.getLast? ≠ some 'Z')
    {s : Str} {g : γ} :
    tzSplit k pv mk s = .ok g ↔
      ∃ b t v tz, s = b ++ t ∧ pv b = .ok v ∧ OptTz t tz ∧ mk v tz = .ok g := by
  constructor
  · intro h
    unfold tzSplit at h
    cases hz : Str.stripSuffix 'Z' s with
    | some s' =>
      rw [hz] at h
      simp only [eastOpt_zero, Res.unwrap, Res.ok_bind] at h
      rw [Res.bind_eq_ok] at h
      obtain ⟨v, hv, hg⟩ := h
      exact ⟨s', ['Z'], v, some 0, Str.stripSuffix_eq_some.1 hz, hv, .some .zulu, hg⟩
    | none =>
      rw [hz] at h
      simp only at h
      split at h
      · split at h
        · simp at h
        · rw [Res.bind_eq_ok] at h
          obtain ⟨⟨a, b⟩, hs, h⟩ := h
          rw [Res.bind_eq_ok] at h
          obtain ⟨v, hv, h⟩ := h
          rw [Res.bind_eq_ok] at h
          obtain ⟨tz, ht, h⟩ := h
          obtain ⟨t, rfl, -, -⟩ := Str.splitAtMatch_eq_ok.1 hs
          exact ⟨a, b, v, some tz, rfl, hv, .some (parseTimezone_ok_iff.1 ht), h⟩
      · split at h
        · rw [Res.bind_eq_ok] at h
          obtain ⟨⟨a, b⟩, hs, h⟩ := h
          rw [Res.bind_eq_ok] at h
          obtain ⟨v, hv, h⟩ := h
          rw [Res.bind_eq_ok] at h
          obtain ⟨tz, ht, h⟩ := h
          obtain ⟨t, rfl, -, -⟩ := Str.splitAtMatch_eq_ok.1 hs
          exact ⟨a, b, v, some tz, rfl, hv, .some (parseTimezone_ok_iff.1 ht), h⟩
        · rw [Res.bind_eq_ok] at h
          obtain ⟨v, hv, h⟩ := h
          exact ⟨s, [], v, none, by simp, hv, .none, h⟩
  · rintro ⟨b, t, v, tz, rfl, hv, ht, hg⟩
    have hp := hplus b v hv
    have hd := hdash b v hv
    have hl := hlast b v hv
    unfold tzSplit
    cases ht with
    | none =>
      rw [List.append_nil, Str.stripSuffix_eq_none.2 hl]
      have : ¬ Str.hasChar '+' b = true := by rw [Str.hasChar_iff_countChar]; omega
      simp only [this, hd, hv, Res.ok_bind]
      rw [if_neg (by simp), if_neg (by omega), hg]
    | @some _ off ht =>
      have htz := parseTimezone_ok_iff.2 ht
      cases ht with
      | zulu =>
        rw [Str.stripSuffix_eq_some.2 rfl]
        simp only [hv, eastOpt_zero, Res.unwrap, Res.ok_bind, hg]
      | east x y h1 h2 =>
        have hx : x < 100 := by omega
        have hy : y < 100 := by omega
        have hnz : (b ++ '+' :: (two x ++ ':' :: two y)).getLast? ≠ some 'Z' := by
          have : b ++ '+' :: (two x ++ ':' :: two y) = (b ++ '+' :: (two x ++ [':'])) ++ two y := by simp
          rw [this, getLast?_two_append]
          intro h; simp only [Option.some.injEq] at h
          exact digit_ne_of (by omega) (by decide) h
        rw [Str.stripSuffix_eq_none.2 hnz]
        have hc : Str.countChar '+' (b ++ '+' :: (two x ++ ':' :: two y)) = 1 := by
          rw [Str.countChar_append, Str.countChar_cons,
            count_tz_tail (by decide) (by decide) hx hy, hp]; simp
        have hh : Str.hasChar '+' (b ++ '+' :: (two x ++ ':' :: two y)) = true := by
          rw [Str.hasChar_iff_countChar]; omega
        have hs : Str.splitAtMatch '+' (b ++ '+' :: (two x ++ ':' :: two y)) 0 =
            .ok (b, '+' :: (two x ++ ':' :: two y)) :=
          Str.splitAtMatch_eq_ok.2 ⟨_, rfl, rfl, hp⟩
        simp only [hh, hc, if_true]
        rw [if_neg (by omega), hs]
        simp only [Res.ok_bind, hv, htz, hg]
      | west x y h1 h2 =>
        have hx : x < 100 := by omega
        have hy : y < 100 := by omega
        have hnz : (b ++ '-' :: (two x ++ ':' :: two y)).getLast? ≠ some 'Z' := by
          have : b ++ '-' :: (two x ++ ':' :: two y) = (b ++ '-' :: (two x ++ [':'])) ++ two y := by simp
          rw [this, getLast?_two_append]
          intro h; simp only [Option.some.injEq] at h
          exact digit_ne_of (by omega) (by decide) h
        rw [Str.stripSuffix_eq_none.2 hnz]
        have hc : Str.countChar '-' (b ++ '-' :: (two x ++ ':' :: two y)) = k + 1 := by
          rw [Str.countChar_append, Str.countChar_cons,
            count_tz_tail (by decide) (by decide) hx hy, hd]; simp
        have hc' : Str.countChar '+' (b ++ '-' :: (two x ++ ':' :: two y)) = 0 := by
          rw [Str.countChar_append, Str.countChar_cons,
            count_tz_tail (by decide) (by decide) hx hy, hp]; simp
        have hh : ¬ Str.hasChar '+' (b ++ '-' :: (two x ++ ':' :: two y)) = true := by
          rw [Str.hasChar_iff_countChar]; omega
        have hs : Str.splitAtMatch '-' (b ++ '-' :: (two x ++ ':' :: two y)) k =
            .ok (b, '-' :: (two x ++ ':' :: two y)) :=
          Str.splitAtMatch_eq_ok.2 ⟨_, rfl, rfl, hd⟩
        simp only [hc]
        rw [if_neg hh, if_pos trivial, hs]
        simp only [Res.ok_bind, hv, htz, hg]

/-- Panics of the common structure come only from the value-token parser, on a prefix of the
input that ends at the start of a timezone designator. -/
theorem tzSplit_panic {β γ : Type} {k : Nat} {pv : Str → Res β} {mk : β → Option Int → Res γ}
    (hmk : ∀ v tz, mk v tz ≠ .panic) {s : Str} (h : tzSplit k pv mk s = .panic) :
    ∃ b t, s = b ++ t ∧ pv b = .panic ∧
      (t = [] ∨ t = ['Z'] ∨ (∃ u, t = '+' :: u) ∨ ∃ u, t = '-' :: u) := by
  unfold tzSplit at h
  cases hz : Str.stripSuffix 'Z' s with
  | some s' =>
    rw [hz] at h
    simp only [eastOpt_zero, Res.unwrap, Res.ok_bind] at h
    rcases Res.bind_eq_panic.1 h with h | ⟨v, -, h⟩
    · exact ⟨s', ['Z'], Str.stripSuffix_eq_some.1 hz, h, by simp⟩
    · exact absurd h (hmk _ _)
  | none =>
    rw [hz] at h
    simp only at h
    split at h
    · rename_i hp
      split at h
      · simp at h
      · obtain ⟨a, t, hs, rfl, -⟩ := Str.splitAtMatch_of_lt (Str.hasChar_iff_countChar.1 hp)
        rw [hs] at h
        simp only [Res.ok_bind] at h
        rcases Res.bind_eq_panic.1 h with h | ⟨v, -, h⟩
        · exact ⟨a, _, rfl, h, by simp⟩
        · rcases Res.bind_eq_panic.1 h with h | ⟨v, -, h⟩
          · exact absurd h (parseTimezone_ne_panic (by decide))
          · exact absurd h (hmk _ _)
    · split at h
      · rename_i hp
        obtain ⟨a, t, hs, rfl, -⟩ := Str.splitAtMatch_of_lt (c := '-') (s := s) (k := k) (by omega)
        rw [hs] at h
        simp only [Res.ok_bind] at h
        rcases Res.bind_eq_panic.1 h with h | ⟨v, -, h⟩
        · exact ⟨a, _, rfl, h, by simp⟩
        · rcases Res.bind_eq_panic.1 h with h | ⟨v, -, h⟩
          · exact absurd h (parseTimezone_ne_panic (by decide))
          · exact absurd h (hmk _ _)
      · rcases Res.bind_eq_panic.1 h with h | ⟨v, -, h⟩
        · exact ⟨s, [], by simp, h, by simp⟩
        · exact absurd h (hmk _ _)

/-! ### Display of offsets -/

theorem showOffset_xsd {off : Int} (h : XsdOffset off) :
    TzText (showOffset off) off := by
  obtain ⟨h0, h1, h2⟩ := h
  have ha : off.natAbs % 60 = 0 := by omega
  have hm : off.natAbs / 60 / 60 < 100 := by omega
  have hm' : off.natAbs / 60 % 60 < 100 := by omega
  unfold showOffset
  simp only [ha, if_true, fmtPadNat_two hm, fmtPadNat_two hm']
  by_cases hneg : off < 0
  · rw [if_pos hneg]
    have := TzText.west (off.natAbs / 60 / 60) (off.natAbs / 60 % 60) (by omega) (by omega)
    have e : (-(3600 * ((off.natAbs / 60 / 60 : Nat) : Int) + 60 * ((off.natAbs / 60 % 60 : Nat) : Int))) = off := by
      omega
    rw [e] at this; exact this
  · rw [if_neg hneg]
    have := TzText.east (off.natAbs / 60 / 60) (off.natAbs / 60 % 60) (by omega) (by omega)
    have e : (3600 * ((off.natAbs / 60 / 60 : Nat) : Int) + 60 * ((off.natAbs / 60 % 60 : Nat) : Int)) = off := by
      omega
    rw [e] at this; exact this

theorem showTz_xsd {tz : Option Int} (h : XsdTz tz) : OptTz (showTz tz) tz := by
  cases tz with
  | none => exact .none
  | some off => exact .some (showOffset_xsd h)

theorem tzText_xsd {t : List Char} {off : Int} (h : TzText t off) : XsdOffset off := by
  cases h <;> unfold XsdOffset <;> omega

theorem optTz_xsd {t : List Char} {tz : Option Int} (h : OptTz t tz) : XsdTz tz := by
  cases h with
  | none => trivial
  | some h => exact tzText_xsd h

/-! ### Year digits -/

theorem decVal_eq_digitsVal {ds : List Nat} (h : ∀ d ∈ ds, d < 10) :
    Str.digitsVal (ds.map Spec.digit) = decVal ds := by
  have key : ∀ (ds : List Nat) (acc : Nat), (∀ d ∈ ds, d < 10) →
      Nat.ofDigitChars 10 (ds.map Spec.digit) acc = ds.foldl (fun acc d => 10 * acc + d) acc := by
    intro ds
    induction ds with
    | nil => intro acc _; simp
    | cons d ds ih =>
      intro acc h
      have hd := h d (by simp)
      rw [List.map_cons, spec_digit_eq hd, Nat.ofDigitChars_cons_digitChar_of_lt_ten hd, List.foldl_cons]
      exact ih _ (fun e he => h e (by simp [he]))
  exact key ds 0 h

theorem yearDigits_iff {y : Str} {n : Nat} :
    YearDigits y n ↔ Str.allDigits y = true ∧ 4 ≤ y.length ∧ Str.digitsVal y = n := by
  constructor
  · rintro ⟨ds, h1, h2, rfl, rfl⟩
    refine ⟨?_, by simpa using h2, decVal_eq_digitsVal h1⟩
    rw [Str.allDigits, List.all_eq_true]
    intro c hc
    obtain ⟨d, hd, rfl⟩ := List.mem_map.1 hc
    exact isAsciiDigit_spec (h1 d hd)
  · rintro ⟨h1, h2, h3⟩
    have hex : ∀ (y : Str), Str.allDigits y = true → ∃ ds : List Nat, (∀ d ∈ ds, d < 10) ∧ y = ds.map Spec.digit := by
      intro y
      induction y with
      | nil => intro _; exact ⟨[], by simp⟩
      | cons c cs ih =>
        intro h
        simp only [Str.allDigits_cons, Bool.and_eq_true] at h
        obtain ⟨d, hd, rfl⟩ := Str.isAsciiDigit_iff_digitChar.1 h.1
        obtain ⟨ds, hds, rfl⟩ := ih h.2
        refine ⟨d :: ds, ?_, ?_⟩
        · intro e he
          rcases List.mem_cons.1 he with rfl | he
          · exact hd
          · exact hds e he
        · rw [List.map_cons, spec_digit_eq hd]
    obtain ⟨ds, hds, rfl⟩ := hex y h1
    exact ⟨ds, hds, by simpa using h2, rfl, by rw [← h3, decVal_eq_digitsVal hds]⟩

theorem fmtPad_year {n : Nat} : YearDigits (Str.fmtPad 4 (n : Int)) n := by
  have h2 : ¬ ((n : Int) < 0) := by omega
  simp only [Str.fmtPad, h2, if_false]
  rw [yearDigits_iff]
  exact ⟨Str.allDigits_fmtPadNat _ _, Str.length_fmtPadNat_ge _ _, by
    simpa using Str.digitsVal_fmtPadNat 4 n⟩

end Verif.Lemmas
