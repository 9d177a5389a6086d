import Verif.Lemmas.Gregorian

/-! # Helper lemmas: exact panic condition, exact round-trip condition -/

namespace Verif.Lemmas

open Verif Verif.Model Verif.Spec Chrono

theorem countChar_eq_count (c : Char) (s : Str) : Str.countChar c s = s.count c := rfl

theorem tzSplit_panic_iff {β γ : Type} {k : Nat} {pv : Str → Res β} {mk : β → Option Int → Res γ}
    (hmk : ∀ v tz, mk v tz ≠ .panic) {s : Str} :
    tzSplit k pv mk s = .panic ↔ ∃ b, ValuePart k s b ∧ pv b = .panic := by
  have hb1 : ∀ (x : Res β) (f : β → Res γ), (∀ v, x = .ok v → f v ≠ .panic) →
      (x.bind f = .panic ↔ x = .panic) := by
    intro x f hf
    cases x with
    | ok v => simpa using hf v rfl
    | err => simp
    | panic => simp
  unfold tzSplit ValuePart
  cases hz : Str.stripSuffix 'Z' s with
  | some s' =>
    obtain rfl := Str.stripSuffix_eq_some.1 hz
    simp only [eastOpt_zero, Res.unwrap, Res.ok_bind]
    rw [hb1 _ _ (fun v _ => hmk v _)]
    constructor
    · intro h; exact ⟨s', Or.inl rfl, h⟩
    · rintro ⟨b, hb | hb, h⟩
      · rw [List.append_cancel_right hb]; exact h
      · simp at hb
  | none =>
    have hlast := Str.stripSuffix_eq_none.1 hz
    have hnz : ∀ b, s ≠ b ++ ['Z'] := by rintro b rfl; simp at hlast
    simp only [hnz, hlast, ne_eq, not_false_eq_true, true_and, false_or]
    by_cases hp : Str.hasChar '+' s = true
    · rw [if_pos hp]
      have hm := Str.hasChar_iff_mem.1 hp
      have hpos := Str.hasChar_iff_countChar.1 hp
      simp only [hm, not_true_eq_false, false_and, or_false]
      by_cases hc : Str.countChar '+' s > 1
      · rw [if_pos hc]
        have : s.count '+' ≠ 1 := by rw [← countChar_eq_count]; omega
        simp [this]
      · rw [if_neg hc]
        have h1 : s.count '+' = 1 := by rw [← countChar_eq_count]; omega
        obtain ⟨a, t, hs, rfl, ha⟩ := Str.splitAtMatch_of_lt hpos
        rw [hs]
        simp only [Res.ok_bind]
        rw [hb1 _ _ (fun v _ => by
          intro h
          rcases Res.bind_eq_panic.1 h with h | ⟨v, -, h⟩
          · exact absurd h (parseTimezone_ne_panic (by decide))
          · exact absurd h (hmk _ _))]
        constructor
        · intro h; exact ⟨a, ⟨t, rfl, h1⟩, h⟩
        · rintro ⟨b, ⟨u, hu, -⟩, h⟩
          have hc1 : Str.countChar '+' (b ++ '+' :: u) = 1 := by rw [← hu, countChar_eq_count]; exact h1
          have hb : Str.countChar '+' b = 0 := by
            rw [Str.countChar_append, Str.countChar_cons, if_pos rfl] at hc1; omega
          rw [(Str.split_unique hu (by omega)).1]; exact h
    · rw [if_neg hp]
      have hm : '+' ∉ s := fun h => hp (Str.hasChar_iff_mem.2 h)
      have hnp : ∀ b u, s ≠ b ++ '+' :: u := by rintro b u rfl; simp at hm
      simp only [hm, not_false_eq_true, true_and, hnp, false_and, exists_false, false_or]
      rw [countChar_eq_count]
      by_cases hd : s.count '-' = k + 1
      · rw [if_pos hd]
        simp only [hd, not_true_eq_false, false_and, or_false, true_and]
        obtain ⟨a, t, hs, hst, ha⟩ := Str.splitAtMatch_of_lt (c := '-') (s := s) (k := k)
          (by rw [countChar_eq_count]; omega)
        have ht : '-' ∉ t := by
          rw [← Str.countChar_eq_zero]
          rw [hst, ← countChar_eq_count, Str.countChar_append, Str.countChar_cons, if_pos rfl] at hd
          omega
        rw [hs]
        simp only [Res.ok_bind]
        rw [hb1 _ _ (fun v _ => by
          intro h
          rcases Res.bind_eq_panic.1 h with h | ⟨v, -, h⟩
          · exact absurd h (parseTimezone_ne_panic (by decide))
          · exact absurd h (hmk _ _))]
        constructor
        · intro h; exact ⟨a, ⟨t, hst, ht⟩, h⟩
        · rintro ⟨b, ⟨u, hu, hun⟩, h⟩
          have hb : Str.countChar '-' b = k := by
            rw [← Str.countChar_eq_zero] at hun
            rw [hu, ← countChar_eq_count, Str.countChar_append, Str.countChar_cons, if_pos rfl] at hd
            omega
          rw [hst] at hu
          rw [(Str.split_unique hu (by omega)).1]; exact h
      · rw [if_neg hd]
        simp only [hd, not_false_eq_true, false_and, true_and, false_or]
        rw [hb1 _ _ (fun v _ => hmk v _)]
        constructor
        · intro h; exact ⟨s, rfl, h⟩
        · rintro ⟨b, rfl, h⟩; exact h

theorem gday_new_ne_panic (v : Int) (tz : Option Int) : GDay.new v tz ≠ .panic := by
  unfold GDay.new; split <;> simp
theorem gmonth_new_ne_panic (v : Int) (tz : Option Int) : GMonth.new v tz ≠ .panic := by
  unfold GMonth.new; split <;> simp
theorem gyear_new_ne_panic (v : Int) (tz : Option Int) : GYear.new v tz ≠ .panic := by
  unfold GYear.new; split <;> simp
theorem gyearmonth_new_ne_panic (y m : Int) (tz : Option Int) : GYearMonth.new y m tz ≠ .panic := by
  unfold GYearMonth.new; split
  · simp
  · split <;> simp

theorem boundary_ascii {s : Str} (h : ∀ c ∈ s, c.toNat < 128) {n : Nat} (hn : n ≤ utf8Bytes s) :
    Boundary s n := by
  have ha : Str.isAscii s = true := by
    rw [Str.isAscii, List.all_eq_true]; intro c hc; exact decide_eq_true (h c hc)
  rw [utf8Bytes_eq, Str.byteLen_ascii ha] at hn
  have := Str.sliceTo_ascii ha hn
  obtain ⟨b, h1, h2⟩ := Str.sliceTo_eq_ok.1 this
  exact ⟨_, b, h1, by rw [utf8Bytes_eq]; exact h2⟩

theorem valuePart_ascii {k : Nat} {s b : Str} (h : ∀ c ∈ s, c.toNat < 128) (hv : ValuePart k s b) :
    ∀ c ∈ b, c.toNat < 128 := by
  intro c hc
  apply h
  rcases hv with rfl | ⟨-, ⟨u, rfl, -⟩ | ⟨-, -, u, rfl, -⟩ | ⟨-, -, rfl⟩⟩ <;> simp [hc]

/-! ### Round trip: only XSD offsets survive -/

/-- Offsets chrono can represent. -/
theorem showOffset_tzText {off o : Int} (hr : -86400 < off ∧ off < 86400)
    (h : TzText (showOffset off) o) : XsdOffset off ∧ o = off := by
  have hH : off.natAbs / 60 / 60 < 100 := by omega
  have hM : off.natAbs / 60 % 60 < 100 := by omega
  have hS : off.natAbs % 60 < 100 := by omega
  generalize ht : showOffset off = t at h
  unfold showOffset at ht
  simp only [fmtPadNat_two hH, fmtPadNat_two hM, fmtPadNat_two hS] at ht
  by_cases hs : off.natAbs % 60 = 0
  · rw [if_pos hs] at ht
    cases h with
    | zulu =>
      simp [two] at ht
    | east h m hm hle =>
      simp only [List.cons.injEq] at ht
      obtain ⟨h1, h2⟩ := ht
      have hnn : ¬ off < 0 := by intro hn; rw [if_pos hn] at h1; exact absurd h1 (by decide)
      have h2' : two (off.natAbs / 60 / 60) = two h ∧ two (off.natAbs / 60 % 60) = two m := by
        simp only [two, List.cons_append, List.nil_append, List.cons.injEq, and_true, true_and] at h2 ⊢
        exact ⟨⟨h2.1, h2.2.1⟩, h2.2.2⟩
      have e1 := two_inj hH (by omega) h2'.1
      have e2 := two_inj hM (by omega) h2'.2
      unfold XsdOffset
      omega
    | west h m hm hle =>
      simp only [List.cons.injEq] at ht
      obtain ⟨h1, h2⟩ := ht
      have hnn : off < 0 := by
        apply Decidable.byContradiction; intro hn; rw [if_neg hn] at h1; exact absurd h1 (by decide)
      have h2' : two (off.natAbs / 60 / 60) = two h ∧ two (off.natAbs / 60 % 60) = two m := by
        simp only [two, List.cons_append, List.nil_append, List.cons.injEq, and_true, true_and] at h2 ⊢
        exact ⟨⟨h2.1, h2.2.1⟩, h2.2.2⟩
      have e1 := two_inj hH (by omega) h2'.1
      have e2 := two_inj hM (by omega) h2'.2
      unfold XsdOffset
      omega
  · rw [if_neg hs] at ht
    exfalso
    have hl : t.length = 9 := by rw [← ht]; simp [two]
    cases h with
    | zulu => simp at hl
    | east h m hm hle => simp [two] at hl
    | west h m hm hle => simp [two] at hl

theorem showOffset_ne_nil (off : Int) : showOffset off ≠ [] := by
  unfold showOffset; simp only; split <;> simp

theorem showTz_optTz {tz tz' : Option Int} (hr : ∀ o, tz = some o → -86400 < o ∧ o < 86400)
    (h : OptTz (showTz tz) tz') : XsdTz tz := by
  cases tz with
  | none => trivial
  | some off =>
    simp only [showTz] at h
    generalize ht : showOffset off = t at h
    cases h with
    | none => exact absurd ht (showOffset_ne_nil off)
    | some h => subst ht; exact (showOffset_tzText (hr off rfl) h).1

theorem showTz_head_not_digit (tz : Option Int) :
    ∀ c, (showTz tz).head? = some c → Str.isAsciiDigit c = false := by
  cases tz with
  | none => simp [showTz]
  | some off =>
    intro c hc
    have : (showTz (some off)).head? = some (if off < 0 then '-' else '+') := by
      simp only [showTz, showOffset]; split <;> simp
    rw [this] at hc
    simp only [Option.some.injEq] at hc
    rw [← hc]; split <;> decide

theorem optTz_head_not_digit {t : Str} {tz : Option Int} (h : OptTz t tz) :
    ∀ c, t.head? = some c → Str.isAsciiDigit c = false := by
  intro c hc
  cases h with
  | none => simp at hc
  | some h => cases h <;> simp at hc <;> subst hc <;> decide

theorem digits_append_unique {a b t u : Str} (ha : Str.allDigits a = true) (hb : Str.allDigits b = true)
    (ht : ∀ c, t.head? = some c → Str.isAsciiDigit c = false)
    (hu : ∀ c, u.head? = some c → Str.isAsciiDigit c = false)
    (h : a ++ t = b ++ u) : a = b ∧ t = u := by
  induction a generalizing b with
  | nil =>
    cases b with
    | nil => simpa using h
    | cons y b =>
      have hy : Str.isAsciiDigit y = true := by
        simp only [Str.allDigits_cons, Bool.and_eq_true] at hb; exact hb.1
      have := ht y (by simp only [List.nil_append] at h; rw [h]; simp)
      rw [hy] at this; exact absurd this (by decide)
  | cons x a ih =>
    have hx : Str.isAsciiDigit x = true ∧ Str.allDigits a = true := by
      simp only [Str.allDigits_cons, Bool.and_eq_true] at ha; exact ha
    cases b with
    | nil =>
      have := hu x (by simp only [List.nil_append] at h; rw [← h]; simp)
      rw [hx.1] at this; exact absurd this (by decide)
    | cons y b =>
      simp only [List.cons_append, List.cons.injEq] at h
      have hy : Str.allDigits b = true := by
        simp only [Str.allDigits_cons, Bool.and_eq_true] at hb; exact hb.2
      obtain ⟨rfl, rfl⟩ := ih hx.2 hy h.2
      exact ⟨by rw [h.1], rfl⟩

end Verif.Lemmas
