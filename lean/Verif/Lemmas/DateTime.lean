import Verif.Lemmas.Chrono

/-! # Helper lemmas for `Date` and `Time` -/

namespace Verif.Lemmas.Chr

open Verif Verif.Model Verif.Spec Verif.Lemmas Verif.Lemmas.Dur Chrono

theorem noDigit_dash (r : Str) : NoDigit ('-' :: r) := noDigit_cons.2 (by decide)
theorem noDigit_colon (r : Str) : NoDigit (':' :: r) := noDigit_cons.2 (by decide)

theorem number_unbounded_iff {s r : Str} {v : Nat} (hr : NoDigit r) :
    number s 1 none = some (r, v) ↔
      ∃ ds, Digits1 ds ∧ s = dtext ds ++ r ∧ v = decVal ds ∧ v ≤ i64Max := by
  rw [number_iff (by simp)]
  constructor
  · rintro ⟨ds, h1, h2, h3, h4, h5, -⟩
    exact ⟨ds, ⟨by rintro rfl; simp at h2, h1⟩, h3, h4, h5⟩
  · rintro ⟨ds, ⟨h0, h1⟩, h3, h4, h5⟩
    exact ⟨ds, h1, List.length_pos_iff.2 h0, h3, h4, h5, by simp, Or.inr hr⟩

theorem number4_iff {s r : Str} {v : Nat} (hr : NoDigit r) :
    number s 1 (some 4) = some (r, v) ↔
      ∃ ds, Digits1 ds ∧ ds.length ≤ 4 ∧ s = dtext ds ++ r ∧ v = decVal ds := by
  rw [number_iff (by simp)]
  constructor
  · rintro ⟨ds, h1, h2, h3, h4, -, h6, -⟩
    exact ⟨ds, ⟨by rintro rfl; simp at h2, h1⟩, h6 4 rfl, h3, h4⟩
  · rintro ⟨ds, ⟨h0, h1⟩, h2, h3, h4⟩
    refine ⟨ds, h1, List.length_pos_iff.2 h0, h3, h4, ?_, by simpa using h2, Or.inr hr⟩
    rw [h4]; exact decVal_le_i64 h1 (by omega)

theorem digits1_head {ds : List Nat} (h : Digits1 ds) : ∃ d ds', d < 10 ∧ ds = d :: ds' := by
  obtain ⟨h0, h1⟩ := h
  cases ds with
  | nil => exact absurd rfl h0
  | cons d ds => exact ⟨d, ds, h1 d (by simp), rfl⟩

/-- `%Y` followed by something which is not a digit; the 64-bit limit only matters for signed years. -/
theorem scanYear_iff {s r : Str} {y : Int} (hr : NoDigit r) (hy : y.natAbs ≤ i64Max) :
    scanYear s = some (r, y) ↔ ∃ sg yt, YearText sg yt y ∧ s = yt ++ r := by
  have hunsigned : ∀ s : Str, s.head? ≠ some '-' → s.head? ≠ some '+' →
      scanYear s = (number s 1 (some 4)).map fun p => (p.1, (p.2 : Int)) := by
    intro s h1 h2
    unfold scanYear
    split
    · simp at h1
    · simp at h2
    · rfl
  constructor
  · intro h
    unfold scanYear at h
    split at h
    · simp only [Option.map_eq_some_iff, Prod.exists, Prod.mk.injEq] at h
      obtain ⟨a, b, hab, rfl, rfl⟩ := h
      obtain ⟨ds, h1, rfl, rfl, -⟩ := (number_unbounded_iff hr).1 hab
      exact ⟨.minus, _, .minus ds h1, rfl⟩
    · simp only [Option.map_eq_some_iff, Prod.exists, Prod.mk.injEq] at h
      obtain ⟨a, b, hab, rfl, rfl⟩ := h
      obtain ⟨ds, h1, rfl, rfl, -⟩ := (number_unbounded_iff hr).1 hab
      exact ⟨.plus, _, .plus ds h1, rfl⟩
    · simp only [Option.map_eq_some_iff, Prod.exists, Prod.mk.injEq] at h
      obtain ⟨a, b, hab, rfl, rfl⟩ := h
      obtain ⟨ds, h1, h2, rfl, rfl⟩ := (number4_iff hr).1 hab
      exact ⟨.none, _, .none ds h1 h2, rfl⟩
  · rintro ⟨sg, yt, hyt, rfl⟩
    cases hyt with
    | none ds h1 h2 =>
      obtain ⟨d, ds', hd, rfl⟩ := digits1_head h1
      rw [hunsigned, (number4_iff hr).2 ⟨_, h1, h2, rfl, rfl⟩]
      · rfl
      · simp only [dtext, List.map_cons, List.cons_append, List.head?_cons, ne_eq, Option.some.injEq]
        exact digit_ne_of hd (by decide)
      · simp only [dtext, List.map_cons, List.cons_append, List.head?_cons, ne_eq, Option.some.injEq]
        exact digit_ne_of hd (by decide)
    | plus ds h1 =>
      simp only [scanYear, List.cons_append]
      rw [(number_unbounded_iff hr).2 ⟨ds, h1, rfl, rfl, by simpa using hy⟩]
      rfl
    | minus ds h1 =>
      simp only [scanYear, List.cons_append]
      rw [(number_unbounded_iff hr).2 ⟨ds, h1, rfl, rfl, by simpa using hy⟩]
      rfl

theorem daysInMonth_iff {y : Int} {m d : Nat} :
    (1 ≤ m ∧ m ≤ 12 ∧ 1 ≤ d ∧ d ≤ daysInMonth y m) ↔ ValidDate y m d := by
  unfold ValidDate daysInMonth
  have hleap : isLeap y = true ↔ LeapYear y := by
    unfold isLeap LeapYear
    simp
    omega
  constructor
  · rintro ⟨h1, h2, h3, h4⟩
    have hm : m = 1 ∨ m = 2 ∨ m = 3 ∨ m = 4 ∨ m = 5 ∨ m = 6 ∨ m = 7 ∨ m = 8 ∨ m = 9 ∨ m = 10 ∨ m = 11 ∨ m = 12 := by
      omega
    by_cases hl : LeapYear y
    · have hl' := hleap.2 hl
      rcases hm with rfl | rfl | rfl | rfl | rfl | rfl | rfl | rfl | rfl | rfl | rfl | rfl <;>
        simp [hl', maxDay] at h4 ⊢ <;> (try omega)
      exact ⟨h3, h4, fun _ => hl⟩
    · have hl' : ¬ isLeap y = true := fun h => hl (hleap.1 h)
      rcases hm with rfl | rfl | rfl | rfl | rfl | rfl | rfl | rfl | rfl | rfl | rfl | rfl <;>
        simp [hl', maxDay] at h4 ⊢ <;> (try omega)
  · rintro ⟨h1, h2, h3, h4, h5⟩
    refine ⟨h1, h2, h3, ?_⟩
    have hm : m = 1 ∨ m = 2 ∨ m = 3 ∨ m = 4 ∨ m = 5 ∨ m = 6 ∨ m = 7 ∨ m = 8 ∨ m = 9 ∨ m = 10 ∨ m = 11 ∨ m = 12 := by
      omega
    by_cases hl : LeapYear y
    · have hl' := hleap.2 hl
      rcases hm with rfl | rfl | rfl | rfl | rfl | rfl | rfl | rfl | rfl | rfl | rfl | rfl <;>
        simp [hl', maxDay] at h4 ⊢ <;> (try omega)
    · have hl' : ¬ isLeap y = true := fun h => hl (hleap.1 h)
      rcases hm with rfl | rfl | rfl | rfl | rfl | rfl | rfl | rfl | rfl | rfl | rfl | rfl <;>
        simp [hl', maxDay] at h4 ⊢ <;> (try omega)
      have : d ≠ 29 := fun e => hl (h5 ⟨rfl, e⟩)
      omega

theorem fromYmdOpt_iff {yr : YearRange} {y : Int} {m d : Nat} {x : NaiveDate} :
    fromYmdOpt yr y m d = some x ↔ yr.lo ≤ y ∧ y ≤ yr.hi ∧ ValidDate y m d ∧ x = ⟨y, m, d⟩ := by
  unfold fromYmdOpt
  rw [← daysInMonth_iff]
  split
  · rename_i h
    simp only [Option.some.injEq]
    exact ⟨fun e => ⟨h.1, h.2.1, h.2.2, e.symm⟩, fun e => e.2.2.2.symm⟩
  · rename_i h
    simp only [false_iff, reduceCtorEq]
    intro e
    exact h ⟨e.1, e.2.1, e.2.2.1⟩

theorem yearText_head {sg : Sign} {yt : Str} {y : Int} (h : YearText sg yt y) :
    ∃ c r, yt = c :: r ∧ ¬ Space c := by
  cases h with
  | none ds h1 h2 =>
    obtain ⟨d, ds', hd, rfl⟩ := digits1_head h1
    exact ⟨_, _, rfl, digit_not_space hd⟩
  | plus ds h1 => exact ⟨_, _, rfl, by rw [← isWhitespace_iff]; decide⟩
  | minus ds h1 => exact ⟨_, _, rfl, by rw [← isWhitespace_iff]; decide⟩

theorem year_natAbs {yr : YearRange} {y : Int} (h1 : yr.lo ≤ y) (h2 : y ≤ yr.hi) : y.natAbs ≤ i64Max := by
  have := yr.i32_lo; have := yr.i32_hi
  have e : i64Max = 9223372036854775807 := rfl
  omega

theorem parseYmd_iff {yr : YearRange} {s : Str} {x : NaiveDate} :
    parseYmd yr s = some x ↔ yr.lo ≤ x.year ∧ x.year ≤ yr.hi ∧ ValidDate x.year x.month x.day ∧
      ∃ sg, DateBody sg s x.year x.month x.day := by
  constructor
  · intro h
    unfold parseYmd at h
    simp only [Option.bind_eq_some_iff, Prod.exists] at h
    obtain ⟨s1, y, hy, s2, h2, s3, m, hm, s4, h4, s5, d, hd, h⟩ := h
    rw [lit_iff] at h2 h4
    subst h2 h4
    split at h
    · simp at h
    · rename_i hs5
      simp only [ne_eq, not_not] at hs5
      subst hs5
      obtain ⟨h1, h2, h3, rfl⟩ := fromYmdOpt_iff.1 h
      refine ⟨h1, h2, h3, ?_⟩
      obtain ⟨sg, yt, hyt, e1⟩ := (scanYear_iff (noDigit_dash _) (year_natAbs h1 h2)).1 hy
      obtain ⟨w1, hw1, e0⟩ := trimStart_spaces s
      obtain ⟨w2, ms, hw2, hms, e2, rfl⟩ := (number12_iff (noDigit_dash _)).1 hm
      obtain ⟨w3, ds, hw3, hds, e3, rfl⟩ := (number12_iff noDigit_nil).1 hd
      refine ⟨sg, w1, yt, w2, ms, w3, ds, hw1, hyt, hw2, hms, hw3, hds, e2, e3, ?_⟩
      rw [e0, e1]; simp
  · rintro ⟨h1, h2, h3, sg, w1, yt, w2, ms, w3, ds, hw1, hyt, hw2, hms, hw3, hds, e2, e3, rfl⟩
    unfold parseYmd
    have a1 : trimStart (w1 ++ yt ++ ['-'] ++ w2 ++ dtext ms ++ ['-'] ++ w3 ++ dtext ds)
        = yt ++ '-' :: (w2 ++ dtext ms ++ '-' :: (w3 ++ dtext ds)) := by
      rw [trimStart_iff]
      · exact ⟨w1, hw1, by simp⟩
      · obtain ⟨c, r, rfl, hc⟩ := yearText_head hyt
        intro c' r' e
        simp only [List.cons_append, List.cons.injEq] at e
        rw [← e.1]; exact hc
    rw [a1, (scanYear_iff (noDigit_dash _) (year_natAbs h1 h2)).2 ⟨sg, yt, hyt, rfl⟩]
    simp only [Option.bind_some, lit, if_true]
    rw [(number12_iff (noDigit_dash _)).2 ⟨w2, ms, hw2, hms, e2, rfl⟩]
    simp only [Option.bind_some, if_true]
    rw [(number12_iff noDigit_nil).2 ⟨w3, ds, hw3, hds, e3, by simp⟩]
    simp only [Option.bind_some, ne_eq, not_true_eq_false, if_false]
    exact fromYmdOpt_iff.2 ⟨h1, h2, h3, rfl⟩

/-! ### Counting separators in a date body -/

theorem countChar_dtext {ds : List Nat} (h : Digits ds) {c : Char} (hc : Str.isAsciiDigit c = false) :
    Str.countChar c (dtext ds) = 0 := Str.countChar_digits (allDigits_dtext h) hc

theorem countChar_spaces {w : Str} (h : Spaces w) {c : Char} (hc : ¬ Space c) : Str.countChar c w = 0 := by
  rw [Str.countChar_eq_zero]
  intro hm; exact hc (h c hm)

theorem not_space_of {c : Char} (h : isWhitespace c = false) : ¬ Space c := by
  rw [← isWhitespace_iff, h]; simp

/-- Number of `+` and `-` of a year text. -/
def yearPlus : Sign → Nat
  | .plus => 1
  | _ => 0
/-- Number of `-` of a year text. -/
def yearDash : Sign → Nat
  | .minus => 1
  | _ => 0

theorem dateBody_counts {sg : Sign} {s : Str} {y : Int} {m d : Nat} (h : DateBody sg s y m d) :
    Str.countChar '+' s = yearPlus sg ∧ Str.countChar '-' s = yearDash sg + 2 ∧ s.getLast? ≠ some 'Z' := by
  obtain ⟨w1, yt, w2, ms, w3, ds, hw1, hyt, hw2, hms, hw3, hds, -, -, rfl⟩ := h
  have hyp : Str.countChar '+' yt = yearPlus sg ∧ Str.countChar '-' yt = yearDash sg := by
    cases hyt with
    | none ds h1 h2 => exact ⟨countChar_dtext h1.2 (by decide), countChar_dtext h1.2 (by decide)⟩
    | plus ds h1 =>
      simp only [Str.countChar_cons, yearPlus, yearDash]
      rw [countChar_dtext h1.2 (by decide), countChar_dtext h1.2 (by decide)]; simp
    | minus ds h1 =>
      simp only [Str.countChar_cons, yearPlus, yearDash]
      rw [countChar_dtext h1.2 (by decide), countChar_dtext h1.2 (by decide)]; simp
  have sp : ∀ {w}, Spaces w → Str.countChar '+' w = 0 ∧ Str.countChar '-' w = 0 := fun hw =>
    ⟨countChar_spaces hw (not_space_of (by decide)), countChar_spaces hw (not_space_of (by decide))⟩
  have dg : ∀ {ds}, Digits12 ds → Str.countChar '+' (dtext ds) = 0 ∧ Str.countChar '-' (dtext ds) = 0 := fun hd =>
    ⟨countChar_dtext hd.1 (by decide), countChar_dtext hd.1 (by decide)⟩
  refine ⟨?_, ?_, ?_⟩
  · simp [hyp, sp hw1, sp hw2, sp hw3, dg hms, dg hds]
  · simp [hyp, sp hw1, sp hw2, sp hw3, dg hms, dg hds]
  · rw [List.getLast?_append_of_ne_nil]
    · intro e
      have hm := List.mem_of_getLast? e
      have := Str.countChar_digits (c := 'Z') (allDigits_dtext hds.1) (by decide)
      rw [Str.countChar_eq_zero] at this
      exact this hm
    · have := hds.2
      intro e
      have : ds = [] := by simpa [dtext] using e
      subst this; simp at this

/-! ### Value token and timezone, without assumptions on the value parser -/

/-- Which split into value and timezone the separator counting finds. -/
def TzDetect (k : Nat) (b t : Str) : Prop :=
  t = ['Z'] ∨ ((∃ u, t = '+' :: u) ∧ Str.countChar '+' b = 0) ∨
  ((∃ u, t = '-' :: u) ∧ Str.countChar '+' b = 0 ∧ Str.countChar '-' b = k) ∨
  (t = [] ∧ Str.countChar '+' b = 0 ∧ Str.countChar '-' b ≠ k + 1 ∧ b.getLast? ≠ some 'Z')

theorem tz_last {c : Char} {b : Str} {x y : Nat} :
    (b ++ c :: (two x ++ ':' :: two y)).getLast? ≠ some 'Z' := by
  have : b ++ c :: (two x ++ ':' :: two y) = (b ++ c :: (two x ++ [':'])) ++ two y := by simp
  rw [this, getLast?_two_append]
  intro h; simp only [Option.some.injEq] at h
  exact digit_ne_of (by omega) (by decide) h

theorem tzSplit_gen {β γ : Type} {k : Nat} {pv : Str → Res β} {mk : β → Option Int → Res γ}
    {s : Str} {g : γ} :
    tzSplit k pv mk s = .ok g ↔
      ∃ b t v tz, s = b ++ t ∧ pv b = .ok v ∧ OptTz t tz ∧ mk v tz = .ok g ∧ TzDetect k b t := by
  constructor
  · intro h
    unfold tzSplit at h
    cases hz : Str.stripSuffix 'Z' s with
    | some s' =>
      rw [hz] at h
      simp only [eastOpt_zero, Res.unwrap, Res.ok_bind] at h
      rw [Res.bind_eq_ok] at h
      obtain ⟨v, hv, hg⟩ := h
      exact ⟨s', ['Z'], v, some 0, Str.stripSuffix_eq_some.1 hz, hv, .some .zulu, hg, Or.inl rfl⟩
    | none =>
      rw [hz] at h
      simp only at h
      split at h
      · split at h
        · simp at h
        · rw [Res.bind_eq_ok] at h
          obtain ⟨⟨a, b⟩, hs, h⟩ := h
          rw [Res.bind_eq_ok] at h
          obtain ⟨v, hv, h⟩ := h
          rw [Res.bind_eq_ok] at h
          obtain ⟨tz, ht, h⟩ := h
          obtain ⟨t, rfl, h1, h2⟩ := Str.splitAtMatch_eq_ok.1 hs
          exact ⟨a, b, v, some tz, rfl, hv, .some (parseTimezone_ok_iff.1 ht), h,
            Or.inr (Or.inl ⟨⟨t, h1⟩, h2⟩)⟩
      · rename_i hnp
        have hnp : Str.countChar '+' s = 0 := by
          rw [Str.hasChar_iff_countChar] at hnp; omega
        split at h
        · rw [Res.bind_eq_ok] at h
          obtain ⟨⟨a, b⟩, hs, h⟩ := h
          rw [Res.bind_eq_ok] at h
          obtain ⟨v, hv, h⟩ := h
          rw [Res.bind_eq_ok] at h
          obtain ⟨tz, ht, h⟩ := h
          obtain ⟨t, rfl, h1, h2⟩ := Str.splitAtMatch_eq_ok.1 hs
          rw [Str.countChar_append] at hnp
          exact ⟨a, b, v, some tz, rfl, hv, .some (parseTimezone_ok_iff.1 ht), h,
            Or.inr (Or.inr (Or.inl ⟨⟨t, h1⟩, by omega, h2⟩))⟩
        · rename_i hnd
          rw [Res.bind_eq_ok] at h
          obtain ⟨v, hv, h⟩ := h
          exact ⟨s, [], v, none, by simp, hv, .none, h,
            Or.inr (Or.inr (Or.inr ⟨rfl, hnp, hnd, Str.stripSuffix_eq_none.1 hz⟩))⟩
  · rintro ⟨b, t, v, tz, rfl, hv, ht, hg, hdet⟩
    unfold tzSplit
    cases ht with
    | none =>
      simp only [TzDetect, List.nil_eq, reduceCtorEq, exists_false, false_and, false_or, true_and] at hdet
      obtain ⟨hp, hd, hl⟩ := hdet
      rw [List.append_nil, Str.stripSuffix_eq_none.2 hl]
      have : ¬ Str.hasChar '+' b = true := by rw [Str.hasChar_iff_countChar]; omega
      simp only [this, hd, hv, Res.ok_bind]
      rw [if_neg (by simp), if_neg (by simp), hg]
    | @some _ off ht =>
      have htz := parseTimezone_ok_iff.2 ht
      cases ht with
      | zulu =>
        rw [Str.stripSuffix_eq_some.2 rfl]
        simp only [hv, eastOpt_zero, Res.unwrap, Res.ok_bind, hg]
      | east x y h1 h2 =>
        have hx : x < 100 := by omega
        have hy : y < 100 := by omega
        have hp : Str.countChar '+' b = 0 := by
          simp [TzDetect] at hdet; exact hdet
        rw [Str.stripSuffix_eq_none.2 tz_last]
        have hc : Str.countChar '+' (b ++ '+' :: (two x ++ ':' :: two y)) = 1 := by
          rw [Str.countChar_append, Str.countChar_cons,
            count_tz_tail (by decide) (by decide) hx hy, hp]; simp
        have hh : Str.hasChar '+' (b ++ '+' :: (two x ++ ':' :: two y)) = true := by
          rw [Str.hasChar_iff_countChar]; omega
        have hs : Str.splitAtMatch '+' (b ++ '+' :: (two x ++ ':' :: two y)) 0 =
            .ok (b, '+' :: (two x ++ ':' :: two y)) :=
          Str.splitAtMatch_eq_ok.2 ⟨_, rfl, rfl, hp⟩
        simp only [hh, hc, if_true]
        rw [if_neg (by omega), hs]
        simp only [Res.ok_bind, hv, htz, hg]
      | west x y h1 h2 =>
        have hx : x < 100 := by omega
        have hy : y < 100 := by omega
        have hpd : Str.countChar '+' b = 0 ∧ Str.countChar '-' b = k := by
          simp [TzDetect] at hdet; exact hdet
        obtain ⟨hp, hd⟩ := hpd
        rw [Str.stripSuffix_eq_none.2 tz_last]
        have hc : Str.countChar '-' (b ++ '-' :: (two x ++ ':' :: two y)) = k + 1 := by
          rw [Str.countChar_append, Str.countChar_cons,
            count_tz_tail (by decide) (by decide) hx hy, hd]; simp
        have hc' : Str.countChar '+' (b ++ '-' :: (two x ++ ':' :: two y)) = 0 := by
          rw [Str.countChar_append, Str.countChar_cons,
            count_tz_tail (by decide) (by decide) hx hy, hp]; simp
        have hh : ¬ Str.hasChar '+' (b ++ '-' :: (two x ++ ':' :: two y)) = true := by
          rw [Str.hasChar_iff_countChar]; omega
        have hs : Str.splitAtMatch '-' (b ++ '-' :: (two x ++ ':' :: two y)) k =
            .ok (b, '-' :: (two x ++ ':' :: two y)) :=
          Str.splitAtMatch_eq_ok.2 ⟨_, rfl, rfl, hd⟩
        simp only [hc]
        rw [if_neg hh, if_pos trivial, hs]
        simp only [Res.ok_bind, hv, htz, hg]

/-! ### Date -/

theorem date_fromStr_eq (yr : YearRange) (s : Str) :
    Date.fromStr yr s = tzSplit 2 (Date.parseNaive yr) (fun v tz => .ok ⟨v, tz⟩) s := rfl

theorem parseNaive_iff {yr : YearRange} {s : Str} {x : NaiveDate} :
    Date.parseNaive yr s = .ok x ↔ parseYmd yr s = some x := by
  unfold Date.parseNaive; cases parseYmd yr s <;> simp

theorem date_fromStr_iff {yr : YearRange} {s : Str} {x : NaiveDate} {tz : Option Int} :
    Date.fromStr yr s = .ok ⟨x, tz⟩ ↔
      yr.lo ≤ x.year ∧ x.year ≤ yr.hi ∧ ValidDate x.year x.month x.day ∧
      ∃ sg b t, s = b ++ t ∧ DateBody sg b x.year x.month x.day ∧ OptTz t tz ∧ SignOk sg t := by
  rw [date_fromStr_eq, tzSplit_gen]
  constructor
  · rintro ⟨b, t, v, tz', rfl, hv, ht, hg, hdet⟩
    simp only [Res.ok.injEq, Date.mk.injEq] at hg
    obtain ⟨rfl, rfl⟩ := hg
    obtain ⟨h1, h2, h3, sg, hb⟩ := parseYmd_iff.1 (parseNaive_iff.1 hv)
    refine ⟨h1, h2, h3, sg, b, t, rfl, hb, ht, ?_⟩
    obtain ⟨c1, c2, c3⟩ := dateBody_counts hb
    rcases hdet with rfl | ⟨⟨u, rfl⟩, hd⟩ | ⟨⟨u, rfl⟩, hd, hd'⟩ | ⟨rfl, hd, hd', -⟩
    · cases sg <;> simp [SignOk]
    · cases sg <;> simp [SignOk, yearPlus] at c1 ⊢
      omega
    · cases sg <;> simp [SignOk, yearPlus, yearDash] at c1 c2 ⊢ <;> omega
    · cases sg <;> simp [SignOk, yearPlus, yearDash] at c1 c2 ⊢ <;> omega
  · rintro ⟨h1, h2, h3, sg, b, t, rfl, hb, ht, hs⟩
    refine ⟨b, t, x, tz, rfl, parseNaive_iff.2 (parseYmd_iff.2 ⟨h1, h2, h3, sg, hb⟩), ht, rfl, ?_⟩
    obtain ⟨c1, c2, c3⟩ := dateBody_counts hb
    unfold TzDetect
    cases sg with
    | none =>
      simp only [yearPlus, yearDash] at c1 c2
      cases ht with
      | none => simp [c1, c2, c3]
      | some ht => cases ht <;> simp [c1, c2]
    | plus => exact Or.inl hs
    | minus =>
      simp only [yearPlus, yearDash] at c1 c2
      rcases hs with rfl | ⟨u, rfl⟩
      · exact Or.inl rfl
      · simp [c1]

/-! ### Time -/

theorem toNaiveTime_iff {h m s n : Nat} {x : NaiveTime} :
    toNaiveTime h m s n = some x ↔ h < 24 ∧ m < 60 ∧ s ≤ 60 ∧
      x = ⟨h, m, min s 59, if s = 60 then n + 1000000000 else n⟩ := by
  unfold toNaiveTime
  split
  · simp; omega
  · split
    · simp; omega
    · split
      · simp; omega
      · split
        · rename_i h1 h2 h3 h4
          subst h4
          simp only [Option.some.injEq]
          constructor
          · rintro rfl; exact ⟨by omega, by omega, by omega, by simp⟩
          · rintro ⟨-, -, -, rfl⟩; simp
        · rename_i h1 h2 h3 h4
          have e : min s 59 = s := by omega
          simp only [Option.some.injEq, e]
          constructor
          · rintro rfl; exact ⟨by omega, by omega, by omega, by simp⟩
          · rintro ⟨-, -, -, rfl⟩; simp

theorem parseHms_iff {s : Str} {x : NaiveTime} :
    parseHms s = some x ↔ ∃ h m sec, TimeBody s h m sec ∧ h < 24 ∧ m < 60 ∧ sec ≤ 60 ∧
      x = ⟨h, m, min sec 59, if sec = 60 then 1000000000 else 0⟩ := by
  constructor
  · intro h
    unfold parseHms at h
    simp only [Option.bind_eq_some_iff, Prod.exists] at h
    obtain ⟨s1, hh, hy, s2, h2, s3, m, hm, s4, h4, s5, d, hd, h⟩ := h
    rw [lit_iff] at h2 h4
    subst h2 h4
    split at h
    · simp at h
    · rename_i hs5
      simp only [ne_eq, not_not] at hs5
      subst hs5
      obtain ⟨h1, h2, h3, rfl⟩ := toNaiveTime_iff.1 h
      obtain ⟨w1, hs, hw1, hhs, e1, rfl⟩ := (number12_iff (noDigit_colon _)).1 hy
      obtain ⟨w2, ms, hw2, hms, e2, rfl⟩ := (number12_iff (noDigit_colon _)).1 hm
      obtain ⟨w3, ds, hw3, hds, e3, rfl⟩ := (number12_iff noDigit_nil).1 hd
      refine ⟨hh, m, d, ⟨w1, hs, w2, ms, w3, ds, hw1, hhs, hw2, hms, hw3, hds, e1, e2, e3, by simp⟩,
        h1, h2, h3, by simp⟩
  · rintro ⟨h, m, sec, ⟨w1, hs, w2, ms, w3, ds, hw1, hhs, hw2, hms, hw3, hds, e1, e2, e3, rfl⟩, h1, h2, h3, rfl⟩
    unfold parseHms
    rw [(number12_iff (noDigit_colon (w2 ++ dtext ms ++ ':' :: (w3 ++ dtext ds)))).2
      ⟨w1, hs, hw1, hhs, e1, by simp⟩]
    simp only [Option.bind_some, lit, if_true]
    rw [(number12_iff (noDigit_colon _)).2 ⟨w2, ms, hw2, hms, e2, rfl⟩]
    simp only [Option.bind_some, if_true]
    rw [(number12_iff noDigit_nil).2 ⟨w3, ds, hw3, hds, e3, by simp⟩]
    simp only [Option.bind_some, ne_eq, not_true_eq_false, if_false]
    exact toNaiveTime_iff.2 ⟨h1, h2, h3, by simp⟩

theorem timeBody_counts {s : Str} {h m sec : Nat} (hb : TimeBody s h m sec) :
    Str.countChar '+' s = 0 ∧ Str.countChar '-' s = 0 ∧ s.getLast? ≠ some 'Z' := by
  obtain ⟨w1, hs, w2, ms, w3, ds, hw1, hhs, hw2, hms, hw3, hds, -, -, -, rfl⟩ := hb
  have sp : ∀ {w}, Spaces w → Str.countChar '+' w = 0 ∧ Str.countChar '-' w = 0 := fun hw =>
    ⟨countChar_spaces hw (not_space_of (by decide)), countChar_spaces hw (not_space_of (by decide))⟩
  have dg : ∀ {ds}, Digits12 ds → Str.countChar '+' (dtext ds) = 0 ∧ Str.countChar '-' (dtext ds) = 0 := fun hd =>
    ⟨countChar_dtext hd.1 (by decide), countChar_dtext hd.1 (by decide)⟩
  refine ⟨?_, ?_, ?_⟩
  · simp [sp hw1, sp hw2, sp hw3, dg hms, dg hds, dg hhs]
  · simp [sp hw1, sp hw2, sp hw3, dg hms, dg hds, dg hhs]
  · rw [List.getLast?_append_of_ne_nil]
    · intro e
      have hm := List.mem_of_getLast? e
      have := Str.countChar_digits (c := 'Z') (allDigits_dtext hds.1) (by decide)
      rw [Str.countChar_eq_zero] at this
      exact this hm
    · have := hds.2
      intro e
      have : ds = [] := by simpa [dtext] using e
      subst this; simp at this

theorem time_parseNaive_iff {s : Str} {x : NaiveTime} :
    Time.parseNaive s = .ok x ↔ parseHms s = some x := by
  unfold Time.parseNaive; cases parseHms s <;> simp

theorem time_fromStr_eq (s : Str) :
    Time.fromStr s = tzSplit 0 Time.parseNaive (fun v tz => .ok ⟨v, tz⟩) s := by
  unfold Time.fromStr tzSplit
  cases Str.stripSuffix 'Z' s with
  | some s => rfl
  | none =>
    simp only
    by_cases hp : Str.hasChar '+' s = true
    · rw [if_pos hp, if_pos hp]
    · rw [if_neg hp, if_neg hp]
      by_cases h1 : Str.countChar '-' s > 1
      · have hh : Str.hasChar '-' s = true := by rw [Str.hasChar_iff_countChar]; omega
        have hne : ¬ Str.countChar '-' s = 0 + 1 := by omega
        rw [if_pos hh, if_pos h1, if_neg hne]
        cases hp : Time.parseNaive s with
        | ok x =>
          obtain ⟨h, m, sec, hb, -⟩ := parseHms_iff.1 (time_parseNaive_iff.1 hp)
          have := (timeBody_counts hb).2.1
          omega
        | err => rfl
        | panic => unfold Time.parseNaive at hp; cases h : parseHms s <;> rw [h] at hp <;> simp at hp
      · by_cases h0 : Str.countChar '-' s = 0
        · have hh : ¬ Str.hasChar '-' s = true := by rw [Str.hasChar_iff_countChar]; omega
          rw [if_neg hh, if_neg (by omega)]
        · have hh : Str.hasChar '-' s = true := by rw [Str.hasChar_iff_countChar]; omega
          rw [if_pos hh, if_neg h1, if_pos (by omega)]

theorem time_fromStr_iff {s : Str} {x : NaiveTime} {tz : Option Int} :
    Time.fromStr s = .ok ⟨x, tz⟩ ↔
      ∃ h m sec b t, s = b ++ t ∧ TimeBody b h m sec ∧ h < 24 ∧ m < 60 ∧ sec ≤ 60 ∧
        x = ⟨h, m, min sec 59, if sec = 60 then 1000000000 else 0⟩ ∧ OptTz t tz := by
  rw [time_fromStr_eq, tzSplit_ok_iff]
  · constructor
    · rintro ⟨b, t, v, tz', rfl, hv, ht, hg⟩
      simp only [Res.ok.injEq, Time.mk.injEq] at hg
      obtain ⟨rfl, rfl⟩ := hg
      obtain ⟨h, m, sec, hb, h1, h2, h3, h4⟩ := parseHms_iff.1 (time_parseNaive_iff.1 hv)
      exact ⟨h, m, sec, b, t, rfl, hb, h1, h2, h3, h4, ht⟩
    · rintro ⟨h, m, sec, b, t, rfl, hb, h1, h2, h3, h4, ht⟩
      exact ⟨b, t, x, tz, rfl, time_parseNaive_iff.2 (parseHms_iff.2 ⟨h, m, sec, hb, h1, h2, h3, h4⟩), ht, rfl⟩
  · intro s v h
    obtain ⟨h, m, sec, hb, -⟩ := parseHms_iff.1 (time_parseNaive_iff.1 h)
    exact (timeBody_counts hb).1
  · intro s v h
    obtain ⟨h, m, sec, hb, -⟩ := parseHms_iff.1 (time_parseNaive_iff.1 h)
    exact (timeBody_counts hb).2.1
  · intro s v h
    obtain ⟨h, m, sec, hb, -⟩ := parseHms_iff.1 (time_parseNaive_iff.1 h)
    exact (timeBody_counts hb).2.2

theorem date_no_panic (yr : YearRange) (s : Str) : Date.fromStr yr s ≠ .panic := by
  intro h
  rw [date_fromStr_eq] at h
  obtain ⟨b, t, -, hp, -⟩ := tzSplit_panic (by simp) h
  unfold Date.parseNaive at hp; cases h : parseYmd yr b <;> rw [h] at hp <;> simp at hp

theorem time_no_panic (s : Str) : Time.fromStr s ≠ .panic := by
  intro h
  rw [time_fromStr_eq] at h
  obtain ⟨b, t, -, hp, -⟩ := tzSplit_panic (by simp) h
  unfold Time.parseNaive at hp; cases h : parseHms b <;> rw [h] at hp <;> simp at hp

end Verif.Lemmas.Chr
