import Verif.Lemmas.Gregorian2

/-! # C03–C10: gDay, gMonth, gMonthDay, gYear, gYearMonth -/

namespace Verif.Props

open Verif Verif.Model Verif.Spec Verif.Lemmas Chrono

/-- Offsets chrono's `FixedOffset` can hold. -/
def ChronoTz (tz : Option Int) : Prop := ∀ o, tz = some o → -86400 < o ∧ o < 86400

/-! ## C03 gDay -/

/-- **C03** -/
theorem C03_gday_iff (s : Str) (g : GDay) :
    GDay.fromStr s = .ok g ↔ GDayText s g.value g.timezone := by
  have key : ∀ d : Nat, d < 100 → (['-', '-', '-'] ++ two d).getLast? ≠ some 'Z' := by
    intro d hd h
    rw [getLast?_two_append] at h
    exact digit_ne_of (show d % 10 < 10 by omega) (by decide : Str.isAsciiDigit 'Z' = false)
      (Option.some.inj h)
  rw [gday_fromStr_eq, tzSplit_ok_iff]
  · constructor
    · rintro ⟨b, t, v, tz, rfl, hv, ht, hn⟩
      obtain ⟨d, hd, rfl, rfl⟩ := gday_parseValue_ok.1 hv
      unfold GDay.new at hn
      split at hn
      · simp at hn
      · simp only [Res.ok.injEq] at hn
        subst hn
        exact ⟨d, t, by omega, by omega, rfl, rfl, ht⟩
    · rintro ⟨d, t, h1, h2, hv, rfl, ht⟩
      refine ⟨_, t, (d : Int), g.timezone, rfl, gday_parseValue_ok.2 ⟨d, by omega, rfl, rfl⟩, ht, ?_⟩
      unfold GDay.new
      rw [if_neg (by omega), ← hv]
  · intro s v h
    obtain ⟨d, hd, -, rfl⟩ := gday_parseValue_ok.1 h
    rw [Str.countChar_append, Str.countChar_digits (allDigits_two hd) (by decide)]; decide
  · intro s v h
    obtain ⟨d, hd, -, rfl⟩ := gday_parseValue_ok.1 h
    rw [Str.countChar_append, Str.countChar_digits (allDigits_two hd) (by decide)]; decide
  · intro s v h
    obtain ⟨d, hd, -, rfl⟩ := gday_parseValue_ok.1 h
    exact key d hd

example : GDayText "---31-05:30".toList 31 (some (-19800)) :=
  ⟨31, "-05:30".toList, by decide, by decide, rfl, rfl, .some (.west 5 30 (by decide) (by decide))⟩

/-! ## C04 gMonth -/

/-- **C04** -/
theorem C04_gmonth_iff (s : Str) (g : GMonth) :
    GMonth.fromStr s = .ok g ↔ GMonthText s g.value g.timezone := by
  have key : ∀ d : Nat, d < 100 → (['-', '-'] ++ two d).getLast? ≠ some 'Z' := by
    intro d hd h
    rw [getLast?_two_append] at h
    exact digit_ne_of (show d % 10 < 10 by omega) (by decide : Str.isAsciiDigit 'Z' = false)
      (Option.some.inj h)
  rw [gmonth_fromStr_eq, tzSplit_ok_iff]
  · constructor
    · rintro ⟨b, t, v, tz, rfl, hv, ht, hn⟩
      obtain ⟨d, hd, rfl, rfl⟩ := gmonth_parseValue_ok.1 hv
      unfold GMonth.new at hn
      split at hn
      · simp at hn
      · simp only [Res.ok.injEq] at hn
        subst hn
        exact ⟨d, t, by omega, by omega, rfl, rfl, ht⟩
    · rintro ⟨d, t, h1, h2, hv, rfl, ht⟩
      refine ⟨_, t, (d : Int), g.timezone, rfl, gmonth_parseValue_ok.2 ⟨d, by omega, rfl, rfl⟩, ht, ?_⟩
      unfold GMonth.new
      rw [if_neg (by omega), ← hv]
  · intro s v h
    obtain ⟨d, hd, -, rfl⟩ := gmonth_parseValue_ok.1 h
    rw [Str.countChar_append, Str.countChar_digits (allDigits_two hd) (by decide)]; decide
  · intro s v h
    obtain ⟨d, hd, -, rfl⟩ := gmonth_parseValue_ok.1 h
    rw [Str.countChar_append, Str.countChar_digits (allDigits_two hd) (by decide)]; decide
  · intro s v h
    obtain ⟨d, hd, -, rfl⟩ := gmonth_parseValue_ok.1 h
    exact key d hd

example : GMonthText "--12+14:00".toList 12 (some 50400) :=
  ⟨12, "+14:00".toList, by decide, by decide, rfl, rfl, .some (.east 14 0 (by decide) (by decide))⟩

/-! ## C05 gMonthDay -/

/-- **C05** -/
theorem C05_gmonthday_iff (s : Str) (g : GMonthDay) :
    GMonthDay.fromStr s = .ok g ↔ GMonthDayText s g.month g.day g.timezone := by
  rw [gmonthday_fromStr_eq, tzSplit_ok_iff]
  · constructor
    · rintro ⟨b, t, v, tz, rfl, hv, ht, hn⟩
      obtain ⟨m, d, hm, hd, rfl, rfl⟩ := gmonthday_parseValue_ok.1 hv
      obtain ⟨⟨m', d', h1, h2, h3⟩, rfl⟩ := gmonthday_new_ok.1 hn
      have : m' = m := by simp only at h1; omega
      have : d' = d := by simp only at h2; omega
      subst m' d'
      exact ⟨m, d, t, h3.1, h3.2.1, h3.2.2.1, h3.2.2.2, rfl, rfl, rfl, ht⟩
    · rintro ⟨m, d, t, h1, h2, h3, h4, e1, e2, rfl, ht⟩
      have := maxDay_le m
      refine ⟨_, t, ((m : Int), (d : Int)), g.timezone, rfl,
        gmonthday_parseValue_ok.2 ⟨m, d, by omega, by omega, rfl, rfl⟩, ht, ?_⟩
      exact gmonthday_new_ok.2 ⟨⟨m, d, rfl, rfl, h1, h2, h3, h4⟩, by rw [← e1, ← e2]⟩
  · intro s v h
    obtain ⟨m, d, hm, hd, -, rfl⟩ := gmonthday_parseValue_ok.1 h
    simp only [Str.countChar_append, Str.countChar_digits (allDigits_two hd) (show Str.isAsciiDigit '+' = false by decide),
      Str.countChar_digits (allDigits_two hm) (show Str.isAsciiDigit '+' = false by decide)]
    decide
  · intro s v h
    obtain ⟨m, d, hm, hd, -, rfl⟩ := gmonthday_parseValue_ok.1 h
    simp only [Str.countChar_append, Str.countChar_digits (allDigits_two hd) (show Str.isAsciiDigit '-' = false by decide),
      Str.countChar_digits (allDigits_two hm) (show Str.isAsciiDigit '-' = false by decide)]
    decide
  · intro s v h
    obtain ⟨m, d, hm, hd, -, rfl⟩ := gmonthday_parseValue_ok.1 h
    intro h
    rw [getLast?_two_append] at h
    exact digit_ne_of (show d % 10 < 10 by omega) (by decide : Str.isAsciiDigit 'Z' = false)
      (Option.some.inj h)

example : GMonthDayText "--02-29Z".toList 2 29 (some 0) :=
  ⟨2, 29, ['Z'], by decide, by decide, by decide, by decide, rfl, rfl, rfl, .some .zulu⟩

/-! ## C06 gYear -/

private theorem year_last {y : Str} {n : Nat} (h : YearDigits y n) : y.getLast? ≠ some 'Z' := by
  intro hl
  obtain ⟨t, rfl⟩ := List.getLast?_eq_some_iff.1 hl
  have := (yearDigits_iff.1 h).1
  simp [Str.allDigits] at this
  exact absurd this.2 (by decide)

private theorem year_head {y : Str} {n : Nat} (h : YearDigits y n) (r : Str) : (y ++ r).head? ≠ some '-' := by
  obtain ⟨hd, hl, -⟩ := yearDigits_iff.1 h
  cases y with
  | nil => simp at hl
  | cons c cs =>
    simp only [Str.allDigits_cons, Bool.and_eq_true] at hd
    intro hc
    simp only [List.cons_append, List.head?_cons, Option.some.injEq] at hc
    rw [hc] at hd
    exact absurd hd.1 (by decide)

private theorem gyear_positive_iff (s : Str) (g : GYear) :
    GYear.parseStrPositive s = .ok g ↔ ∃ (y t : List Char) (n : Nat), YearDigits y n ∧
      1 ≤ n ∧ n ≤ 2147483647 ∧ g.value = n ∧ s = y ++ t ∧ OptTz t g.timezone := by
  rw [gyear_parseStrPositive_eq, tzSplit_ok_iff]
  · constructor
    · rintro ⟨b, t, v, tz, rfl, hv, ht, hn⟩
      obtain ⟨n, hy, hle, rfl⟩ := gyear_parseValue_ok.1 hv
      unfold GYear.new at hn
      split at hn
      · simp at hn
      · simp only [Res.ok.injEq] at hn
        subst hn
        exact ⟨b, t, n, hy, by omega, hle, rfl, rfl, ht⟩
    · rintro ⟨y, t, n, hy, h1, h2, hv, rfl, ht⟩
      refine ⟨_, t, (n : Int), g.timezone, rfl, gyear_parseValue_ok.2 ⟨n, hy, h2, rfl⟩, ht, ?_⟩
      unfold GYear.new
      rw [if_neg (by omega), ← hv]
  · intro s v h
    obtain ⟨n, hy, -⟩ := gyear_parseValue_ok.1 h
    exact Str.countChar_digits (yearDigits_iff.1 hy).1 (by decide)
  · intro s v h
    obtain ⟨n, hy, -⟩ := gyear_parseValue_ok.1 h
    exact Str.countChar_digits (yearDigits_iff.1 hy).1 (by decide)
  · intro s v h
    obtain ⟨n, hy, -⟩ := gyear_parseValue_ok.1 h
    exact year_last hy

/-- **C06** -/
theorem C06_gyear_iff (s : Str) (g : GYear) :
    GYear.fromStr s = .ok g ↔ GYearText s g.value g.timezone := by
  unfold GYear.fromStr
  cases hp : Str.stripPrefix '-' s with
  | some s' =>
    obtain rfl := Str.stripPrefix_eq_some.1 hp
    simp only [Res.bind_eq_ok, gyear_positive_iff, Res.ok.injEq]
    constructor
    · rintro ⟨g', ⟨y, t, n, hy, h1, h2, h3, rfl, ht⟩, rfl⟩
      exact ⟨['-'], y, t, -1, n, .neg, hy, h1, h2, by simp only; omega, by simp, ht⟩
    · rintro ⟨sg, y, t, k, n, hs, hy, h1, h2, hv, he, ht⟩
      cases hs with
      | pos =>
        exfalso
        apply year_head hy t
        simp only [List.nil_append] at he
        rw [← he]; simp
      | neg =>
        refine ⟨⟨n, g.timezone⟩, ⟨y, t, n, hy, h1, h2, rfl, by simpa using he, ht⟩, ?_⟩
        cases g
        simp only at hv ⊢
        subst hv
        congr 1; omega
  | none =>
    have hh := Str.stripPrefix_eq_none.1 hp
    simp only [gyear_positive_iff]
    constructor
    · rintro ⟨y, t, n, hy, h1, h2, h3, rfl, ht⟩
      exact ⟨[], y, t, 1, n, .pos, hy, h1, h2, by omega, by simp, ht⟩
    · rintro ⟨sg, y, t, k, n, hs, hy, h1, h2, hv, rfl, ht⟩
      cases hs with
      | pos => exact ⟨y, t, n, hy, h1, h2, by omega, by simp, ht⟩
      | neg => simp at hh

example : GYearText "-0044-05:30".toList (-44) (some (-19800)) :=
  ⟨['-'], "0044".toList, "-05:30".toList, -1, 44, .neg,
    ⟨[0, 0, 4, 4], by decide, by decide, by decide, by decide⟩, by decide, by decide, by decide, by decide,
    .some (.west 5 30 (by decide) (by decide))⟩

/-- **C06** `GYear::from_str` never panics, whatever the text. -/
theorem C06_gyear_no_panic (s : Str) : GYear.fromStr s ≠ .panic := by
  have hp : ∀ s, GYear.parseStrPositive s ≠ .panic := by
    intro s h
    rw [gyear_parseStrPositive_eq, tzSplit_panic_iff gyear_new_ne_panic] at h
    obtain ⟨b, -, h⟩ := h
    exact gyear_parseValue_ne_panic b h
  unfold GYear.fromStr
  cases Str.stripPrefix '-' s with
  | none => exact hp s
  | some s' => exact Res.bind_ne_panic (hp s') (fun _ _ => by simp)

/-- **C06** finding: XSD forbids superfluous leading zeros (years of more than four digits must not
start with `0`), but the parser accepts them. -/
theorem C06_leading_zeros_accepted : GYear.fromStr "00002020".toList = .ok ⟨2020, none⟩ := by decide

/-! ## C07 gYearMonth -/

private theorem gyearmonth_positive_iff (s : Str) (g : GYearMonth) :
    GYearMonth.parseStrPositive s = .ok g ↔ ∃ (y t : List Char) (n m : Nat), YearDigits y n ∧
      1 ≤ n ∧ n ≤ 2147483647 ∧ 1 ≤ m ∧ m ≤ 12 ∧ g.year = n ∧ g.month = m ∧
      s = y ++ ['-'] ++ two m ++ t ∧ OptTz t g.timezone := by
  rw [gyearmonth_parseStrPositive_eq, tzSplit_ok_iff]
  · constructor
    · rintro ⟨b, t, v, tz, rfl, hv, ht, hn⟩
      obtain ⟨y, n, m, hy, hle, hm, rfl, rfl⟩ := gyearmonth_parseValue_ok.1 hv
      unfold GYearMonth.new at hn
      split at hn
      · simp at hn
      · split at hn
        · simp at hn
        · simp only [Res.ok.injEq] at hn
          subst hn
          refine ⟨y, t, n, m, hy, ?_, hle, ?_, ?_, rfl, rfl, rfl, ht⟩ <;> omega
    · rintro ⟨y, t, n, m, hy, h1, h2, h3, h4, e1, e2, rfl, ht⟩
      refine ⟨_, t, ((n : Int), (m : Int)), g.timezone, rfl,
        gyearmonth_parseValue_ok.2 ⟨y, n, m, hy, h2, by omega, rfl, rfl⟩, ht, ?_⟩
      unfold GYearMonth.new
      rw [if_neg (by simp only; omega), if_neg (by simp only; omega)]
      simp only [← e1, ← e2]
  · intro s v h
    obtain ⟨y, n, m, hy, hle, hm, -, rfl⟩ := gyearmonth_parseValue_ok.1 h
    simp only [Str.countChar_append, Str.countChar_digits (allDigits_two hm) (show Str.isAsciiDigit '+' = false by decide),
      Str.countChar_digits (yearDigits_iff.1 hy).1 (show Str.isAsciiDigit '+' = false by decide)]
    decide
  · intro s v h
    obtain ⟨y, n, m, hy, hle, hm, -, rfl⟩ := gyearmonth_parseValue_ok.1 h
    simp only [Str.countChar_append, Str.countChar_digits (allDigits_two hm) (show Str.isAsciiDigit '-' = false by decide),
      Str.countChar_digits (yearDigits_iff.1 hy).1 (show Str.isAsciiDigit '-' = false by decide)]
    decide
  · intro s v h
    obtain ⟨y, n, m, hy, hle, hm, -, rfl⟩ := gyearmonth_parseValue_ok.1 h
    intro h
    rw [getLast?_two_append] at h
    exact digit_ne_of (show m % 10 < 10 by omega) (by decide : Str.isAsciiDigit 'Z' = false)
      (Option.some.inj h)

/-- **C07** -/
theorem C07_gyearmonth_iff (s : Str) (g : GYearMonth) :
    GYearMonth.fromStr s = .ok g ↔ GYearMonthText s g.year g.month g.timezone := by
  unfold GYearMonth.fromStr
  cases hp : Str.stripPrefix '-' s with
  | some s' =>
    obtain rfl := Str.stripPrefix_eq_some.1 hp
    simp only [Res.bind_eq_ok, gyearmonth_positive_iff, Res.ok.injEq]
    constructor
    · rintro ⟨g', ⟨y, t, n, m, hy, h1, h2, h3, h4, e1, e2, rfl, ht⟩, rfl⟩
      exact ⟨['-'], y, t, -1, n, m, .neg, hy, h1, h2, h3, h4, by simp only; omega, e2, by simp, ht⟩
    · rintro ⟨sg, y, t, k, n, m, hs, hy, h1, h2, h3, h4, e1, e2, he, ht⟩
      cases hs with
      | pos =>
        exfalso
        apply year_head hy (['-'] ++ two m ++ t)
        simp only [List.nil_append, List.append_assoc] at he ⊢
        rw [← he]; simp
      | neg =>
        refine ⟨⟨n, m, g.timezone⟩, ⟨y, t, n, m, hy, h1, h2, h3, h4, rfl, rfl, by simpa using he, ht⟩, ?_⟩
        cases g
        simp only at e1 e2 ⊢
        subst e1 e2
        congr 1; omega
  | none =>
    have hh := Str.stripPrefix_eq_none.1 hp
    simp only [gyearmonth_positive_iff]
    constructor
    · rintro ⟨y, t, n, m, hy, h1, h2, h3, h4, e1, e2, rfl, ht⟩
      exact ⟨[], y, t, 1, n, m, .pos, hy, h1, h2, h3, h4, by omega, e2, by simp, ht⟩
    · rintro ⟨sg, y, t, k, n, m, hs, hy, h1, h2, h3, h4, e1, e2, rfl, ht⟩
      cases hs with
      | pos => exact ⟨y, t, n, m, hy, h1, h2, h3, h4, by omega, e2, by simp, ht⟩
      | neg => simp at hh

example : GYearMonthText "-12020-07Z".toList (-12020) 7 (some 0) :=
  ⟨['-'], "12020".toList, ['Z'], -1, 12020, 7, .neg,
    ⟨[1, 2, 0, 2, 0], by decide, by decide, by decide, by decide⟩, by decide, by decide, by decide, by decide,
    by decide, by decide, by decide, .some .zulu⟩

/-- **C07** `GYearMonth::from_str` never panics, whatever the text. -/
theorem C07_gyearmonth_no_panic (s : Str) : GYearMonth.fromStr s ≠ .panic := by
  have hp : ∀ s, GYearMonth.parseStrPositive s ≠ .panic := by
    intro s h
    rw [gyearmonth_parseStrPositive_eq, tzSplit_panic_iff (fun (v : Int × Int) tz => gyearmonth_new_ne_panic v.1 v.2 tz)] at h
    obtain ⟨b, -, h⟩ := h
    exact gyearmonth_parseValue_ne_panic b h
  unfold GYearMonth.fromStr
  cases Str.stripPrefix '-' s with
  | none => exact hp s
  | some s' => exact Res.bind_ne_panic (hp s') (fun _ _ => by simp)

/-- **C07** finding, as for gYear. -/
theorem C07_leading_zeros_accepted :
    GYearMonth.fromStr "00002020-01".toList = .ok ⟨2020, 1, none⟩ := by decide

/-! ## C08 display then parse -/

/-- **C08** gDay: the text parses back to the same value exactly when the timezone is an XSD one. -/
theorem C08_gday_roundtrip (g : GDay) (hv : 1 ≤ g.value ∧ g.value ≤ 31) (ht : ChronoTz g.timezone) :
    GDay.fromStr g.display = .ok g ↔ XsdTz g.timezone := by
  obtain ⟨d, hd⟩ : ∃ d : Nat, g.value = d := ⟨g.value.toNat, by omega⟩
  have hdisp : g.display = ['-', '-', '-'] ++ two d ++ showTz g.timezone := by
    unfold GDay.display; rw [hd, fmtPad_two (by omega)]
  rw [C03_gday_iff, hdisp]
  constructor
  · rintro ⟨d', t, h1, h2, h3, h4, h5⟩
    have : d' = d := by omega
    subst this
    rw [← List.append_cancel_left h4] at h5
    exact showTz_optTz ht h5
  · intro hx
    exact ⟨d, showTz g.timezone, by omega, by omega, hd, rfl, showTz_xsd hx⟩

example : let g : GDay := ⟨31, some (-19800)⟩
    (1 ≤ g.value ∧ g.value ≤ 31) ∧ ChronoTz g.timezone ∧ XsdTz g.timezone := by
  refine ⟨by decide, ?_, ?_⟩
  · intro o ho; simp only [Option.some.injEq] at ho; subst ho; decide
  · show XsdOffset _; unfold XsdOffset; decide

/-- **C08** gMonth -/
theorem C08_gmonth_roundtrip (g : GMonth) (hv : 1 ≤ g.value ∧ g.value ≤ 12) (ht : ChronoTz g.timezone) :
    GMonth.fromStr g.display = .ok g ↔ XsdTz g.timezone := by
  obtain ⟨d, hd⟩ : ∃ d : Nat, g.value = d := ⟨g.value.toNat, by omega⟩
  have hdisp : g.display = ['-', '-'] ++ two d ++ showTz g.timezone := by
    unfold GMonth.display; rw [hd, fmtPad_two (by omega)]
  rw [C04_gmonth_iff, hdisp]
  constructor
  · rintro ⟨d', t, h1, h2, h3, h4, h5⟩
    have : d' = d := by omega
    subst this
    rw [← List.append_cancel_left h4] at h5
    exact showTz_optTz ht h5
  · intro hx
    exact ⟨d, showTz g.timezone, by omega, by omega, hd, rfl, showTz_xsd hx⟩

example : let g : GMonth := ⟨12, none⟩
    (1 ≤ g.value ∧ g.value ≤ 12) ∧ ChronoTz g.timezone ∧ XsdTz g.timezone := by
  refine ⟨by decide, ?_, trivial⟩
  intro o ho; simp at ho

/-- **C08** gMonthDay -/
theorem C08_gmonthday_roundtrip (g : GMonthDay) (hv : ValidMonthDay g.month g.day)
    (ht : ChronoTz g.timezone) :
    GMonthDay.fromStr g.display = .ok g ↔ XsdTz g.timezone := by
  obtain ⟨m, d, hm, hd, h1, h2, h3, h4⟩ := hv
  have := maxDay_le m
  have hdisp : g.display = ['-', '-'] ++ two m ++ ['-'] ++ two d ++ showTz g.timezone := by
    unfold GMonthDay.display; rw [hm, hd, fmtPad_two (by omega), fmtPad_two (by omega)]; simp
  rw [C05_gmonthday_iff, hdisp]
  constructor
  · rintro ⟨m', d', t, -, -, -, -, e1, e2, h4, h5⟩
    have : m' = m := by omega
    have : d' = d := by omega
    subst m' d'
    rw [← List.append_cancel_left h4] at h5
    exact showTz_optTz ht h5
  · intro hx
    exact ⟨m, d, showTz g.timezone, h1, h2, h3, h4, hm, hd, rfl, showTz_xsd hx⟩

example : ValidMonthDay 2 29 := ⟨2, 29, rfl, rfl, by decide, by decide, by decide, by decide⟩

/-- **C08** gYear: every non-zero 32-bit year other than `i32::MIN` displays, and the text parses
back exactly when the timezone is an XSD one. -/
theorem C08_gyear_roundtrip (g : GYear) (hv : g.value ≠ 0 ∧ -2147483647 ≤ g.value ∧ g.value ≤ 2147483647)
    (ht : ChronoTz g.timezone) :
    ∃ txt, g.display = .ok txt ∧ (GYear.fromStr txt = .ok g ↔ XsdTz g.timezone) := by
  have e1 : Str.i32Min = -2147483648 := rfl
  have hne : g.value ≠ Str.i32Min := by rw [e1]; omega
  obtain ⟨n, sg, k, hn1, hn2, hs, hk, hdisp⟩ : ∃ (n : Nat) (sg : Str) (k : Int), 1 ≤ n ∧ n ≤ 2147483647 ∧
      SignText sg k ∧ g.value = k * n ∧
      g.display = .ok (sg ++ Str.fmtPad 4 (n : Int) ++ showTz g.timezone) := by
    unfold GYear.display
    by_cases hpos : g.value > 0
    · refine ⟨g.value.natAbs, [], 1, by omega, by omega, .pos, by omega, ?_⟩
      have : ((g.value.natAbs : Nat) : Int) = g.value := by omega
      rw [if_pos hpos, this]; simp
    · refine ⟨g.value.natAbs, ['-'], -1, by omega, by omega, .neg, by omega, ?_⟩
      have : ((g.value.natAbs : Nat) : Int) = -g.value := by omega
      rw [if_neg hpos, if_neg hne, this]; simp
  refine ⟨_, hdisp, ?_⟩
  rw [C06_gyear_iff]
  constructor
  · rintro ⟨sg', y, t, k', n', hs', hy, h1, h2, h3, h4, h5⟩
    have hkk : k' = k ∧ sg' = sg := by
      cases hs <;> cases hs' <;> first | exact ⟨rfl, rfl⟩ | (exfalso; omega)
    obtain ⟨rfl, rfl⟩ := hkk
    rw [List.append_assoc, List.append_assoc] at h4
    have h4 := List.append_cancel_left h4
    obtain ⟨-, ht'⟩ := digits_append_unique (yearDigits_iff.1 fmtPad_year).1 (yearDigits_iff.1 hy).1
      (showTz_head_not_digit _) (optTz_head_not_digit h5) h4
    rw [← ht'] at h5
    exact showTz_optTz ht h5
  · intro hx
    exact ⟨sg, _, _, k, n, hs, fmtPad_year, hn1, hn2, hk, rfl, showTz_xsd hx⟩

example : let g : GYear := ⟨-44, some 0⟩
    (g.value ≠ 0 ∧ -2147483647 ≤ g.value ∧ g.value ≤ 2147483647) ∧ XsdTz g.timezone := by
  refine ⟨by decide, ?_⟩; show XsdOffset _; unfold XsdOffset; decide

/-- **C08** gYearMonth -/
theorem C08_gyearmonth_roundtrip (g : GYearMonth)
    (hv : g.year ≠ 0 ∧ -2147483647 ≤ g.year ∧ g.year ≤ 2147483647) (hm : 1 ≤ g.month ∧ g.month ≤ 12)
    (ht : ChronoTz g.timezone) :
    ∃ txt, g.display = .ok txt ∧ (GYearMonth.fromStr txt = .ok g ↔ XsdTz g.timezone) := by
  have e1 : Str.i32Min = -2147483648 := rfl
  have hne : g.year ≠ Str.i32Min := by rw [e1]; omega
  obtain ⟨m, hme⟩ : ∃ m : Nat, g.month = m := ⟨g.month.toNat, by omega⟩
  obtain ⟨n, sg, k, hn1, hn2, hs, hk, hdisp⟩ : ∃ (n : Nat) (sg : Str) (k : Int), 1 ≤ n ∧ n ≤ 2147483647 ∧
      SignText sg k ∧ g.year = k * n ∧
      g.display = .ok (sg ++ Str.fmtPad 4 (n : Int) ++ ['-'] ++ two m ++ showTz g.timezone) := by
    unfold GYearMonth.display
    rw [hme, fmtPad_two (by omega)]
    by_cases hpos : g.year > 0
    · refine ⟨g.year.natAbs, [], 1, by omega, by omega, .pos, by omega, ?_⟩
      have : ((g.year.natAbs : Nat) : Int) = g.year := by omega
      rw [if_pos hpos, this]; simp
    · refine ⟨g.year.natAbs, ['-'], -1, by omega, by omega, .neg, by omega, ?_⟩
      have : ((g.year.natAbs : Nat) : Int) = -g.year := by omega
      rw [if_neg hpos, if_neg hne, this]; simp
  refine ⟨_, hdisp, ?_⟩
  rw [C07_gyearmonth_iff]
  constructor
  · rintro ⟨sg', y, t, k', n', m', hs', hy, h1, h2, h2a, h2b, h3, h3a, h4, h5⟩
    have hkk : k' = k ∧ sg' = sg := by
      cases hs <;> cases hs' <;> first | exact ⟨rfl, rfl⟩ | (exfalso; omega)
    obtain ⟨rfl, rfl⟩ := hkk
    have : m' = m := by omega
    subst this
    simp only [List.append_assoc] at h4
    have h4 := List.append_cancel_left h4
    obtain ⟨-, ht'⟩ := digits_append_unique (yearDigits_iff.1 fmtPad_year).1 (yearDigits_iff.1 hy).1
      (t := ['-'] ++ (two m' ++ showTz g.timezone)) (u := ['-'] ++ (two m' ++ t))
      (by intro c hc; simp at hc; subst hc; decide) (by intro c hc; simp at hc; subst hc; decide) h4
    have ht' := List.append_cancel_left (List.append_cancel_left ht')
    rw [← ht'] at h5
    exact showTz_optTz ht h5
  · intro hx
    exact ⟨sg, _, _, k, n, m, hs, fmtPad_year, hn1, hn2, by omega, by omega, hk, hme, rfl, showTz_xsd hx⟩

example : let g : GYearMonth := ⟨-12020, 7, none⟩
    (g.year ≠ 0 ∧ -2147483647 ≤ g.year ∧ g.year ≤ 2147483647) ∧ (1 ≤ g.month ∧ g.month ≤ 12) ∧
      XsdTz g.timezone := ⟨by decide, by decide, trivial⟩

/-- **C08** finding: the one year the constructor accepts but formatting cannot show (debug builds
panic on `-i32::MIN`). -/
theorem C08_gyear_min_display : GYear.new (-2147483648) none = .ok ⟨-2147483648, none⟩ ∧
    GYear.display ⟨-2147483648, none⟩ = .panic ∧
    GYearMonth.new (-2147483648) 1 none = .ok ⟨-2147483648, 1, none⟩ ∧
    GYearMonth.display ⟨-2147483648, 1, none⟩ = .panic := by decide

/-! ## C09 ranges and projections -/

/-- **C09** constructors succeed exactly on calendar-valid components, and keep them. -/
theorem C09_new_iff :
    (∀ d tz g, GDay.new d tz = .ok g ↔ (1 ≤ d ∧ d ≤ 31) ∧ g = ⟨d, tz⟩) ∧
    (∀ m tz g, GMonth.new m tz = .ok g ↔ (1 ≤ m ∧ m ≤ 12) ∧ g = ⟨m, tz⟩) ∧
    (∀ m d tz g, GMonthDay.new m d tz = .ok g ↔ ValidMonthDay m d ∧ g = ⟨m, d, tz⟩) ∧
    (∀ y tz g, GYear.new y tz = .ok g ↔ y ≠ 0 ∧ g = ⟨y, tz⟩) ∧
    (∀ y m tz g, GYearMonth.new y m tz = .ok g ↔ (y ≠ 0 ∧ 1 ≤ m ∧ m ≤ 12) ∧ g = ⟨y, m, tz⟩) := by
  refine ⟨?_, ?_, fun m d tz g => gmonthday_new_ok, ?_, ?_⟩
  · intro d tz g; unfold GDay.new; by_cases h : 1 ≤ d ∧ d ≤ 31 <;> simp [h, eq_comm]
  · intro d tz g; unfold GMonth.new; by_cases h : 1 ≤ d ∧ d ≤ 12 <;> simp [h, eq_comm]
  · intro d tz g; unfold GYear.new; split <;> simp_all [eq_comm]
  · intro y m tz g; unfold GYearMonth.new
    split
    · simp_all
    · rename_i hy; by_cases h : 1 ≤ m ∧ m ≤ 12 <;> simp [h, hy, eq_comm]

/-- **C09** constructors never panic. -/
theorem C09_new_no_panic :
    (∀ d tz, GDay.new d tz ≠ .panic) ∧ (∀ m tz, GMonth.new m tz ≠ .panic) ∧
    (∀ m d tz, GMonthDay.new m d tz ≠ .panic) ∧ (∀ y tz, GYear.new y tz ≠ .panic) ∧
    (∀ y m tz, GYearMonth.new y m tz ≠ .panic) :=
  ⟨gday_new_ne_panic, gmonth_new_ne_panic, gmonthday_new_ne_panic, gyear_new_ne_panic,
    gyearmonth_new_ne_panic⟩

/-- **C09** whatever a parser returns is a value the constructor would also accept, with an XSD
timezone, and within 32 bits. -/
theorem C09_parse_range (s : Str) :
    (∀ g, GDay.fromStr s = .ok g → (1 ≤ g.value ∧ g.value ≤ 31) ∧ XsdTz g.timezone) ∧
    (∀ g, GMonth.fromStr s = .ok g → (1 ≤ g.value ∧ g.value ≤ 12) ∧ XsdTz g.timezone) ∧
    (∀ g, GMonthDay.fromStr s = .ok g → ValidMonthDay g.month g.day ∧ XsdTz g.timezone) ∧
    (∀ g, GYear.fromStr s = .ok g →
      (g.value ≠ 0 ∧ -2147483647 ≤ g.value ∧ g.value ≤ 2147483647) ∧ XsdTz g.timezone) ∧
    (∀ g, GYearMonth.fromStr s = .ok g →
      (g.year ≠ 0 ∧ -2147483647 ≤ g.year ∧ g.year ≤ 2147483647 ∧ 1 ≤ g.month ∧ g.month ≤ 12) ∧
        XsdTz g.timezone) := by
  refine ⟨?_, ?_, ?_, ?_, ?_⟩
  · intro g h
    obtain ⟨d, t, h1, h2, h3, -, h5⟩ := (C03_gday_iff s g).1 h
    exact ⟨by omega, optTz_xsd h5⟩
  · intro g h
    obtain ⟨d, t, h1, h2, h3, -, h5⟩ := (C04_gmonth_iff s g).1 h
    exact ⟨by omega, optTz_xsd h5⟩
  · intro g h
    obtain ⟨m, d, t, h1, h2, h3, h4, e1, e2, -, h5⟩ := (C05_gmonthday_iff s g).1 h
    exact ⟨⟨m, d, e1, e2, h1, h2, h3, h4⟩, optTz_xsd h5⟩
  · intro g h
    obtain ⟨sg, y, t, k, n, hs, -, h1, h2, h3, -, h5⟩ := (C06_gyear_iff s g).1 h
    refine ⟨?_, optTz_xsd h5⟩
    cases hs <;> omega
  · intro g h
    obtain ⟨sg, y, t, k, n, m, hs, -, h1, h2, h2a, h2b, h3, h3a, -, h5⟩ := (C07_gyearmonth_iff s g).1 h
    refine ⟨?_, optTz_xsd h5⟩
    cases hs <;> omega

example : GMonthDay.fromStr "--02-29-05:30".toList = .ok ⟨2, 29, some (-19800)⟩ := by decide

/-- **C09** the components of a valid month/day or year/month value are valid values of the
component types carrying the same timezone: each is exactly what the component constructor builds. -/
theorem C09_projections :
    (∀ g : GMonthDay, ValidMonthDay g.month g.day →
      GMonth.new g.month g.timezone = .ok g.gmonth ∧ GDay.new g.day g.timezone = .ok g.gday) ∧
    (∀ g : GYearMonth, g.year ≠ 0 → 1 ≤ g.month → g.month ≤ 12 →
      GYear.new g.year g.timezone = .ok g.gyear ∧ GMonth.new g.month g.timezone = .ok g.gmonth) := by
  constructor
  · rintro g ⟨m, d, h1, h2, h3, h4, h5, h6⟩
    have := maxDay_le m
    refine ⟨(C09_new_iff.2.1 _ _ _).2 ⟨by omega, rfl⟩, (C09_new_iff.1 _ _ _).2 ⟨by omega, rfl⟩⟩
  · intro g h1 h2 h3
    exact ⟨(C09_new_iff.2.2.2.1 _ _ _).2 ⟨h1, rfl⟩, (C09_new_iff.2.1 _ _ _).2 ⟨⟨h2, h3⟩, rfl⟩⟩

/-- **C09** defaults are valid values. -/
theorem C09_default_valid :
    GDay.new GDay.default.value GDay.default.timezone = .ok GDay.default ∧
    GMonth.new GMonth.default.value GMonth.default.timezone = .ok GMonth.default ∧
    GMonthDay.new GMonthDay.default.month GMonthDay.default.day GMonthDay.default.timezone
      = .ok GMonthDay.default ∧
    GYear.new GYear.default.value GYear.default.timezone = .ok GYear.default ∧
    GYearMonth.new GYearMonth.default.year GYearMonth.default.month GYearMonth.default.timezone
      = .ok GYearMonth.default := by decide

/-! ## C10 panics -/

/-- **C10** violated: these texts make the parsers panic (a slice index inside a character). -/
theorem C10_violated :
    GDay.fromStr ['-', '-', 'é', '1'] = .panic ∧
    GMonth.fromStr ['-', 'é', '1'] = .panic ∧
    GMonthDay.fromStr ['-', '-', '0', 'é', '-', '0'] = .panic := by decide

/-- **C10** exact panic condition for gDay: the part before the timezone is five bytes long and
byte 3 falls inside a character. -/
theorem C10_gday_panic_iff (s : Str) :
    GDay.fromStr s = .panic ↔ ∃ b, ValuePart 3 s b ∧ utf8Bytes b = 5 ∧ ¬ Boundary b 3 := by
  rw [gday_fromStr_eq, tzSplit_panic_iff gday_new_ne_panic]
  simp only [gday_parseValue_panic]

/-- **C10** exact panic condition for gMonth. -/
theorem C10_gmonth_panic_iff (s : Str) :
    GMonth.fromStr s = .panic ↔ ∃ b, ValuePart 2 s b ∧ utf8Bytes b = 4 ∧ ¬ Boundary b 2 := by
  rw [gmonth_fromStr_eq, tzSplit_panic_iff gmonth_new_ne_panic]
  simp only [gmonth_parseValue_panic]

/-- **C10** exact panic condition for gMonthDay. -/
theorem C10_gmonthday_panic_iff (s : Str) :
    GMonthDay.fromStr s = .panic ↔ ∃ b, ValuePart 3 s b ∧ utf8Bytes b = 7 ∧
      (¬ Boundary b 2 ∨ (∃ t, b = '-' :: '-' :: t) ∧ (¬ Boundary b 4 ∨ ¬ Boundary b 5)) := by
  rw [gmonthday_fromStr_eq, tzSplit_panic_iff (fun (v : Int × Int) tz => gmonthday_new_ne_panic v.1 v.2 tz)]
  simp only [gmonthday_parseValue_panic]

/-- **C10** what holds: ASCII text never panics any of the five parsers. Missing for the full
claim: non-ASCII text for gDay, gMonth, gMonthDay, where `C10_violated` shows it false. -/
theorem C10_no_panic_partial (s : Str) (h : ∀ c ∈ s, c.toNat < 128) :
    GDay.fromStr s ≠ .panic ∧ GMonth.fromStr s ≠ .panic ∧ GMonthDay.fromStr s ≠ .panic ∧
    GYear.fromStr s ≠ .panic ∧ GYearMonth.fromStr s ≠ .panic := by
  refine ⟨?_, ?_, ?_, C06_gyear_no_panic s, C07_gyearmonth_no_panic s⟩
  · rw [ne_eq, C10_gday_panic_iff]
    rintro ⟨b, hv, hl, hb⟩
    exact hb (boundary_ascii (valuePart_ascii h hv) (by omega))
  · rw [ne_eq, C10_gmonth_panic_iff]
    rintro ⟨b, hv, hl, hb⟩
    exact hb (boundary_ascii (valuePart_ascii h hv) (by omega))
  · rw [ne_eq, C10_gmonthday_panic_iff]
    rintro ⟨b, hv, hl, hb | ⟨-, hb | hb⟩⟩
    · exact hb (boundary_ascii (valuePart_ascii h hv) (by omega))
    · exact hb (boundary_ascii (valuePart_ascii h hv) (by omega))
    · exact hb (boundary_ascii (valuePart_ascii h hv) (by omega))

example : ∀ c ∈ "---31-05:30".toList, c.toNat < 128 := by decide

end Verif.Props
