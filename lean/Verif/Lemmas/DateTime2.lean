import Verif.Lemmas.DateTime

/-! # Helper lemmas: display of dates and times; RFC 3339 -/

namespace Verif.Lemmas.Chr

open Verif Verif.Model Verif.Spec Verif.Lemmas Verif.Lemmas.Dur Chrono

/-! ### Fixed width numbers -/

theorem two_dtext {n : Nat} (h : n < 100) : two n = dtext [n / 10, n % 10] ∧ Digits [n / 10, n % 10] ∧
    decVal [n / 10, n % 10] = n := by
  refine ⟨rfl, ?_, ?_⟩
  · intro d hd; simp only [List.mem_cons, List.not_mem_nil, or_false] at hd; omega
  · simp only [decVal, List.foldl_cons, List.foldl_nil]; omega

theorem four_dtext {n : Nat} (h : n < 10000) :
    ∃ ds, ds.length = 4 ∧ Digits ds ∧ four n = dtext ds ∧ decVal ds = n := by
  refine ⟨[n / 100 / 10, n / 100 % 10, n % 100 / 10, n % 100 % 10], rfl, ?_, rfl, ?_⟩
  · intro d hd; simp only [List.mem_cons, List.not_mem_nil, or_false] at hd; omega
  · simp only [decVal, List.foldl_cons, List.foldl_nil]; omega

theorem digits12_two {n : Nat} (h : n < 100) : Digits12 [n / 10, n % 10] := ⟨(two_dtext h).2.1, by simp⟩

theorem number22_iff {s r : Str} {v : Nat} :
    number s 2 (some 2) = some (r, v) ↔ v < 100 ∧ s = two v ++ r := by
  rw [number_iff (by simp)]
  constructor
  · rintro ⟨ds, hds, h1, rfl, rfl, -, h2, -⟩
    have h2 := h2 2 rfl
    have hl : ds.length = 2 := by omega
    match ds, hl with
    | [a, b], _ =>
      have ha := hds a (by simp); have hb := hds b (by simp)
      have e : decVal [a, b] = 10 * a + b := by simp [decVal]
      refine ⟨by omega, ?_⟩
      rw [e]
      have e1 : (10 * a + b) / 10 = a := by omega
      have e2 : (10 * a + b) % 10 = b := by omega
      simp [two, dtext, e1, e2]
  · rintro ⟨hv, rfl⟩
    obtain ⟨e1, e2, e3⟩ := two_dtext hv
    refine ⟨_, e2, by simp, by rw [e1], e3.symm, ?_, by simp, Or.inl (by simp)⟩
    have : i64Max = 9223372036854775807 := rfl
    omega

theorem number44_iff {s r : Str} {v : Nat} :
    number s 4 (some 4) = some (r, v) ↔ v < 10000 ∧ s = four v ++ r := by
  rw [number_iff (by simp)]
  constructor
  · rintro ⟨ds, hds, h1, rfl, rfl, -, h2, -⟩
    have h2 := h2 4 rfl
    have hl : ds.length = 4 := by omega
    match ds, hl with
    | [a, b, c, d], _ =>
      have ha := hds a (by simp); have hb := hds b (by simp)
      have hc := hds c (by simp); have hd := hds d (by simp)
      have e : decVal [a, b, c, d] = 1000 * a + 100 * b + 10 * c + d := by simp [decVal]; omega
      refine ⟨by omega, ?_⟩
      rw [e]
      generalize hn : 1000 * a + 100 * b + 10 * c + d = n
      have e1 : n / 100 / 10 = a := by omega
      have e2 : n / 100 % 10 = b := by omega
      have e3 : n % 100 / 10 = c := by omega
      have e4 : n % 10 = d := by omega
      have e5 : n % 100 % 10 = d := by omega
      simp only [four, two, dtext, e1, e2, e3, e5, List.map_cons, List.map_nil, List.cons_append, List.nil_append]
  · rintro ⟨hv, rfl⟩
    obtain ⟨ds, hl, h1, h2, h3⟩ := four_dtext hv
    refine ⟨ds, h1, by omega, by rw [h2], h3.symm, ?_, by simp; omega, Or.inl (by simp [hl])⟩
    have : i64Max = 9223372036854775807 := rfl
    omega

theorem fmtPadNat_four {n : Nat} (h : n < 10000) : Str.fmtPadNat 4 n = four n := by
  obtain ⟨ds, hl, h1, h2, h3⟩ := four_dtext h
  rw [h2]
  apply Str.digits_ext (Str.allDigits_fmtPadNat _ _) (allDigits_dtext h1)
  · rw [Str.length_fmtPadNat_of_lt (by decide) (by simpa using h)]; simp [dtext, hl]
  · rw [Str.digitsVal_fmtPadNat, ← h3]; exact (decVal_eq_digitsVal h1).symm

/-- Digits of a zero-padded number. -/
theorem fmtPadNat_dtext {w n : Nat} : ∃ ds, Digits ds ∧ w ≤ ds.length ∧ Str.fmtPadNat w n = dtext ds ∧
    decVal ds = n := by
  obtain ⟨ds, h1, h2⟩ := dtext_of_allDigits (Str.allDigits_fmtPadNat w n)
  refine ⟨ds, h1, ?_, h2, ?_⟩
  · have := Str.length_fmtPadNat_ge w n
    rw [h2] at this; simpa [dtext] using this
  · have := Str.digitsVal_fmtPadNat w n
    rw [h2] at this
    rw [← decVal_eq_digitsVal h1]; exact this

theorem spaces_nil : Spaces [] := by intro c h; simp at h

/-! ### Date display -/

/-- Sign shown for a year. -/
def yearSign (y : Int) : Sign := if 0 ≤ y ∧ y ≤ 9999 then .none else if y < 0 then .minus else .plus

theorem fmtYear_text (y : Int) : YearText (yearSign y) (fmtYear y) y := by
  unfold yearSign fmtYear
  by_cases h : 0 ≤ y ∧ y ≤ 9999
  · rw [if_pos h, if_pos h, fmtPadNat_four (by omega)]
    obtain ⟨ds, hl, h1, h2, h3⟩ := four_dtext (n := y.natAbs) (by omega)
    have e : y = (decVal ds : Int) := by omega
    rw [h2]
    conv => arg 3; rw [e]
    exact .none ds ⟨by rintro rfl; simp at hl, h1⟩ (by omega)
  · rw [if_neg h, if_neg h]
    obtain ⟨ds, h1, hl, h2, h3⟩ := fmtPadNat_dtext (w := 4) (n := y.natAbs)
    rw [h2]
    by_cases h0 : y < 0
    · rw [if_pos h0, if_pos h0]
      have e : y = -(decVal ds : Int) := by omega
      conv => arg 3; rw [e]
      exact .minus ds ⟨by rintro rfl; simp at hl, h1⟩
    · rw [if_neg h0, if_neg h0]
      have e : y = (decVal ds : Int) := by omega
      conv => arg 3; rw [e]
      exact .plus ds ⟨by rintro rfl; simp at hl, h1⟩

theorem validDate_lt {y : Int} {m d : Nat} (h : ValidDate y m d) : m < 100 ∧ d < 100 := by
  obtain ⟨h1, h2, h3, h4, -⟩ := h
  have := maxDay_le m
  omega

theorem fmtYmd_body {x : NaiveDate} (h : ValidDate x.year x.month x.day) :
    DateBody (yearSign x.year) (fmtYmd x) x.year x.month x.day := by
  obtain ⟨hm, hd⟩ := validDate_lt h
  refine ⟨[], _, [], _, [], _, spaces_nil, fmtYear_text _, spaces_nil, digits12_two hm, spaces_nil,
    digits12_two hd, (two_dtext hm).2.2.symm, (two_dtext hd).2.2.symm, ?_⟩
  unfold fmtYmd
  rw [fmtPadNat_two hm, fmtPadNat_two hd]
  simp [two, dtext]

theorem showTz_count_plus {tz : Option Int} (h : XsdTz tz) :
    Str.countChar '+' (showTz tz) = if ∃ o, tz = some o ∧ 0 ≤ o then 1 else 0 := by
  cases tz with
  | none => simp [showTz]
  | some o =>
    have hx := showOffset_xsd h
    simp only [showTz]
    simp only [showOffset]
    have h1 : o.natAbs / 60 / 60 < 100 := by have := h.2.1; have := h.2.2; omega
    have h2 : o.natAbs / 60 % 60 < 100 := by omega
    have h3 : o.natAbs % 60 = 0 := by have := h.1; omega
    rw [if_pos h3, fmtPadNat_two h1, fmtPadNat_two h2, Str.countChar_cons,
      count_tz_tail (by decide) (by decide) h1 h2]
    by_cases h0 : o < 0
    · rw [if_pos h0, if_neg (by decide), if_neg]
      simp; omega
    · rw [if_neg h0, if_pos (by decide), if_pos]
      exact ⟨o, rfl, by omega⟩

theorem showTz_head (o : Int) : ∃ u, showTz (some o) = (if o < 0 then '-' else '+') :: u := by
  simp only [showTz, showOffset]; split <;> exact ⟨_, rfl⟩

theorem optTz_last {t : Str} {tz : Option Int} (h : OptTz t tz) (ht : t ≠ ['Z']) : t.getLast? ≠ some 'Z' := by
  cases h with
  | none => simp
  | some h =>
    cases h with
    | zulu => exact absurd rfl ht
    | east h m h1 h2 => simpa using tz_last (c := '+') (b := []) (x := h) (y := m)
    | west h m h1 h2 => simpa using tz_last (c := '-') (b := []) (x := h) (y := m)

theorem dateBody_head {sg : Sign} {s : Str} {y : Int} {m d : Nat} (h : DateBody sg s y m d) :
    ∃ c r, s = c :: r ∧ (Space c ∨ (sg = .none ∧ Str.isAsciiDigit c = true) ∨ (sg = .plus ∧ c = '+') ∨
      (sg = .minus ∧ c = '-')) := by
  obtain ⟨w1, yt, w2, ms, w3, ds, hw1, hyt, hw2, hms, hw3, hds, -, -, rfl⟩ := h
  cases w1 with
  | cons c w => exact ⟨c, _, rfl, Or.inl (hw1 c (by simp))⟩
  | nil =>
    cases hyt with
    | none ds h1 h2 =>
      obtain ⟨d, ds', hd, rfl⟩ := digits1_head h1
      exact ⟨_, _, rfl, Or.inr (Or.inl ⟨rfl, isAsciiDigit_spec hd⟩)⟩
    | plus ds h1 => exact ⟨_, _, rfl, by simp⟩
    | minus ds h1 => exact ⟨_, _, rfl, by simp⟩

/-- Dates whose displayed text is read back. -/
theorem date_roundtrip_iff {yr : YearRange} {x : NaiveDate} {tz : Option Int}
    (hy : yr.lo ≤ x.year ∧ x.year ≤ yr.hi) (hv : ValidDate x.year x.month x.day)
    (hr : ∀ o, tz = some o → -86400 < o ∧ o < 86400) :
    Date.fromStr yr (Date.toStr ⟨x, tz⟩) = .ok ⟨x, tz⟩ ↔
      XsdTz tz ∧ ((0 ≤ x.year ∧ x.year ≤ 9999) ∨ (x.year < 0 ∧ ∃ o, tz = some o ∧ 0 ≤ o)) := by
  rw [date_fromStr_iff]
  have hb := fmtYmd_body hv
  constructor
  · rintro ⟨-, -, -, sg, b, t, e, hb', ht, hs⟩
    have hx := optTz_xsd ht
    refine ⟨hx, ?_⟩
    apply Decidable.byContradiction
    intro hcon
    unfold Date.toStr at e
    simp only at e
    have hyt := fmtYear_text x.year
    -- the displayed text does not end in `Z`
    have hlast : (fmtYmd x ++ showTz tz).getLast? ≠ some 'Z' := by
      cases htz : showTz tz with
      | nil => rw [List.append_nil]; exact (dateBody_counts hb).2.2
      | cons c r =>
        rw [List.getLast?_append_of_ne_nil _ (by simp), ← htz]
        apply optTz_last (showTz_xsd hx)
        cases tz with
        | none => simp [showTz]
        | some o =>
          obtain ⟨u, hu⟩ := showTz_head o
          rw [hu]
          split <;> simp
    have hnz : t ≠ ['Z'] := by
      rintro rfl
      rw [e] at hlast
      simp at hlast
    obtain ⟨c1, c2, -⟩ := dateBody_counts hb
    obtain ⟨c1', c2', -⟩ := dateBody_counts hb'
    obtain ⟨c, r, e1, hc⟩ := dateBody_head hb
    obtain ⟨c', r', e1', hc'⟩ := dateBody_head hb'
    have hcc : c = c' := by rw [e1, e1'] at e; simp at e; exact e.1
    have hsg : yearSign x.year = .minus ∨ yearSign x.year = .plus := by
      unfold yearSign; rw [if_neg (by omega)]; split <;> simp
    have hnsp : ¬ Space c := by
      have : fmtYmd x = fmtYear x.year ++ '-' :: (Str.fmtPadNat 2 x.month ++ '-' :: Str.fmtPadNat 2 x.day) := rfl
      obtain ⟨c0, r0, e0, h0⟩ := yearText_head hyt
      rw [this, e0] at e1
      simp only [List.cons_append, List.cons.injEq] at e1
      rw [← e1.1]; exact h0
    rcases hsg with hsg | hsg
    · have hy0 : x.year < 0 := by
        unfold yearSign at hsg
        split at hsg
        · simp at hsg
        · split at hsg
          · assumption
          · simp at hsg
      rw [hsg] at hc c1
      have hcm : c = '-' := by
        rcases hc with hc | hc | hc | hc
        · exact absurd hc hnsp
        · simp at hc
        · simp at hc
        · exact hc.2
      subst hcm; subst hcc
      rcases hc' with hc' | ⟨-, hc'⟩ | ⟨-, hc'⟩ | ⟨rfl, -⟩
      · exact hnsp hc'
      · exact absurd hc' (by decide)
      · exact absurd hc' (by decide)
      · rcases hs with hs | ⟨u, hs⟩
        · exact hnz hs
        · have h1 := showTz_count_plus hx
          rw [if_neg (by intro h; exact hcon (Or.inr ⟨hy0, h⟩))] at h1
          have h2 := congrArg (Str.countChar '+') e
          rw [Str.countChar_append, Str.countChar_append, hs, h1, c1] at h2
          simp [yearPlus] at h2
    · rw [hsg] at hc
      have hcm : c = '+' := by
        rcases hc with hc | hc | hc | hc
        · exact absurd hc hnsp
        · simp at hc
        · exact hc.2
        · simp at hc
      subst hcm; subst hcc
      rcases hc' with hc' | ⟨-, hc'⟩ | ⟨rfl, -⟩ | ⟨-, hc'⟩
      · exact hnsp hc'
      · exact absurd hc' (by decide)
      · exact hnz hs
      · exact absurd hc' (by decide)
  · rintro ⟨hx, hcase⟩
    refine ⟨hy.1, hy.2, hv, yearSign x.year, fmtYmd x, showTz tz, rfl, hb, showTz_xsd hx, ?_⟩
    rcases hcase with h | ⟨h, o, rfl, ho⟩
    · simp [yearSign, h, SignOk]
    · have : yearSign x.year = .minus := by
        unfold yearSign; rw [if_neg (by omega), if_pos h]
      rw [this]
      obtain ⟨u, hu⟩ := showTz_head o
      rw [if_neg (by omega)] at hu
      exact Or.inr ⟨u, hu⟩

/-! ### Time display -/

theorem fmtHms_body {x : NaiveTime} (h1 : x.hour < 24) (h2 : x.minute < 60) (h3 : x.second < 60)
    (h4 : x.nano < 2000000000) :
    TimeBody (fmtHms x) x.hour x.minute (x.second + x.nano / 1000000000) := by
  have e1 : x.hour < 100 := by omega
  have e2 : x.minute < 100 := by omega
  have e3 : x.second + x.nano / 1000000000 < 100 := by omega
  refine ⟨[], _, [], _, [], _, spaces_nil, digits12_two e1, spaces_nil, digits12_two e2, spaces_nil,
    digits12_two e3, (two_dtext e1).2.2.symm, (two_dtext e2).2.2.symm, (two_dtext e3).2.2.symm, ?_⟩
  unfold fmtHms
  rw [fmtPadNat_two e1, fmtPadNat_two e2, fmtPadNat_two e3]
  simp [two, dtext]

/-- What reading the displayed time gives: the fraction is gone. -/
theorem time_display_parse {x : NaiveTime} {tz : Option Int} (h1 : x.hour < 24) (h2 : x.minute < 60)
    (h3 : x.second < 60) (h4 : x.nano < 2000000000) (h5 : 1000000000 ≤ x.nano → x.second = 59)
    (hx : XsdTz tz) :
    Time.fromStr (Time.toStr ⟨x, tz⟩) =
      .ok ⟨{ x with nano := if 1000000000 ≤ x.nano then 1000000000 else 0 }, tz⟩ := by
  rw [time_fromStr_iff]
  refine ⟨_, _, _, fmtHms x, showTz tz, rfl, fmtHms_body h1 h2 h3 h4, h1, h2, by omega, ?_, showTz_xsd hx⟩
  by_cases h : 1000000000 ≤ x.nano
  · have := h5 h
    have e : x.nano / 1000000000 = 1 := by omega
    simp [h, e, this]
  · have e : x.nano / 1000000000 = 0 := by omega
    have e2 : min x.second 59 = x.second := by omega
    have e3 : ¬ x.second = 60 := by omega
    simp [h, e, e2, e3]

theorem time_parse_xsdTz {s : Str} {x : NaiveTime} {tz : Option Int} (h : Time.fromStr s = .ok ⟨x, tz⟩) :
    XsdTz tz := by
  obtain ⟨h, m, sec, b, t, rfl, hb, h1, h2, h3, h4, ht⟩ := time_fromStr_iff.1 h
  exact optTz_xsd ht

end Verif.Lemmas.Chr
