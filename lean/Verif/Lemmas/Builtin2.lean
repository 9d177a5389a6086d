import Verif.Lemmas.Builtin

/-! # Lemmas: literals of times, date-times and years -/

namespace Verif.Lemmas.Blt

open Verif Verif.Model Verif.Spec Verif.Props Verif.Lemmas Verif.Lemmas.Dur Verif.Lemmas.Chr Verif.Lemmas.Dec Chrono
open Verif.Lemmas.Prim

/-! ## Times of day -/

theorem secondQ_nil (n : Nat) : secondQ n [] = n := by simp [secondQ, decVal]

theorem time_iff {L : Lib} {s t : Str} {h m n : Nat} {fs : List Nat} {tz : Option Int} (hx : XsdTime s h m n fs)
    (ht : OptTz t tz) : Reads L "xs::Time" (s ++ t) (.time h m (secondQ n fs) tz) ↔ ¬ ('.' ∈ s ++ t ∨ h = 24) := by
  rw [reads_of (lib_Time L)]
  constructor
  · rintro ⟨v, hv, hc⟩ hl
    obtain ⟨a, ha, rfl⟩ := map_ok.1 hv
    rcases hl with hl | rfl
    · rw [C21_fraction_refused _ hl] at ha; cases ha
    · generalize secondQ n fs = q at hc
      cases hc
      obtain ⟨h', m', sec, b, u, -, -, hlt, -, -, e, -⟩ := (C21_accepts_iff _ _ _).1 ha
      have e : (24 : Nat) = h' := congrArg NaiveTime.hour e
      omega
  · intro hl
    rw [not_or] at hl
    obtain ⟨u, h1, h2, h3, hs, rfl⟩ := hx
    cases hs with
    | whole =>
      rw [secondQ_nil]
      exact ⟨_, map_ok.2 ⟨_, C21_complete_whole h m n t tz (by rcases h1 with h1 | h1 <;> omega) h2 h3 ht, rfl⟩,
        .time (by simp)⟩
    | fraction hf => exact absurd (by simp) hl.1

/-! ## Date-times -/

theorem split_frac {A B P N k T : ℚ} (hP : P ≠ 0) (hT : T ≠ 0) (h : (N + (A * P + B) / (T * P)) * T = k) :
    B = (k - N * T - A) * P := by
  have e : (A * P + B) / (T * P) * T = A + B / P := by field_simp
  rw [add_mul, e] at h
  have : B / P = k - N * T - A := by rw [← h]; ring
  rw [← this, div_mul_cancel₀ _ hP]

theorem frac_whole {A P T : ℚ} (hP : P ≠ 0) : (A * P + 0) / (T * P) = A / T := by
  rw [add_zero, mul_div_mul_right _ _ hP]

theorem zero_of {B P : Nat} {z : Int} (h : (B : ℚ) = z * P) (hlt : B < P) : B = 0 := by
  have e : (B : Int) = z * P := by exact_mod_cast h
  by_contra hne
  have h1 : (0 : Int) < z := by
    by_contra hc
    have : z * P ≤ 0 := mul_nonpos_of_nonpos_of_nonneg (by omega) (by omega)
    omega
  have h2 : (P : Int) ≤ z * P := le_mul_of_one_le_left (by omega) (by omega)
  omega

theorem secondQ_nano {n : Nat} {fs : List Nat} (hf : Digits fs) (h : ∃ k : Nat, secondQ n fs * 10 ^ 9 = k) :
    secondQ n fs = n + (nanoOf fs : ℚ) / 10 ^ 9 := by
  unfold secondQ at h ⊢
  refine congrArg (fun z : ℚ => (n : ℚ) + z) ?_
  by_cases hl : fs.length ≤ 9
  · rw [nanoOf_short hl, div_eq_div_iff (by positivity) (by positivity)]
    rw [Nat.cast_mul, Nat.cast_pow, Nat.cast_ofNat, mul_assoc, ← pow_add, Nat.sub_add_cancel hl]
  · obtain ⟨a, b, rfl, ha⟩ : ∃ a b, fs = a ++ b ∧ a.length = 9 :=
      ⟨fs.take 9, fs.drop 9, (List.take_append_drop 9 fs).symm, by simp; omega⟩
    have hb : Digits b := fun d hd => hf d (by simp [hd])
    have hlt := decVal_lt hb
    rw [nanoOf_long ha]
    obtain ⟨k, hk⟩ := h
    rw [decVal_append, List.length_append, ha, pow_add (10 : ℚ) 9 b.length] at hk ⊢
    have h10 : (10 : ℚ) ^ b.length ≠ 0 := by positivity
    have hc : ((decVal a * 10 ^ b.length + decVal b : Nat) : ℚ) = decVal a * 10 ^ b.length + decVal b := by
      rw [Nat.cast_add, Nat.cast_mul, Nat.cast_pow, Nat.cast_ofNat]
    rw [hc] at hk ⊢
    have e := split_frac h10 (by positivity) hk
    have h0 : decVal b = 0 := by
      refine zero_of (z := (k : Int) - n * 10 ^ 9 - decVal a) (P := 10 ^ b.length) ?_ hlt
      rw [e, Int.cast_sub, Int.cast_sub, Int.cast_mul, Int.cast_pow, Int.cast_natCast, Int.cast_natCast, Int.cast_natCast,
        Int.cast_ofNat, Nat.cast_pow, Nat.cast_ofNat]
    rw [h0, Nat.cast_zero]
    exact frac_whole h10

/-- What a date-time may not be to be read. -/
def DtLost (s : Str) (y : Int) (h : Nat) (q : ℚ) : Prop :=
  s.head? = some '-' ∨ 9999 < y ∨ h = 24 ∨ ∀ k : Nat, q * 10 ^ 9 ≠ k

theorem body_of {s u : Str} {neg : Bool} {y : Int} {m d h mi n : Nat} {fs : List Nat} {t : Str} (hd : XsdDay neg s y m d)
    (hu : XsdTime u h mi n fs) (hl : ¬ DtLost (s ++ ['T'] ++ u ++ t) y h (secondQ n fs)) :
    ∃ (y' nano : Nat), y = y' ∧ secondQ n fs = n + (nano : ℚ) / 10 ^ 9 ∧ n < 60 ∧
      DateTimeBody (s ++ ['T'] ++ u) 'T' y' m d h mi n nano := by
  unfold DtLost at hl
  simp only [not_or, not_forall, not_not] at hl
  obtain ⟨h1, h2, h3, h4⟩ := hl
  obtain ⟨-, -, c, r, hcr, hcn, -⟩ := day_chars hd
  have hneg : neg = false := by
    cases neg with
    | false => rfl
    | true => exact absurd (by rw [hcr, hcn.2 rfl]; rfl) h1
  subst hneg
  obtain ⟨ys, ⟨ds, g1, g2, g3, rfl, hy⟩, hv, rfl⟩ := hd
  have hy' : y = decVal ds := hy
  obtain ⟨v, f1, f2, f3, hs, rfl⟩ := hu
  have hfs : Digits fs := by
    cases hs with
    | whole => intro d hd; cases hd
    | fraction hf => exact hf.2
  refine ⟨decVal ds, nanoOf fs, hy', secondQ_nano hfs h4, f3, ?_⟩
  have h4' := year_four g2 g3 (by omega)
  have hfour := four_digits g1 h4'
  have hft : ∃ f, v = two n ++ f ∧ FracText f (nanoOf fs) := by
    cases hs with
    | whole => exact ⟨[], by simp, by rw [show nanoOf [] = 0 by decide]; exact .none⟩
    | fraction hf => exact ⟨_, rfl, .some fs hf⟩
  obtain ⟨f, rfl, hft⟩ := hft
  refine ⟨f, by omega, hy' ▸ hv, by rcases f1 with f1 | f1 <;> omega, f2, by omega, hft, ?_⟩
  rw [← hfour]
  simp [durSign]

theorem body_lost {s b t : Str} {sep : Char} {q : ℚ} {y m d hh mm ss nano : Nat} {o : Int}
    (hb : DateTimeBody b sep y m d hh mm ss nano) (hs : s = b ++ t) {x : XVal}
    {c : CDateTime → LibVal} (hc : c = (fun x => .dateTime ⟨x⟩) ∨ c = (fun x => .stamp ⟨⟨x⟩⟩))
    {y' : Int} {m' d' h' mi' : Nat} {tz : Option Int} (hx : x = .dateTime y' m' d' h' mi' q tz)
    (hcar : Carries (c (dtValue y m d hh mm ss nano o)) x) : tz ≠ none ∧ ¬ DtLost s y' h' q := by
  obtain ⟨f, h1, h2, h3, h4, h5, hf, rfl⟩ := hb
  have key : tz = some o ∧ y' = y ∧ h' = hh ∧ ∃ a b : Nat, q = a + (b : ℚ) / 10 ^ 9 := by
    subst hx
    rcases hc with rfl | rfl
    · cases hcar with
      | dateTime e => exact ⟨rfl, rfl, rfl, _, _, e⟩
    · cases hcar with
      | stamp e => exact ⟨rfl, rfl, rfl, _, _, e⟩
  obtain ⟨rfl, rfl, rfl, a, b, rfl⟩ := key
  refine ⟨by simp, ?_⟩
  rintro (hl | hl | hl | hl)
  · rw [hs] at hl
    simp only [four, two, List.cons_append, List.nil_append, List.head?_cons, Option.some.injEq] at hl
    exact digit_ne_of (by omega) (by decide : Str.isAsciiDigit '-' = false) hl
  · omega
  · omega
  · apply hl (a * 10 ^ 9 + b)
    rw [Nat.cast_add, Nat.cast_mul, Nat.cast_pow, Nat.cast_ofNat, add_mul, div_mul_cancel₀ _ (by positivity)]

theorem tz_rfc {t : Str} {o : Int} (h : TzText t o) : RfcTz t o ∧ DtTz t o := by
  cases h with
  | zulu => exact ⟨.zulu, .zulu⟩
  | east a b h1 h2 =>
    have := OffText.east a b (by omega) h1
    simp only [List.append_assoc, List.cons_append, List.nil_append] at this
    exact ⟨.off this, .off (.inl rfl) this⟩
  | west a b h1 h2 =>
    have := OffText.west '-' a b (.inl rfl) (by omega) h1
    simp only [List.append_assoc, List.cons_append, List.nil_append] at this
    exact ⟨.off this, .off (.inr rfl) this⟩

theorem dtValue_whole {y m d hh mm ss nano : Nat} {o : Int} (h : ss < 60) :
    dtValue y m d hh mm ss nano o = ⟨⟨y, m, d⟩, ⟨hh, mm, ss, nano⟩, o⟩ := by
  unfold dtValue
  rw [if_neg (by omega), show min ss 59 = ss by omega]

theorem dateTime_iff {L : Lib} {s u t : Str} {neg : Bool} {y : Int} {m d h mi n : Nat} {fs : List Nat} {tz : Option Int}
    (hd : XsdDay neg s y m d) (hu : XsdTime u h mi n fs) (ht : OptTz t tz) :
    Reads L "xs::DateTime" (s ++ ['T'] ++ u ++ t) (.dateTime y m d h mi (secondQ n fs) tz) ↔
      tz ≠ none ∧ ¬ DtLost (s ++ ['T'] ++ u ++ t) y h (secondQ n fs) := by
  rw [reads_of (lib_DateTime L)]
  constructor
  · rintro ⟨v, hv, hc⟩
    obtain ⟨⟨a⟩, ha, rfl⟩ := map_ok.1 hv
    obtain ⟨b, t', sep, y', m', d', hh, mm, ss, nano, o, hs, -, hb, -, rfl⟩ := (C22_accepts_iff _ _ _).1 ha
    exact body_lost hb hs (.inl rfl) rfl hc
  · rintro ⟨hz, hl⟩
    obtain ⟨y', nano, rfl, hq, hn, hb⟩ := body_of hd hu hl
    cases ht with
    | none => exact absurd rfl hz
    | some ht =>
      refine ⟨_, map_ok.2 ⟨_, C22_keeps_offset _ _ _ _ _ _ _ _ _ _ _ hb ht, rfl⟩, ?_⟩
      rw [dtValue_whole hn]
      exact .dateTime hq

theorem stamp_iff {L : Lib} {s u t : Str} {neg : Bool} {y : Int} {m d h mi n : Nat} {fs : List Nat} {tz : Int}
    (hd : XsdDay neg s y m d) (hu : XsdTime u h mi n fs) (ht : TzText t tz) :
    Reads L "xs::DateTimeStamp" (s ++ ['T'] ++ u ++ t) (.dateTime y m d h mi (secondQ n fs) (some tz)) ↔
      ¬ DtLost (s ++ ['T'] ++ u ++ t) y h (secondQ n fs) := by
  rw [reads_of (lib_DateTimeStamp L)]
  constructor
  · rintro ⟨v, hv, hc⟩
    obtain ⟨⟨⟨a⟩⟩, ha, rfl⟩ := map_ok.1 hv
    obtain ⟨b, t', sep, y', m', d', hh, mm, ss, nano, o, hs, -, hb, -, rfl⟩ := (C24_accepts_iff _ _ _).1 ha
    exact (body_lost hb hs (.inr rfl) rfl hc).2
  · intro hl
    obtain ⟨y', nano, rfl, hq, hn, hb⟩ := body_of hd hu hl
    refine ⟨_, map_ok.2 ⟨⟨⟨_⟩⟩, (C24_accepts_iff _ _ _).2 ⟨_, _, 'T', _, _, _, _, _, _, _, _, rfl, .inl rfl, hb,
      (tz_rfc ht).1, rfl⟩, rfl⟩, ?_⟩
    rw [dtValue_whole hn]
    exact .stamp hq

/-! ## Years -/

theorem year_text {neg : Bool} {s : Str} {y : Int} (h : XsdYear neg s y) :
    ∃ (sg yd : Str) (k : Int) (n : Nat), SignText sg k ∧ YearDigits yd n ∧ y = k * n ∧ s = sg ++ yd := by
  obtain ⟨ds, h1, h2, -, rfl, rfl⟩ := h
  cases neg with
  | false => exact ⟨[], dtext ds, 1, decVal ds, .pos, ⟨ds, h1, h2, rfl, rfl⟩, by simp, rfl⟩
  | true => exact ⟨['-'], dtext ds, -1, decVal ds, .neg, ⟨ds, h1, h2, rfl, rfl⟩, by simp, rfl⟩

theorem sign_abs {sg : List Char} {k : Int} (h : SignText sg k) (n : Nat) : |k * n| = n := by
  cases h with
  | pos => rw [Int.one_mul, abs_of_nonneg (by omega)]
  | neg => rw [show (-1 : Int) * n = -n by omega, abs_neg, abs_of_nonneg (by omega)]

theorem gYear_iff {L : Lib} {s t : Str} {neg : Bool} {y : Int} {tz : Option Int} (h : XsdYear neg s y) (ht : OptTz t tz) :
    Reads L "xs::GYear" (s ++ t) (.gYear y tz) ↔ ¬ (y = 0 ∨ 2147483647 < |y|) := by
  rw [reads_of (lib_GYear L)]
  constructor
  · rintro ⟨v, hv, hc⟩
    obtain ⟨a, ha, rfl⟩ := map_ok.1 hv
    cases hc
    obtain ⟨sg, yd, t', k, n, h1, h2, h3, h4, h5, -⟩ := (C06_gyear_iff _ _).1 ha
    have h5 : y = k * n := h5
    have := sign_abs h1 n
    rw [← h5] at this
    rw [this]
    rintro (rfl | h6)
    · simp at this; omega
    · omega
  · intro hl
    rw [not_or] at hl
    obtain ⟨sg, yd, k, n, h1, h2, rfl, rfl⟩ := year_text h
    rw [sign_abs h1] at hl
    refine ⟨_, map_ok.2 ⟨⟨k * n, tz⟩, (C06_gyear_iff _ _).2 ⟨sg, yd, t, k, n, h1, h2, ?_, by omega, rfl, rfl, ht⟩, rfl⟩,
      .gYear⟩
    rcases Nat.eq_zero_or_pos n with rfl | h3
    · simp at hl
    · omega

theorem gYearMonth_iff {L : Lib} {s t : Str} {neg : Bool} {y : Int} {m : Nat} {tz : Option Int} (h : XsdYear neg s y)
    (hm : 1 ≤ m ∧ m ≤ 12) (ht : OptTz t tz) :
    Reads L "xs::GYearMonth" (s ++ ['-'] ++ two m ++ t) (.gYearMonth y m tz) ↔ ¬ (y = 0 ∨ 2147483647 < |y|) := by
  rw [reads_of (lib_GYearMonth L)]
  constructor
  · rintro ⟨v, hv, hc⟩
    obtain ⟨a, ha, rfl⟩ := map_ok.1 hv
    cases hc
    obtain ⟨sg, yd, t', k, n, m', h1, h2, h3, h4, -, -, h5, -⟩ := (C07_gyearmonth_iff _ _).1 ha
    have h5 : y = k * n := h5
    have := sign_abs h1 n
    rw [← h5] at this
    rw [this]
    rintro (rfl | h6)
    · simp at this; omega
    · omega
  · intro hl
    rw [not_or] at hl
    obtain ⟨sg, yd, k, n, h1, h2, rfl, rfl⟩ := year_text h
    rw [sign_abs h1] at hl
    refine ⟨_, map_ok.2 ⟨⟨k * n, m, tz⟩, (C07_gyearmonth_iff _ _).2 ⟨sg, yd, t, k, n, m, h1, h2, ?_, by omega, hm.1, hm.2,
      rfl, rfl, rfl, ht⟩, rfl⟩, .gYearMonth⟩
    rcases Nat.eq_zero_or_pos n with rfl | h3
    · simp at hl
    · omega

end Verif.Lemmas.Blt
