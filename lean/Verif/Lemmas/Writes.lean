import Verif.Spec.Writes
import Verif.Lemmas.Builtin2
import Verif.Props.DurationFloat

/-! # Lemmas: the texts written for the values of the Rust types -/

namespace Verif.Lemmas.Wrt

open Verif Verif.Model Verif.Spec Verif.Props Verif.Lemmas Verif.Lemmas.Dur Verif.Lemmas.Chr Verif.Lemmas.Dec Chrono
open Verif.Lemmas.Blt Verif.Lemmas.Flt

/-! ## Numbers -/

theorem scaled_eq (m : Nat) (e : Int) : scaled m e = m * 10 ^ e := by
  unfold scaled
  split
  · rename_i h
    conv => rhs; rw [← Int.toNat_of_nonneg h]
    rw [zpow_natCast]
  · rename_i h
    have : e = -((-e).toNat : Int) := by omega
    conv => rhs; rw [this]
    rw [zpow_neg, zpow_natCast, div_eq_mul_inv]

/-- Digits of a number padded to four. -/
theorem year_digits (n : Nat) : ∃ ds, Digits ds ∧ 4 ≤ ds.length ∧ (4 < ds.length → ds.head? ≠ some 0) ∧
    Str.fmtPadNat 4 n = dtext ds ∧ decVal ds = n := by
  obtain ⟨ds, h1, hl, h2, h3⟩ := fmtPadNat_dtext (w := 4) (n := n)
  refine ⟨ds, h1, hl, ?_, h2, h3⟩
  intro h4 h0
  obtain ⟨d, ds, rfl⟩ : ∃ d r, ds = d :: r := by cases ds with
    | nil => simp at hl
    | cons d r => exact ⟨d, r, rfl⟩
  simp only [List.head?_cons, Option.some.injEq] at h0
  subst h0
  have hlt : decVal ds < 10 ^ ds.length := decVal_lt fun x hx => h1 x (by simp [hx])
  have hv : decVal (0 :: ds) = decVal ds := by rw [decVal_cons]; omega
  simp only [List.length_cons] at h4
  have e1 := Str.length_fmtPadNat_of_lt (w := ds.length) (n := n) (by omega) (by omega)
  have e2 := congrArg List.length h2
  simp only [dtext, List.map_cons, List.length_cons, List.length_map] at e2
  rw [Str.fmtPadNat, Str.length_padZeros] at e1 e2
  omega

theorem nat_xsd (n : Nat) : XsdInt (Str.natStr n) .none n := by
  obtain ⟨ds, h1, h2, h3⟩ := natStr_dtext n
  exact ⟨ds, h1, by rw [h2]; rfl, by rw [h3]; rfl⟩

/-! ## Dates and times -/

theorem xsdYear_show {y : Int} (h : y ≤ 9999) : XsdYear (decide (y < 0)) (fmtYear y) y := by
  obtain ⟨ds, h1, h2, h3, h4, h5⟩ := year_digits y.natAbs
  refine ⟨ds, h1, h2, h3, ?_, ?_⟩
  · unfold fmtYear
    by_cases h0 : y < 0
    · rw [if_neg (by omega), if_pos h0, h4, decide_eq_true h0]; rfl
    · rw [if_pos (by omega), h4, decide_eq_false h0]; rfl
  · rw [h5]
    by_cases h0 : y < 0
    · rw [decide_eq_true h0, if_pos rfl]; omega
    · rw [decide_eq_false h0, if_neg (by decide)]; omega

theorem xsdDay_show {y : Int} {m d : Nat} (h : y ≤ 9999) (hv : ValidDate y m d) :
    XsdDay (decide (y < 0)) (fmtYear y ++ ['-'] ++ two m ++ ['-'] ++ two d) y m d :=
  ⟨_, xsdYear_show h, hv, rfl⟩

theorem fmtYmd_eq {v : NaiveDate} (h : ValidDate v.year v.month v.day) :
    fmtYmd v = fmtYear v.year ++ ['-'] ++ two v.month ++ ['-'] ++ two v.day := by
  obtain ⟨hm, hd⟩ := validDate_lt h
  rw [fmtYmd, fmtPadNat_two hm, fmtPadNat_two hd]
  simp

/-- A literal does not begin with a plus. -/
theorem day_head {neg : Bool} {s : Str} {y : Int} {m d : Nat} (h : XsdDay neg s y m d) (t : Str) :
    (s ++ t).head? ≠ some '+' := by
  obtain ⟨ys, ⟨ds, h1, h2, -, rfl, -⟩, -, rfl⟩ := h
  cases neg with
  | true => simp [durSign]
  | false =>
    cases ds with
    | nil => simp at h2
    | cons a r =>
      simp only [durSign, dtext, List.map_cons, Bool.false_eq_true, if_false, List.nil_append, List.cons_append,
        List.append_assoc, List.head?_cons, ne_eq, Option.some.injEq]
      exact digit_ne_of (h1 a (by simp)) (by decide)

theorem fmtYear_late {y : Int} (h : 9999 < y) (t : Str) : (fmtYear y ++ t).head? = some '+' := by
  rw [fmtYear, if_neg (by omega), if_neg (by omega)]; rfl

/-- Fraction digits of the seconds. -/
theorem autoSi_digits {k : Nat} (h : k < 1000000000) : ∃ t fs, SecondText t s fs ∧ t = two s ++ fmtAutoSi k ∧
    (decVal fs : ℚ) / 10 ^ fs.length = (k : ℚ) / 10 ^ 9 := by
  have gen : ∀ {w j : Nat}, 0 < w → w ≤ 9 → k = j * 10 ^ (9 - w) → j < 10 ^ w →
      ∃ t fs, SecondText t s fs ∧ t = two s ++ '.' :: Str.fmtPadNat w j ∧
        (decVal fs : ℚ) / 10 ^ fs.length = (k : ℚ) / 10 ^ 9 := by
    intro w j hw hw9 e hj
    obtain ⟨ds, h1, hl, h2, h3⟩ := fmtPadNat_dtext (w := w) (n := j)
    have hl' : ds.length = w := by
      have := Str.length_fmtPadNat_of_lt hw hj
      rw [h2] at this; simpa [dtext] using this
    refine ⟨_, ds, .fraction ⟨by rintro rfl; simp at hl'; omega, h1⟩, by rw [h2], ?_⟩
    rw [div_eq_div_iff (by positivity) (by positivity), h3, hl', e, Nat.cast_mul, Nat.cast_pow, Nat.cast_ofNat, mul_assoc,
      ← pow_add (10 : ℚ) (9 - w) w, Nat.sub_add_cancel hw9]
  unfold fmtAutoSi
  split
  · rename_i h0; subst h0; exact ⟨_, [], .whole, by simp, by simp [decVal]⟩
  · split
    · exact gen (by decide) (by decide) (by simp; omega) (by simp; omega)
    · split
      · exact gen (by decide) (by decide) (by simp; omega) (by simp; omega)
      · exact gen (by decide) (by decide) (by simp) (by simpa using h)

theorem second_nonneg (n : Nat) (fs : List Nat) : (n : ℚ) ≤ secondQ n fs := by
  unfold secondQ
  have : (0 : ℚ) ≤ (decVal fs : ℚ) / 10 ^ fs.length := by positivity
  linarith

/-- The seconds of a literal stay below a minute. -/
theorem second_lt {s : Str} {h m n : Nat} {fs : List Nat} (hx : XsdTime s h m n fs) : secondQ n fs < 60 := by
  obtain ⟨t, -, -, hn, ht, -⟩ := hx
  have hf : Digits fs := by cases ht with
    | whole => intro d hd; simp at hd
    | fraction h => exact h.2
  have h1 : (decVal fs : ℚ) / 10 ^ fs.length < 1 := by
    rw [div_lt_one (by positivity)]
    have := decVal_lt hf
    exact_mod_cast this
  have h2 : (n : ℚ) ≤ 59 := by exact_mod_cast (by omega : n ≤ 59)
  unfold secondQ
  linarith

/-- Seconds and nanoseconds below a minute. -/
theorem nano_lt {n k : Nat} (h : (n : ℚ) + (k : ℚ) / 10 ^ 9 < 60) : n + k / 1000000000 < 60 := by
  by_contra hc
  have h1 : 60 ≤ n + k / 1000000000 := by omega
  have h2 : (k / 1000000000 : Nat) * 1000000000 ≤ k := Nat.div_mul_le_self _ _
  have h3 : ((k / 1000000000 : Nat) : ℚ) * 1000000000 ≤ k := by exact_mod_cast h2
  have h4 : (60 : ℚ) ≤ n + (k / 1000000000 : Nat) := by exact_mod_cast h1
  have h5 : ((k / 1000000000 : Nat) : ℚ) ≤ (k : ℚ) / 10 ^ 9 := by
    rw [le_div_iff₀ (by positivity)]
    norm_num
    exact h3
  linarith

theorem nano_split (k : Nat) : (k : ℚ) / 10 ^ 9 = (k / 1000000000 : Nat) + ((k % 1000000000 : Nat) : ℚ) / 10 ^ 9 := by
  have h : (k / 1000000000 : Nat) * 1000000000 + k % 1000000000 = k := Nat.div_add_mod' k 1000000000
  have h' : ((k / 1000000000 : Nat) : ℚ) * 1000000000 + (k % 1000000000 : Nat) = k := by exact_mod_cast h
  rw [div_eq_iff (by positivity), add_mul, div_mul_cancel₀ _ (by positivity)]
  norm_num
  exact h'.symm

theorem offset_show {o : Int} (h : XsdOffset o) : TzText (fmtOffsetMinutes o) o := by
  obtain ⟨h0, h1, h2⟩ := h
  have e0 : (o.natAbs + 30) / 60 = o.natAbs / 60 := by omega
  unfold fmtOffsetMinutes
  simp only [e0]
  rw [fmtPadNat_two (by omega), fmtPadNat_two (by omega)]
  by_cases hn : o < 0
  · rw [if_pos hn]
    have := TzText.west (o.natAbs / 60 / 60) (o.natAbs / 60 % 60) (by omega) (by omega)
    rwa [show -(3600 * ((o.natAbs / 60 / 60 : Nat) : Int) + 60 * ((o.natAbs / 60 % 60 : Nat) : Int)) = o by omega] at this
  · rw [if_neg hn]
    have := TzText.east (o.natAbs / 60 / 60) (o.natAbs / 60 % 60) (by omega) (by omega)
    rwa [show (3600 * ((o.natAbs / 60 / 60 : Nat) : Int) + 60 * ((o.natAbs / 60 % 60 : Nat) : Int)) = o by omega] at this

/-- The text of a date-time. -/
theorem rfc_eq {x : CDateTime} (hv : ValidDate x.date.year x.date.month x.date.day) (ht : DayTime x.time) :
    toRfc3339 x = fmtYear x.date.year ++ ['-'] ++ two x.date.month ++ ['-'] ++ two x.date.day ++ ['T'] ++
      (two x.time.hour ++ [':'] ++ two x.time.minute ++ [':'] ++ (two (x.time.second + x.time.nano / 1000000000) ++
        fmtAutoSi (x.time.nano % 1000000000))) ++ fmtOffsetMinutes x.offset := by
  obtain ⟨hm, hd⟩ := validDate_lt hv
  obtain ⟨h1, h2, h3, h4⟩ := ht
  have e1 : (if x.time.nano ≥ 1000000000 then x.time.second + 1 else x.time.second) =
      x.time.second + x.time.nano / 1000000000 := by split <;> omega
  have e2 : (if x.time.nano ≥ 1000000000 then x.time.nano - 1000000000 else x.time.nano) =
      x.time.nano % 1000000000 := by split <;> omega
  unfold toRfc3339
  simp only [e1, e2]
  rw [fmtPadNat_two hm, fmtPadNat_two hd, fmtPadNat_two (by omega), fmtPadNat_two (by omega),
    fmtPadNat_two (by omega)]
  simp

/-! ## Durations -/

/-- Seconds denoted by their digits. -/
def secVal (s : Option (List Nat × Option (List Nat))) : ℚ :=
  match s with | none => 0 | some (ds, none) => secondQ (decVal ds) [] | some (ds, some fs) => secondQ (decVal ds) fs

theorem secVal_nonneg (s : Option (List Nat × Option (List Nat))) : 0 ≤ secVal s := by
  rcases s with _ | ⟨ds, _ | fs⟩
  · exact le_refl _
  · exact le_trans (Nat.cast_nonneg _) (second_nonneg _ _)
  · exact le_trans (Nat.cast_nonneg _) (second_nonneg _ _)

theorem duration_show {sh : ℚ → Str} (hsh : Shows sh) {d : Duration ℚ} (h0 : 0 ≤ d.seconds)
    (hr : Ieee.rnd d.seconds = d.seconds) : ∃ x : DurParts, XsdDuration (d.display (Ieee.ops sh)) x ∧
      x.neg = d.isNegative ∧ DurParts.val x.y = d.years ∧ DurParts.val x.m = d.months ∧ DurParts.val x.d = d.days ∧
      DurParts.val x.h = d.hours ∧ DurParts.val x.n = d.minutes ∧
      Ieee.rnd (secVal x.s) = d.seconds := by
  obtain ⟨xy, ty, wy, vy, dy⟩ := comp_parts 'Y' d.years
  obtain ⟨xm, tm, wm, vm, dm⟩ := comp_parts 'M' d.months
  obtain ⟨xd, td, wd, vd, dd⟩ := comp_parts 'D' d.days
  obtain ⟨xh, th, wh, vh, dh⟩ := comp_parts 'H' d.hours
  obtain ⟨xn, tn, wn, vn, dn⟩ := comp_parts 'M' d.minutes
  have hsec : ∃ xs : Option (List Nat × Option (List Nat)),
      (if (Ieee.ops sh).gtZero d.seconds then (Ieee.ops sh).show' d.seconds ++ ['S'] else []) = secText xs ∧
      (∀ ds f, xs = some (ds, f) → Digits1 ds) ∧ (∀ ds fs, xs = some (ds, some fs) → Digits1 fs) ∧
      Ieee.rnd (secVal xs) = d.seconds := by
    by_cases hg : 0 < d.seconds
    · have hg' : (Ieee.ops sh).gtZero d.seconds = true := decide_eq_true hg
      obtain ⟨ds, hds, ⟨h1, h2⟩ | ⟨fs, hfs, h1, h2⟩⟩ := hsh d.seconds h0 hr
      · refine ⟨some (ds, none), ?_, ?_, by simp, ?_⟩
        · rw [if_pos hg', show (Ieee.ops sh).show' d.seconds = sh d.seconds from rfl, h1]; rfl
        · intro a b e; cases e; exact hds
        · show Ieee.rnd (secondQ (decVal ds) []) = _
          rw [secondQ_nil]; exact h2
      · refine ⟨some (ds, some fs), ?_, ?_, ?_, h2⟩
        · rw [if_pos hg', show (Ieee.ops sh).show' d.seconds = sh d.seconds from rfl, h1]; rfl
        · intro a b e; cases e; exact hds
        · intro a b e; cases e; exact hfs
    · have hg' : ¬ (Ieee.ops sh).gtZero d.seconds = true := by
        rw [show (Ieee.ops sh).gtZero d.seconds = decide (0 < d.seconds) from rfl]; simpa using hg
      refine ⟨none, by rw [if_neg hg']; rfl, by simp, by simp, ?_⟩
      show Ieee.rnd 0 = _
      rw [rnd_zero]; linarith
  obtain ⟨xs, ts, ws, wf, vs⟩ := hsec
  by_cases hempty : compText 'Y' xy ++ compText 'M' xm ++ compText 'D' xd ++
      (compText 'H' xh ++ compText 'M' xn ++ secText xs) = []
  · simp only [List.append_eq_nil_iff] at hempty
    obtain ⟨⟨⟨e1, e2⟩, e3⟩, ⟨e4, e5⟩, e6⟩ := hempty
    have n0 : ∀ (c : Char) (x : Option (List Nat)), compText c x = [] → x = none := by
      intro c x hx; cases x with
      | none => rfl
      | some ds => simp [compText] at hx
    have s0 : xs = none := by
      cases xs with
      | none => rfl
      | some q => obtain ⟨a, b⟩ := q; cases b <;> simp [secText] at e6
    have := n0 _ _ e1; subst this
    have := n0 _ _ e2; subst this
    have := n0 _ _ e3; subst this
    have := n0 _ _ e4; subst this
    have := n0 _ _ e5; subst this
    subst s0
    have hdisp : d.display (Ieee.ops sh) = DurParts.text ⟨d.isNegative, some [0], none, none, none, none, none⟩ := by
      unfold Duration.display
      simp only [ty, tm, td, th, tn, ts]
      cases d.isNegative <;> rfl
    refine ⟨⟨d.isNegative, some [0], none, none, none, none, none⟩, ⟨⟨?_, by simp, by simp, by simp, by simp, by simp,
      by simp⟩, ?_, hdisp⟩, rfl, ?_, vm, vd, vh, vn, vs⟩
    · intro ds e; cases e; exact ⟨by simp, by simp [Digits]⟩
    · simp [DurParts.NonEmpty, DurParts.dateText, compText]
    · rw [← vy]; rfl
  · have hdisp : d.display (Ieee.ops sh) = DurParts.text ⟨d.isNegative, xy, xm, xd, xh, xn, xs⟩ := by
      unfold Duration.display DurParts.text
      simp only [ty, tm, td, th, tn, ts]
      have e1 : DurParts.timeText ⟨d.isNegative, xy, xm, xd, xh, xn, xs⟩ =
        compText 'H' xh ++ compText 'M' xn ++ secText xs := rfl
      have e2 : DurParts.dateText ⟨d.isNegative, xy, xm, xd, xh, xn, xs⟩ =
        compText 'Y' xy ++ compText 'M' xm ++ compText 'D' xd := rfl
      rw [e1, e2]
      have e3 : (if d.isNegative = true then ['-', 'P'] else ['P']) = durSign d.isNegative ++ ['P'] := by
        cases d.isNegative <;> rfl
      by_cases ht : compText 'H' xh ++ compText 'M' xn ++ secText xs = []
      · rw [if_pos ht, if_pos ht]
        rw [ht, List.append_nil] at hempty
        rw [if_neg hempty, e3]; simp
      · rw [if_neg ht, if_neg ht, e3]; simp
    exact ⟨⟨d.isNegative, xy, xm, xd, xh, xn, xs⟩, ⟨⟨wy, wm, wd, wh, wn, ws, wf⟩, hempty, hdisp⟩, rfl, vy, vm, vd, vh, vn,
      vs⟩

end Verif.Lemmas.Wrt
