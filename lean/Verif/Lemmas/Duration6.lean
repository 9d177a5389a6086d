import Verif.Lemmas.Duration5
import Verif.Lemmas.Float

/-! # Duration: display, conversion, rounding of seconds -/

namespace Verif.Lemmas.Dur

open Verif Verif.Model Verif.Model.Duration Verif.Spec

theorem dtext_of_allDigits {s : Str} (h : Str.allDigits s = true) : ∃ ds, Digits ds ∧ s = dtext ds := by
  induction s with
  | nil => exact ⟨[], by simp [Digits], rfl⟩
  | cons c s ih =>
    simp only [Str.allDigits, List.all_cons, Bool.and_eq_true] at h
    obtain ⟨ds, hd, rfl⟩ := ih h.2
    obtain ⟨n, hn, rfl⟩ := isDigit_of_ascii h.1
    refine ⟨n :: ds, ?_, rfl⟩
    intro x hx
    simp only [List.mem_cons] at hx
    rcases hx with rfl | hx
    · exact hn
    · exact hd x hx

theorem natStr_dtext (n : Nat) : ∃ ds, Digits1 ds ∧ Str.natStr n = dtext ds ∧ decVal ds = n := by
  obtain ⟨ds, hd, e⟩ := dtext_of_allDigits (Str.allDigits_natStr n)
  refine ⟨ds, ⟨?_, hd⟩, e, ?_⟩
  · rintro rfl; exact Str.natStr_ne_nil n e
  · have := decVal_eq_digitsVal hd
    rw [← this]
    have h2 := Str.digitsVal_natStr n
    rw [e] at h2
    exact h2

theorem natStr_zero : Str.natStr 0 = ['0'] := by decide

/-- The parts written for one component. -/
theorem comp_parts (c : Char) (n : Nat) : ∃ x : Option (List Nat),
    (if n > 0 then Str.natStr n ++ [c] else []) = compText c x ∧ (∀ ds, x = some ds → Digits1 ds) ∧
    DurParts.val x = n ∧ (∀ ds, x = some ds → decVal ds = n) := by
  by_cases h : n > 0
  · rw [if_pos h]
    obtain ⟨ds, h1, h2, h3⟩ := natStr_dtext n
    exact ⟨some ds, by rw [h2]; rfl, fun _ e => by cases e; exact h1, h3, fun _ e => by cases e; exact h3⟩
  · rw [if_neg h]
    exact ⟨none, rfl, by simp, by simp [DurParts.val]; omega, by simp⟩

/-! ### Rounding of the seconds -/

open Verif.Ieee Verif.Lemmas.Flt

theorem quot_bound {a b A B u : Rat} (ha : 0 ≤ a) (hb : 0 < b) (hu : 0 ≤ u) (hu' : u ≤ 1 / 8)
    (hA : |A - a| ≤ a * u) (hB : |B - b| ≤ b * u) : |A / B - a / b| ≤ a / b * (3 * u) ∧ 0 ≤ A / B := by
  rw [abs_le] at hA hB
  have hBpos : 0 < B := by nlinarith
  have hApos : 0 ≤ A := by nlinarith
  refine ⟨?_, by positivity⟩
  have hr : 0 ≤ a / b := by positivity
  have hre : a / b * b = a := by field_simp
  generalize a / b = r at *
  subst hre
  rw [abs_le]
  have h1 : 0 ≤ r * b := by positivity
  constructor
  · rw [le_sub_iff_add_le, le_div_iff₀ hBpos]
    have : -(r * (3 * u)) + r = r * (1 - 3 * u) := by ring
    rw [this]
    have h2 : r * (1 - 3 * u) * B ≤ r * (1 - 3 * u) * (b * (1 + u)) := by
      apply mul_le_mul_of_nonneg_left
      · linarith [hB.2]
      · apply mul_nonneg hr; linarith
    have h3 : r * (1 - 3 * u) * (b * (1 + u)) = r * b * ((1 - 3 * u) * (1 + u)) := by ring
    have h4 : (1 - 3 * u) * (1 + u) ≤ 1 - u := by nlinarith
    have h5 := mul_le_mul_of_nonneg_left h4 h1
    linarith [hA.1]
  · rw [sub_le_iff_le_add, div_le_iff₀ hBpos]
    have : r * (3 * u) + r = r * (1 + 3 * u) := by ring
    rw [this]
    have h2 : r * (1 + 3 * u) * (b * (1 - u)) ≤ r * (1 + 3 * u) * B := by
      apply mul_le_mul_of_nonneg_left
      · linarith [hB.1]
      · apply mul_nonneg hr; linarith
    have h3 : r * (1 + 3 * u) * (b * (1 - u)) = r * b * ((1 + 3 * u) * (1 - u)) := by ring
    have h4 : 1 + u ≤ (1 + 3 * u) * (1 - u) := by nlinarith
    have h5 := mul_le_mul_of_nonneg_left h4 h1
    linarith [hA.2]

theorem seconds_error (v a b : Nat) (hb : 0 < b) :
    |rnd (rnd v + rnd (rnd a / rnd b)) - ((v : Rat) + (a : Rat) / b)| ≤ ((v : Rat) + (a : Rat) / b) / 2 ^ 50 := by
  have hv := rnd_bound (x := (v : Rat)) (by positivity)
  have ha := rnd_bound (x := (a : Rat)) (by positivity)
  have hb' := rnd_bound (x := (b : Rat)) (by positivity)
  have hbq : (0 : Rat) < b := by exact_mod_cast hb
  have hq := quot_bound (a := (a : Rat)) (b := b) (A := rnd a) (B := rnd b) (u := 1 / 2 ^ 53)
    (by positivity) hbq (by positivity) (by norm_num) (by rw [mul_one_div]; exact ha) (by rw [mul_one_div]; exact hb')
  have hq2 := rnd_bound hq.2
  have hvn := rnd_nonneg (x := (v : Rat)) (by positivity)
  have hqn := rnd_nonneg hq.2
  have hs := rnd_bound (x := rnd v + rnd (rnd a / rnd b)) (by positivity)
  have hr : 0 ≤ (a : Rat) / b := by positivity
  have hv0 : (0 : Rat) ≤ v := by positivity
  obtain ⟨hq1, hqp⟩ := hq
  generalize rnd (rnd a / rnd b) = Q at *
  generalize rnd a / rnd b = q at *
  generalize rnd (rnd (v : Rat) + Q) = S at *
  generalize rnd (v : Rat) = V at *
  generalize (a : Rat) / b = r at *
  generalize (v : Rat) = w at *
  rw [abs_le] at *
  norm_num at *
  constructor <;> linarith [hv.1, hv.2, hq1.1, hq1.2, hq2.1, hq2.2, hs.1, hs.2]

end Verif.Lemmas.Dur
