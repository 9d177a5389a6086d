import Verif.Lemmas.Float

/-! # Rounding: the result is a nearest number with 53 binary digits -/

namespace Verif.Lemmas.Flt

open Verif Verif.Ieee

/-- A number which is written with at most 53 binary digits. -/
def Digits53 (y : Rat) : Prop := ∃ (m : Nat) (e : Int), m ≤ 2 ^ 53 ∧ y = m * (2 : Rat) ^ e

theorem roundEven_nearest (a b z : Nat) (hb : 0 < b) :
    |(roundEven a b * b : Int) - a| ≤ |(z * b : Int) - a| := by
  have h := Nat.div_add_mod a b
  have hm := Nat.mod_lt a hb
  obtain ⟨h1, h2⟩ := roundEven_bound a b hb
  have hz : z ≤ a / b ∨ a / b + 1 ≤ z := by omega
  have e : a / b * b = b * (a / b) := Nat.mul_comm _ _
  have e' : (a / b + 1) * b = b * (a / b) + b := by rw [Nat.add_mul, e]; omega
  have key : (roundEven a b = a / b ∧ 2 * (a % b) ≤ b) ∨ (roundEven a b = a / b + 1 ∧ b ≤ 2 * (a % b)) := by
    unfold roundEven
    simp only
    split
    · left; omega
    · split
      · right; omega
      · split
        · left; omega
        · right; omega
  have hz' : z * b ≤ a / b * b ∨ (a / b + 1) * b ≤ z * b := by
    rcases hz with hz | hz
    · exact .inl (Nat.mul_le_mul_right _ hz)
    · exact .inr (Nat.mul_le_mul_right _ hz)
  rw [e, e'] at hz'
  have c1 : ((roundEven a b * b : Nat) : Int) = (roundEven a b : Int) * b := by push_cast; rfl
  have c2 : ((z * b : Nat) : Int) = (z : Int) * b := by push_cast; rfl
  rw [← c1, ← c2]
  rcases key with ⟨k, k'⟩ | ⟨k, k'⟩
  · rw [k, e]
    rcases hz' with hz' | hz'
    · rw [abs_sub_comm, abs_sub_comm ((z * b : Nat) : Int), abs_of_nonneg (by omega), abs_of_nonneg (by omega)]; omega
    · rw [abs_sub_comm, abs_of_nonneg (by omega), abs_of_nonneg (by omega)]; omega
  · rw [k, e']
    rcases hz' with hz' | hz'
    · rw [abs_sub_comm ((z * b : Nat) : Int), abs_of_nonneg (by omega), abs_of_nonneg (by omega)]; omega
    · rw [abs_of_nonneg (by omega), abs_of_nonneg (by omega)]; omega

theorem expo_upper {a b : Nat} (hb : 0 < b) :
    (scale a b (expo a b)).1 < 2 ^ 53 * (scale a b (expo a b)).2 := by
  have h1 : a < 2 ^ (Nat.log2 a + 1) := Nat.lt_log2_self
  have h2 : 2 ^ Nat.log2 b ≤ b := Nat.log2_self_le hb.ne'
  unfold expo
  simp only
  generalize Nat.log2 a = la at *
  generalize Nat.log2 b = lb at *
  split
  · rename_i hc
    have half : ∀ e : Int, (scale a b (e - 1)).1 * (scale a b e).2 = 2 * ((scale a b e).1 * (scale a b (e - 1)).2) := by
      intro e
      have v1 := scale_val (a := a) e hb
      have v2 := scale_val (a := a) (e - 1) hb
      have : (2 : Rat) ^ (-(e - 1)) = 2 * (2 : Rat) ^ (-e) := by
        rw [show -(e - 1) = 1 + -e by ring, zpow_add₀ (by norm_num)]; norm_num
      rw [this] at v2
      have : (((scale a b (e - 1)).1 * (scale a b e).2 : Nat) : Rat) =
          (2 * ((scale a b e).1 * (scale a b (e - 1)).2) : Nat) := by
        push_cast
        rw [v1, v2]; ring
      exact_mod_cast this
    have hh := half ((la : Int) - lb - 52)
    have hp := scale_pos (a := a) ((la : Int) - lb - 52) hb
    have hp' := scale_pos (a := a) ((la : Int) - lb - 52 - 1) hb
    generalize scale a b ((la : Int) - lb - 52) = p at *
    generalize scale a b ((la : Int) - lb - 52 - 1) = q at *
    have : q.1 * p.2 < 2 ^ 53 * q.2 * p.2 := by
      rw [hh]
      calc 2 * (p.1 * q.2) < 2 * (2 ^ 52 * p.2 * q.2) := by
            apply Nat.mul_lt_mul_of_pos_left (Nat.mul_lt_mul_of_pos_right hc hp') (by omega)
        _ = 2 ^ 53 * q.2 * p.2 := by ring
    exact Nat.lt_of_mul_lt_mul_right this
  · unfold scale
    split
    · rename_i h
      obtain ⟨k, hk⟩ := Int.eq_ofNat_of_zero_le h
      have hk' : ((la : Int) - lb - 52).toNat = k := by omega
      simp only [hk']
      calc a < 2 ^ (la + 1) := h1
        _ = 2 ^ 53 * (2 ^ lb * 2 ^ k) := by rw [← pow_add, ← pow_add]; congr 1; omega
        _ ≤ 2 ^ 53 * (b * 2 ^ k) := Nat.mul_le_mul_left _ (Nat.mul_le_mul_right _ h2)
    · rename_i h
      have hk' : ∃ k : Nat, (-((la : Int) - lb - 52)).toNat = k ∧ la + k = lb + 52 := ⟨_, rfl, by omega⟩
      obtain ⟨k, hk, hlk⟩ := hk'
      simp only [hk]
      calc a * 2 ^ k < 2 ^ (la + 1) * 2 ^ k := Nat.mul_lt_mul_of_pos_right h1 (Nat.pow_pos (by omega))
        _ = 2 ^ 53 * 2 ^ lb := by rw [← pow_add, ← pow_add]; congr 1; omega
        _ ≤ 2 ^ 53 * b := Nat.mul_le_mul_left _ h2

/-- The rounding of a positive number: an integer `m` and an exponent. -/
theorem rnd_form {x : Rat} (hx : 0 < x) : ∃ (m : Nat) (e : Int), rnd x = m * (2 : Rat) ^ e ∧ m ≤ 2 ^ 53 ∧
    (2 : Rat) ^ 52 * 2 ^ e ≤ x ∧ ∀ z : Nat, |rnd x - x| ≤ |(z : Rat) * 2 ^ e - x| := by
  have hnum : 0 < x.num := Rat.num_pos.2 hx
  obtain ⟨a, ha⟩ := Int.eq_ofNat_of_zero_le hnum.le
  have ha' : x.num.toNat = a := by omega
  have hapos : 0 < a := by omega
  have hb : 0 < x.den := x.den_pos
  have hxe : x = (a : Rat) / (x.den : Rat) := by
    conv => lhs; rw [← Rat.num_div_den x]
    rw [ha]; simp
  rw [rnd_eq hx ha' rfl]
  generalize x.den = b at *
  have hlow := expo_lower (b := b) hapos
  have hup := expo_upper (a := a) hb
  have hval := scale_val (expo a b) (a := a) hb
  have hpos := scale_pos (a := a) (expo a b) hb
  generalize expo a b = e at *
  generalize hp : scale a b e = p at *
  obtain ⟨A, B⟩ := p
  simp only at hlow hval hpos hup ⊢
  have hn := fun z => roundEven_nearest A B z hpos
  have hm := roundEven_bound A B hpos
  generalize roundEven A B = m at *
  rw [← hxe] at hval
  have hBq : (0 : Rat) < B := by exact_mod_cast hpos
  have h2e : (0 : Rat) < (2 : Rat) ^ e := zpow_pos (by norm_num) e
  have hAx : x = (A : Rat) / B * 2 ^ e := by rw [hval, zpow_neg]; field_simp
  refine ⟨m, e, rfl, ?_, ?_, fun z => ?_⟩
  · by_contra hc
    have : (2 ^ 53 + 1) * B ≤ m * B := Nat.mul_le_mul_right _ (by omega)
    have := hm.1
    omega
  · rw [hAx]
    refine mul_le_mul_of_nonneg_right ?_ h2e.le
    rw [le_div_iff₀ hBq]
    exact_mod_cast hlow
  · have h := hn z
    have hq : |(m : Rat) * B - A| ≤ |(z : Rat) * B - A| := by exact_mod_cast h
    have aux : ∀ y : Rat, |y * 2 ^ e - x| = |y * B - A| / B * 2 ^ e := by
      intro y
      rw [hAx, ← sub_mul, abs_mul, abs_of_pos h2e]
      congr 1
      rw [show y - A / B = (y * B - A) / B by field_simp, abs_div, abs_of_pos hBq]
    rw [aux, aux]
    exact mul_le_mul_of_nonneg_right (div_le_div_of_nonneg_right hq hBq.le) h2e.le

theorem rnd_digits (x : Rat) : Digits53 (rnd x) := by
  by_cases hx : 0 < x
  · obtain ⟨m, e, h, hm, -⟩ := rnd_form hx
    exact ⟨m, e, hm, h⟩
  · refine ⟨0, 0, by omega, ?_⟩
    unfold rnd
    rw [if_pos (not_lt.1 hx)]
    simp

/-- The result is a nearest number of 53 digits. -/
theorem rnd_nearest {x y : Rat} (hx : 0 ≤ x) (hy : Digits53 y) : |rnd x - x| ≤ |y - x| := by
  rcases hx.eq_or_lt with rfl | hx
  · rw [rnd_zero]; simp
  obtain ⟨k, f, hk, rfl⟩ := hy
  obtain ⟨m, e, hr, -, hl, hn⟩ := rnd_form hx
  have h2e : (0 : Rat) < (2 : Rat) ^ e := zpow_pos (by norm_num) e
  rcases le_or_gt e f with hef | hef
  · obtain ⟨d, hd⟩ := Int.eq_ofNat_of_zero_le (show 0 ≤ f - e by omega)
    have h := hn (k * 2 ^ d)
    have hf : f = e + d := by omega
    rw [hf, zpow_add₀ (by norm_num), zpow_natCast]
    push_cast at h
    rw [show (k : Rat) * (2 ^ e * 2 ^ d) = k * 2 ^ d * 2 ^ e by ring]
    exact h
  · have h := hn (2 ^ 52)
    push_cast at h
    refine h.trans ?_
    have h1 : (k : Rat) * 2 ^ f ≤ 2 ^ 52 * 2 ^ e := by
      have h2 : (2 : Rat) ^ f ≤ 2 ^ e / 2 := by
        rw [le_div_iff₀ (by norm_num)]
        calc (2 : Rat) ^ f * 2 = 2 ^ (f + 1) := by rw [zpow_add₀ (by norm_num)]; norm_num
          _ ≤ 2 ^ e := zpow_le_zpow_right₀ (by norm_num) (by omega)
      have h3 : (k : Rat) ≤ 2 ^ 53 := by exact_mod_cast hk
      calc (k : Rat) * 2 ^ f ≤ 2 ^ 53 * (2 ^ e / 2) :=
            mul_le_mul h3 h2 (zpow_pos (by norm_num) f).le (by positivity)
        _ = 2 ^ 52 * 2 ^ e := by ring
    rw [abs_sub_comm, abs_sub_comm ((k : Rat) * 2 ^ f), abs_of_nonneg (by linarith), abs_of_nonneg (by linarith)]
    linarith

/-- Numbers of 53 digits are not rounded. -/
theorem rnd_exact {x : Rat} (hx : 0 ≤ x) (h : Digits53 x) : rnd x = x := by
  have := rnd_nearest hx h
  rw [sub_self, abs_zero] at this
  exact sub_eq_zero.1 (abs_eq_zero.1 (le_antisymm this (abs_nonneg _)))

theorem rnd_idem (x : Rat) : rnd (rnd x) = rnd x := by
  by_cases hx : 0 ≤ x
  · exact rnd_exact (rnd_nonneg hx) (rnd_digits x)
  · have : rnd x = 0 := by unfold rnd; rw [if_pos (not_le.1 hx).le]
    rw [this, rnd_zero]

end Verif.Lemmas.Flt
