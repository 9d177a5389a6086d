import Verif.Rust.Float
import Mathlib.Algebra.Order.Field.Rat
import Mathlib.Algebra.Order.Ring.Abs
import Mathlib.Tactic.Linarith
import Mathlib.Tactic.FieldSimp
import Mathlib.Tactic.Ring
import Mathlib.Tactic.NormNum
import Mathlib.Tactic.Positivity

/-! # Rounding: integers below 2^53 are exact, relative error is at most 2^-53 -/

namespace Verif.Lemmas.Flt

open Verif Verif.Ieee

theorem roundEven_one (a : Nat) : roundEven a 1 = a := by
  unfold roundEven
  simp [Nat.mod_one]

theorem roundEven_bound (a b : Nat) (hb : 0 < b) :
    2 * (roundEven a b * b) ≤ 2 * a + b ∧ 2 * a ≤ 2 * (roundEven a b * b) + b := by
  have h := Nat.div_add_mod a b
  have hm := Nat.mod_lt a hb
  unfold roundEven
  simp only
  have e : a / b * b = b * (a / b) := Nat.mul_comm _ _
  have e' : (a / b + 1) * b = b * (a / b) + b := by rw [Nat.add_mul, e]; omega
  split
  · rw [e]; constructor <;> omega
  · split
    · rw [e']; constructor <;> omega
    · split
      · rw [e]; constructor <;> omega
      · rw [e']; constructor <;> omega

theorem scale_pos {a b : Nat} (e : Int) (hb : 0 < b) : 0 < (scale a b e).2 := by
  unfold scale
  split
  · exact Nat.mul_pos hb (Nat.pow_pos (by omega))
  · exact hb

theorem scale_val {a b : Nat} (e : Int) (hb : 0 < b) :
    ((scale a b e).1 : Rat) = (a / b : Rat) * (2 : Rat) ^ (-e) * ((scale a b e).2 : Rat) := by
  have hb' : (b : Rat) ≠ 0 := by exact_mod_cast hb.ne'
  unfold scale
  split
  · rename_i h
    obtain ⟨n, rfl⟩ := Int.eq_ofNat_of_zero_le h
    have : (2 : Rat) ^ n ≠ 0 := by positivity
    simp only [Int.toNat_natCast, zpow_neg, zpow_natCast]
    push_cast
    field_simp
  · rename_i h
    obtain ⟨n, hn⟩ := Int.eq_ofNat_of_zero_le (show 0 ≤ -e by omega)
    rw [hn]
    simp only [Int.toNat_natCast, zpow_natCast]
    push_cast
    field_simp

theorem expo_lower {a b : Nat} (ha : 0 < a) :
    2 ^ 52 * (scale a b (expo a b)).2 ≤ (scale a b (expo a b)).1 := by
  unfold expo
  simp only
  split
  · have h1 : 2 ^ Nat.log2 a ≤ a := Nat.log2_self_le ha.ne'
    have h2 : b < 2 ^ (Nat.log2 b + 1) := Nat.lt_log2_self
    generalize Nat.log2 a = la at *
    generalize Nat.log2 b = lb at *
    unfold scale
    split
    · rename_i h
      obtain ⟨k, hk⟩ := Int.eq_ofNat_of_zero_le h
      have : la = lb + 53 + k := by omega
      subst this
      have hk' : ((lb + 53 + k : Nat) - (lb : Int) - 52 - 1).toNat = k := by omega
      simp only [hk']
      calc 2 ^ 52 * (b * 2 ^ k) ≤ 2 ^ 52 * (2 ^ (lb + 1) * 2 ^ k) := by
            apply Nat.mul_le_mul_left; apply Nat.mul_le_mul_right; omega
        _ = 2 ^ (lb + 53 + k) := by rw [← pow_add, ← pow_add]; congr 1; omega
        _ ≤ a := h1
    · rename_i h
      have hk' : ∃ k : Nat, (-((la : Int) - lb - 52 - 1)).toNat = k ∧ la + k = lb + 53 := ⟨_, rfl, by omega⟩
      obtain ⟨k, hk, hlk⟩ := hk'
      simp only [hk]
      calc 2 ^ 52 * b ≤ 2 ^ 52 * 2 ^ (lb + 1) := by apply Nat.mul_le_mul_left; omega
        _ = 2 ^ la * 2 ^ k := by rw [← pow_add, ← pow_add]; congr 1; omega
        _ ≤ a * 2 ^ k := Nat.mul_le_mul_right _ h1
  · omega

theorem rnd_eq {x : Rat} (hx : 0 < x) {a b : Nat} (ha : x.num.toNat = a) (hb : x.den = b) :
    rnd x = (roundEven (scale a b (expo a b)).1 (scale a b (expo a b)).2 : Rat) * (2 : Rat) ^ (expo a b) := by
  unfold rnd
  rw [if_neg (not_le.2 hx)]
  simp only
  rw [← ha, ← hb]
  generalize expo x.num.toNat x.den = e
  generalize roundEven _ _ = m
  split
  · rename_i h
    obtain ⟨n, rfl⟩ := Int.eq_ofNat_of_zero_le h
    simp
  · rename_i h
    obtain ⟨n, hn⟩ := Int.eq_ofNat_of_zero_le (show 0 ≤ -e by omega)
    have : e = -(n : Int) := by omega
    subst this
    rw [Rat.mkRat_eq_div]
    simp [zpow_neg, div_eq_mul_inv]

/-- Correct rounding: relative error at most 2^-53. -/
theorem rnd_bound {x : Rat} (hx : 0 ≤ x) : |rnd x - x| ≤ x / 2 ^ 53 := by
  by_cases h0 : x ≤ 0
  · have : x = 0 := le_antisymm h0 hx
    subst this; unfold rnd; simp
  have hxpos : 0 < x := not_le.1 h0
  have hnum : 0 < x.num := Rat.num_pos.2 hxpos
  obtain ⟨a, ha⟩ := Int.eq_ofNat_of_zero_le hnum.le
  have ha' : x.num.toNat = a := by omega
  have hapos : 0 < a := by omega
  have hb : 0 < x.den := x.den_pos
  have hxe : x = (a : Rat) / (x.den : Rat) := by
    conv => lhs; rw [← Rat.num_div_den x]
    rw [ha]; simp
  rw [rnd_eq hxpos ha' rfl]
  generalize x.den = b at *
  have hlow := expo_lower (b := b) hapos
  have hval := scale_val (expo a b) (a := a) hb
  have hpos := scale_pos (a := a) (expo a b) hb
  generalize expo a b = e at *
  generalize hp : scale a b e = p at *
  obtain ⟨A, B⟩ := p
  simp only at hlow hval hpos ⊢
  have hm := roundEven_bound A B hpos
  generalize roundEven A B = m at *
  rw [← hxe] at hval
  have hBq : (0 : Rat) < B := by exact_mod_cast hpos
  have h2e : (0 : Rat) < (2 : Rat) ^ e := zpow_pos (by norm_num) e
  have hAx : (A : Rat) / B * 2 ^ e = x := by
    rw [hval, zpow_neg]; field_simp
  have hm1 : 2 * ((m : Rat) * B) ≤ 2 * A + B := by exact_mod_cast hm.1
  have hm2 : 2 * (A : Rat) ≤ 2 * ((m : Rat) * B) + B := by exact_mod_cast hm.2
  have hl : (2 : Rat) ^ 52 * B ≤ A := by exact_mod_cast hlow
  have hd : |(m : Rat) - A / B| ≤ 1 / 2 := by
    rw [abs_le]
    have : (m : Rat) - A / B = ((m : Rat) * B - A) / B := by field_simp
    rw [this]
    constructor
    · rw [le_div_iff₀ hBq]; linarith
    · rw [div_le_iff₀ hBq]; linarith
  have hx2 : 2 ^ e ≤ x / 2 ^ 52 := by
    rw [← hAx, le_div_iff₀ (by positivity)]
    have : (2 : Rat) ^ 52 ≤ A / B := by rw [le_div_iff₀ hBq]; exact hl
    calc (2 : Rat) ^ e * 2 ^ 52 ≤ 2 ^ e * (A / B) := by
          apply mul_le_mul_of_nonneg_left this h2e.le
      _ = A / B * 2 ^ e := mul_comm _ _
  have : (m : Rat) * 2 ^ e - x = ((m : Rat) - A / B) * 2 ^ e := by rw [sub_mul, hAx]
  rw [this, abs_mul, abs_of_pos h2e]
  calc |(m : Rat) - A / B| * 2 ^ e ≤ 1 / 2 * 2 ^ e := mul_le_mul_of_nonneg_right hd h2e.le
    _ ≤ 1 / 2 * (x / 2 ^ 52) := by apply mul_le_mul_of_nonneg_left hx2; norm_num
    _ = x / 2 ^ 53 := by ring

/-- Integers below 2^53 are not rounded. -/
theorem rnd_nat {n : Nat} (hn : n < 2 ^ 53) : rnd (n : Rat) = n := by
  by_cases h0 : n = 0
  · subst h0; unfold rnd; simp
  have hpos : 0 < n := Nat.pos_of_ne_zero h0
  rw [rnd_eq (x := (n : Rat)) (a := n) (b := 1) (by exact_mod_cast hpos) (by simp) (by simp)]
  have hl : Nat.log2 n ≤ 52 := by
    have := (Nat.log2_lt h0).2 hn; omega
  have h1 : 2 ^ Nat.log2 n ≤ n := Nat.log2_self_le h0
  have he : expo n 1 = (Nat.log2 n : Int) - 52 := by
    have hlow := expo_lower hpos (b := 1)
    unfold expo at hlow ⊢
    simp only at hlow ⊢
    have hlog : Nat.log2 1 = 0 := by decide
    rw [hlog] at hlow ⊢
    split
    · rename_i hc
      exfalso
      have hs : scale n 1 ((Nat.log2 n : Int) - (0 : Nat) - 52) = (n * 2 ^ (52 - Nat.log2 n), 1) := by
        unfold scale
        split
        · have : Nat.log2 n = 52 := by omega
          rw [this]; simp
        · congr 3; omega
      rw [hs] at hc
      simp only at hc
      have : 2 ^ 52 ≤ n * 2 ^ (52 - Nat.log2 n) := by
        calc 2 ^ 52 = 2 ^ Nat.log2 n * 2 ^ (52 - Nat.log2 n) := by rw [← pow_add]; congr 1; omega
          _ ≤ _ := Nat.mul_le_mul_right _ h1
      omega
    · simp
  rw [he]
  have hs : scale n 1 ((Nat.log2 n : Int) - 52) = (n * 2 ^ (52 - Nat.log2 n), 1) := by
    unfold scale
    split
    · have : Nat.log2 n = 52 := by omega
      rw [this]; simp
    · congr 3; omega
  rw [hs]
  simp only [roundEven_one]
  have : (Nat.log2 n : Int) - 52 = -((52 - Nat.log2 n : Nat) : Int) := by omega
  rw [this, zpow_neg, zpow_natCast]
  push_cast
  have : (2 : Rat) ^ (52 - Nat.log2 n) ≠ 0 := by positivity
  field_simp

theorem rnd_zero : rnd 0 = 0 := by unfold rnd; simp

theorem rnd_nonneg {x : Rat} (hx : 0 ≤ x) : 0 ≤ rnd x := by
  have h := rnd_bound hx
  rw [abs_le] at h
  have : x / 2 ^ 53 ≤ x := by
    rw [div_le_iff₀ (by positivity)]
    nlinarith
  linarith [h.1]

end Verif.Lemmas.Flt
