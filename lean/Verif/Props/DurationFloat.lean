import Verif.Props.Duration
import Verif.Lemmas.Float2

/-! # C11, C13: the seconds of a duration in binary64 arithmetic -/

namespace Verif.Props

open Verif Verif.Model Verif.Spec Verif.Lemmas.Dur Verif.Lemmas.Flt
open Verif.Model.Duration (fromStr display toStdDuration)

/-- **C11** The arithmetic of the model is that of binary64 numbers: each result is a number with 53 binary digits,
and none such is nearer to the exact result. -/
theorem C11_rounding (x : Rat) (hx : 0 ≤ x) :
    (∃ (m : Nat) (e : Int), m ≤ 2 ^ 53 ∧ Ieee.rnd x = m * (2 : Rat) ^ e) ∧
    ∀ (m : Nat) (e : Int), m ≤ 2 ^ 53 → |Ieee.rnd x - x| ≤ |m * (2 : Rat) ^ e - x| :=
  ⟨rnd_digits x, fun m e hm => rnd_nearest hx ⟨m, e, hm, rfl⟩⟩

/-- Powers of ten up to 22 have 53 digits. -/
private theorem digits53_pow10 {k : Nat} (hk : k ≤ 22) : Digits53 ((10 ^ k : Nat) : Rat) := by
  refine ⟨5 ^ k, k, ?_, ?_⟩
  · calc 5 ^ k ≤ 5 ^ 22 := Nat.pow_le_pow_right (by omega) hk
      _ ≤ 2 ^ 53 := by decide
  · push_cast
    rw [zpow_natCast, ← mul_pow]; norm_num

private theorem digits53_nat {n : Nat} (hn : n ≤ 2 ^ 53) : Digits53 (n : Rat) := ⟨n, 0, hn, by simp⟩

private theorem seconds_below_one {a k : Nat} (ha : a ≤ 2 ^ 53) (hk : k ≤ 22) (sh : Rat → Str) :
    machineSeconds (Ieee.ops sh) (some (0, a, 10 ^ k)) = Ieee.rnd ((a : Rat) / (10 ^ k : Nat)) := by
  show Ieee.rnd (Ieee.rnd (0 : Nat) + Ieee.rnd (Ieee.rnd (a : Nat) / Ieee.rnd (10 ^ k : Nat))) = _
  rw [rnd_exact (by positivity) (digits53_nat ha), rnd_exact (by positivity) (digits53_pow10 hk), Nat.cast_zero, rnd_zero,
    zero_add, rnd_idem]

/-- **C11** (seconds) Less than a second, given with up to 15 significant digits (to be exact, at most 2^53 as a
number), is read as the nearest binary64 number. -/
theorem C11_ieee_below_one (sh : Rat → Str) (p : Profile) (s : Str) (x : DurParts) (ds fs : List Nat)
    (hx : XsdDuration s x) (hf : x.Fits) (hs : x.s = some (ds, some fs)) (h0 : decVal ds = 0) (h1 : decVal fs ≤ 2 ^ 53) :
    ∃ d, fromStr (Ieee.ops sh) p s = .ok d ∧ d.seconds = Ieee.rnd ((decVal fs : Rat) / (10 ^ fs.length : Nat)) := by
  refine ⟨_, C11_complete _ p s x hx hf, ?_⟩
  have hl : fs.length ≤ 19 := hf.2.2.2.2.2.2 ds fs hs
  simp only [denoted, DurParts.sec, hs]
  rw [h0]
  exact seconds_below_one h1 (by omega) sh

/-- The number which the digits stand for. -/
def printed (ds : List Nat) (f : Option (List Nat)) : Rat :=
  match f with
  | none => decVal ds
  | some fs => decVal ds + (decVal fs : Rat) / (10 ^ fs.length : Nat)

/-- **C13** Round trip for less than a second: if the digits written identify the number, it is read back exactly
(at most 2^53 as a number and 19 digits). -/
theorem C13_roundtrip_below_one (sh : Rat → Str) (p : Profile) (d : Duration Rat) (ds fs : List Nat)
    (hu : d.years < 2 ^ 64 ∧ d.months < 2 ^ 64 ∧ d.days < 2 ^ 64 ∧ d.hours < 2 ^ 64 ∧ d.minutes < 2 ^ 64)
    (hsh : sh d.seconds = decimalText ds (some fs)) (hds : Digits1 ds) (hfs : Digits1 fs) (h0 : decVal ds = 0)
    (h1 : decVal fs ≤ 2 ^ 53) (hl : fs.length ≤ 19) (hp : 0 < d.seconds)
    (hr : Ieee.rnd (printed ds (some fs)) = d.seconds) :
    fromStr (Ieee.ops sh) p (display (Ieee.ops sh) d) = .ok d := by
  have hg : (Ieee.ops sh).gtZero d.seconds = true := decide_eq_true hp
  rw [(C13_display_parse (Ieee.ops sh) p d ds (some fs) hu fun _ =>
    ⟨hsh, hds, by rw [h0]; decide, fun _ e => by cases e; exact ⟨hfs, hl⟩⟩).2, if_pos hg]
  have : rereadSeconds (Ieee.ops sh) ds (some fs) = d.seconds := by
    rw [← hr, printed, rereadSeconds, h0, seconds_below_one h1 (by omega), Nat.cast_zero, zero_add]
  rw [this]

/-- A quarter of a second. -/
example : decimalText [0] (some [2, 5]) = "0.25".toList ∧ Digits1 [0] ∧ Digits1 [2, 5] ∧ decVal [0] = 0 ∧
    decVal [2, 5] ≤ 2 ^ 53 ∧ Ieee.rnd (printed [0] (some [2, 5])) = 1 / 4 :=
  ⟨by decide, ⟨by simp, by simp [Digits]⟩, ⟨by simp, by simp [Digits]⟩, by decide, by decide, by
    rw [show printed [0] (some [2, 5]) = 1 / 4 by simp only [printed]; norm_num [decVal]]; decide +kernel⟩

/-- **C13** In general the seconds are read back with a relative error of at most 2^-49, if the digits written identify
the number and fit into the counters. -/
theorem C13_roundtrip_close (sh : Rat → Str) (p : Profile) (d : Duration Rat) (ds : List Nat) (f : Option (List Nat))
    (hu : d.years < 2 ^ 64 ∧ d.months < 2 ^ 64 ∧ d.days < 2 ^ 64 ∧ d.hours < 2 ^ 64 ∧ d.minutes < 2 ^ 64)
    (hsh : sh d.seconds = decimalText ds f) (hds : Digits1 ds) (hf : ∀ fs, f = some fs → Digits1 fs ∧ fs.length ≤ 19)
    (h1 : decVal ds < 2 ^ 64) (hp : 0 < d.seconds) (hr : Ieee.rnd (printed ds f) = d.seconds) :
    ∃ x, fromStr (Ieee.ops sh) p (display (Ieee.ops sh) d) = .ok { d with seconds := x } ∧
      |x - d.seconds| ≤ d.seconds / 2 ^ 49 := by
  have hg : (Ieee.ops sh).gtZero d.seconds = true := decide_eq_true hp
  refine ⟨_, (C13_display_parse (Ieee.ops sh) p d ds f hu fun _ => ⟨hsh, hds, h1, hf⟩).2, ?_⟩
  rw [if_pos hg]
  have herr : |rereadSeconds (Ieee.ops sh) ds f - printed ds f| ≤ printed ds f / 2 ^ 50 := by
    cases f with
    | none =>
      have := seconds_error (decVal ds) 0 1 (by omega)
      simp only [Nat.cast_zero, zero_div, add_zero] at this
      exact this
    | some fs => exact seconds_error (decVal ds) (decVal fs) (10 ^ fs.length) (Nat.pow_pos (by omega))
  have h0 : 0 ≤ printed ds f := by
    cases f with
    | none => exact Nat.cast_nonneg _
    | some fs => unfold printed; positivity
  have hb := rnd_bound h0
  rw [hr] at hb
  generalize rereadSeconds (Ieee.ops sh) ds f = x at herr ⊢
  generalize printed ds f = y at herr hb h0
  rw [abs_le] at herr hb ⊢
  constructor <;> linarith [herr.1, herr.2, hb.1, hb.2]

/-- The number 1.14 does not come back, but a number close to it. -/
example : decimalText [1] (some [1, 4]) = "1.14".toList ∧ Digits1 [1] ∧ Digits1 [1, 4] ∧ decVal [1] < 2 ^ 64 ∧
    0 < Ieee.rnd (114 / 100) ∧ printed [1] (some [1, 4]) = 114 / 100 :=
  ⟨by decide, ⟨by simp, by simp [Digits]⟩, ⟨by simp, by simp [Digits]⟩, by decide, by decide +kernel, by
    simp only [printed]; norm_num [decVal]⟩

/-- **C13** Round trip for binary fractions such as 1.5: if the number and the part after the point have 53 binary digits
and are written exactly, the number is read back exactly. -/
theorem C13_roundtrip_dyadic (sh : Rat → Str) (p : Profile) (d : Duration Rat) (ds fs : List Nat)
    (hu : d.years < 2 ^ 64 ∧ d.months < 2 ^ 64 ∧ d.days < 2 ^ 64 ∧ d.hours < 2 ^ 64 ∧ d.minutes < 2 ^ 64)
    (hsh : sh d.seconds = decimalText ds (some fs)) (hds : Digits1 ds) (hfs : Digits1 fs) (hl : fs.length ≤ 19)
    (h0 : decVal ds ≤ 2 ^ 53) (h1 : decVal fs ≤ 2 ^ 53) (hp : 0 < d.seconds)
    (hr : printed ds (some fs) = d.seconds) (hd : Digits53 d.seconds)
    (hq : Digits53 ((decVal fs : Rat) / (10 ^ fs.length : Nat))) :
    fromStr (Ieee.ops sh) p (display (Ieee.ops sh) d) = .ok d := by
  have hg : (Ieee.ops sh).gtZero d.seconds = true := decide_eq_true hp
  rw [(C13_display_parse (Ieee.ops sh) p d ds (some fs) hu fun _ =>
    ⟨hsh, hds, by omega, fun _ e => by cases e; exact ⟨hfs, hl⟩⟩).2, if_pos hg]
  have : rereadSeconds (Ieee.ops sh) ds (some fs) = d.seconds := by
    show Ieee.rnd (Ieee.rnd (decVal ds) + Ieee.rnd (Ieee.rnd (decVal fs : Nat) / Ieee.rnd (10 ^ fs.length : Nat))) = _
    rw [rnd_exact (by positivity) (digits53_nat h0), rnd_exact (by positivity) (digits53_nat h1),
      rnd_exact (by positivity) (digits53_pow10 (by omega)), rnd_exact (by positivity) hq]
    have : (decVal ds : Rat) + (decVal fs : Rat) / (10 ^ fs.length : Nat) = d.seconds := hr
    rw [this, rnd_exact hp.le hd]
  rw [this]

example : decimalText [1] (some [5]) = "1.5".toList ∧ printed [1] (some [5]) = 3 / 2 ∧ Digits53 (3 / 2) ∧
    Digits53 ((decVal [5] : Rat) / (10 ^ [5].length : Nat)) :=
  ⟨by decide, by simp only [printed]; norm_num [decVal], ⟨3, -1, by decide, by norm_num⟩, ⟨1, -1, by decide, by
    norm_num [decVal]⟩⟩

end Verif.Props
