import Mathlib.Tactic.IntervalCases
import Mathlib.Tactic.FieldSimp
import Mathlib.Tactic.Linarith
import Mathlib.Tactic.NormNum
import Mathlib.Tactic.Positivity
import Mathlib.Tactic.Push
import Mathlib.Order.Compare
import Mathlib.Data.Rat.Cast.Order
import Mathlib.Algebra.Order.Field.Power
import Verif.Lemmas.DateTime
import Verif.Lemmas.Decimal
import Verif.Model.Order
import Verif.Spec.Order
import Verif.Spec.Decimal

/-! # Lemmas: orders -/

namespace Verif.Lemmas.Ord

open Verif Verif.Model Verif.Spec Chrono

/-! ## The calendar -/

theorem monthDays_ge (y : Int) (m : Nat) : 28 ≤ monthDays y m := by
  unfold monthDays maxDay; split_ifs <;> omega

theorem daysInMonth_eq {y : Int} {m : Nat} (h1 : 1 ≤ m) (h2 : m ≤ 12) : daysInMonth y m = monthDays y m := by
  have hl : isLeap y = true ↔ ((y % 4 = 0 ∧ y % 100 ≠ 0) ∨ y % 400 = 0) := by
    unfold isLeap
    simp only [Bool.and_eq_true, Bool.or_eq_true, beq_iff_eq, bne_iff_ne]
    omega
  unfold daysInMonth monthDays maxDay
  by_cases hy : isLeap y = true
  · have hy' := hl.1 hy
    simp only [hy, if_pos hy', if_true]
    interval_cases m <;> simp
  · have hy' := fun h => hy (hl.2 h)
    simp only [hy, if_neg hy']
    interval_cases m <;> simp

theorem yearStart_succ (y : Int) : yearStart (y + 1) = yearStart y +
    ((List.range 12).map fun k => (monthDays y (k + 1) : Int)).sum := by
  have : ((List.range 12).map fun k => (monthDays y (k + 1) : Int)).sum = 337 + (monthDays y 2 : Int) := by
    simp [List.range, List.range.loop, monthDays, maxDay]
    ring
  rw [this]
  unfold yearStart monthDays
  simp only [if_true]
  split_ifs with h
  · push_cast; omega
  · push_cast; omega

theorem dayNumber_next (y : Int) {m : Nat} (h : 1 ≤ m) (d : Nat) :
    dayNumber y (m + 1) d = dayNumber y m d + monthDays y m := by
  unfold dayNumber
  obtain ⟨k, rfl⟩ : ∃ k, m = k + 1 := ⟨m - 1, by omega⟩
  simp only [Nat.add_sub_cancel, List.range_succ, List.map_append, List.sum_append, List.map_cons, List.map_nil,
    List.sum_cons, List.sum_nil]
  omega

theorem dayNumber_year (y : Int) (d : Nat) : dayNumber (y + 1) 1 d = dayNumber y 12 d + 31 := by
  have h12 : dayNumber y 13 d = dayNumber y 12 d + monthDays y 12 := dayNumber_next y (by decide) d
  have : dayNumber (y + 1) 1 d = dayNumber y 13 d := by
    unfold dayNumber
    simp only [yearStart_succ]
    simp
  rw [this, h12]; rfl

theorem dayNumber_day (y : Int) (m d : Nat) : dayNumber y m d = dayNumber y m 0 + d := by
  unfold dayNumber; omega

/-- Months from January of the year 0. -/
def monthIx (y : Int) (m : Nat) : Int := 12 * y + (m - 1)

theorem monthStart_ix {y : Int} {m : Nat} (h1 : 1 ≤ m) (h2 : m ≤ 12) : monthStart (monthIx y m) = dayNumber y m 1 := by
  unfold monthStart monthIx
  have e1 : (12 * y + ((m : Int) - 1)) / 12 = y := by omega
  have e2 : ((12 * y + ((m : Int) - 1)) % 12).toNat + 1 = m := by omega
  rw [e1, e2]

/-- Length of the month with this number. -/
def lengthAt (n : Int) : Nat := monthDays (n / 12) ((n % 12).toNat + 1)

theorem monthStart_succ (n : Int) : monthStart (n + 1) = monthStart n + lengthAt n := by
  unfold monthStart lengthAt
  by_cases h : n % 12 = 11
  · have e1 : (n + 1) / 12 = n / 12 + 1 := by omega
    have e2 : ((n + 1) % 12).toNat + 1 = 1 := by omega
    have e3 : (n % 12).toNat + 1 = 12 := by omega
    rw [e1, e2, e3, dayNumber_year]
    simp [monthDays, maxDay]
  · have e1 : (n + 1) / 12 = n / 12 := by omega
    have e2 : ((n + 1) % 12).toNat + 1 = ((n % 12).toNat + 1) + 1 := by omega
    rw [e1, e2, dayNumber_next _ (by omega)]

theorem monthStart_add (n : Int) (k : Nat) : monthStart n + 28 * k ≤ monthStart (n + k) := by
  induction k with
  | zero => simp
  | succ k ih =>
    have := monthStart_succ (n + k)
    have h28 : 28 ≤ lengthAt (n + k) := monthDays_ge _ _
    push_cast
    rw [← add_assoc, this]
    omega

theorem monthStart_lt {a b : Int} (h : a < b) : monthStart a + 28 ≤ monthStart b := by
  obtain ⟨k, rfl⟩ : ∃ k : Nat, b = a + k := ⟨(b - a).toNat, by omega⟩
  have := monthStart_add a k
  omega

theorem monthStart_next_le {a b : Int} (h : a < b) : monthStart a + lengthAt a ≤ monthStart b := by
  rw [← monthStart_succ]
  obtain ⟨k, rfl⟩ : ∃ k : Nat, b = (a + 1) + k := ⟨(b - (a + 1)).toNat, by omega⟩
  have := monthStart_add (a + 1) k
  omega

/-! ## Comparing pairs -/

theorem lex_compare {α β γ : Type} [LinearOrder α] [LinearOrder β] [LinearOrder γ] {a b : α} {a' b' : β} {x y : γ}
    (hlt : a < b → x < y) (hgt : b < a → y < x) (heq : a = b → (a' < b' ↔ x < y) ∧ (b' < a' ↔ y < x)) :
    (compare a b).then (compare a' b') = compare x y := by
  rcases lt_trichotomy a b with h | h | h
  · rw [compare_lt_iff_lt.2 h, compare_lt_iff_lt.2 (hlt h)]; rfl
  · rw [compare_eq_iff_eq.2 h]
    obtain ⟨h1, h2⟩ := heq h
    change compare a' b' = _
    rcases lt_trichotomy a' b' with h' | h' | h'
    · rw [compare_lt_iff_lt.2 h', compare_lt_iff_lt.2 (h1.1 h')]
    · have : x = y := by
        rcases lt_trichotomy x y with h3 | h3 | h3
        · exact absurd (h1.2 h3) (by rw [h']; exact lt_irrefl _)
        · exact h3
        · exact absurd (h2.2 h3) (by rw [h']; exact lt_irrefl _)
      rw [compare_eq_iff_eq.2 h', compare_eq_iff_eq.2 this]
    · rw [compare_gt_iff_gt.2 h', compare_gt_iff_gt.2 (h2.1 h')]
  · rw [compare_gt_iff_gt.2 h, compare_gt_iff_gt.2 (hgt h)]; rfl

theorem compare_of_iff {α β : Type} [LinearOrder α] [LinearOrder β] {a b : α} {x y : β} (h1 : a < b ↔ x < y)
    (h2 : b < a ↔ y < x) : compare a b = compare x y := by
  rcases lt_trichotomy a b with h | h | h
  · rw [compare_lt_iff_lt.2 h, compare_lt_iff_lt.2 (h1.1 h)]
  · have : x = y := le_antisymm (not_lt.1 fun h' => absurd (h2.2 h') (by rw [h]; exact lt_irrefl _))
      (not_lt.1 fun h' => absurd (h1.2 h') (by rw [h]; exact lt_irrefl _))
    rw [compare_eq_iff_eq.2 h, compare_eq_iff_eq.2 this]
  · rw [compare_gt_iff_gt.2 h, compare_gt_iff_gt.2 (h2.1 h)]

theorem compare_cast (a b : Nat) : compare a b = compare (a : Int) b := compare_of_iff (by omega) (by omega)

/-- The number of a date. -/
def num (x : NaiveDate) : Int := dayNumber x.year x.month x.day

def Valid (x : NaiveDate) : Prop := 1 ≤ x.month ∧ x.month ≤ 12 ∧ 1 ≤ x.day ∧ x.day ≤ monthDays x.year x.month

theorem valid_iff (x : NaiveDate) : Valid x ↔ ValidDate x.year x.month x.day := by
  rw [← Chr.daysInMonth_iff]
  constructor
  · rintro ⟨h1, h2, h3, h4⟩; exact ⟨h1, h2, h3, by rwa [daysInMonth_eq h1 h2]⟩
  · rintro ⟨h1, h2, h3, h4⟩; exact ⟨h1, h2, h3, by rwa [daysInMonth_eq h1 h2] at h4⟩

theorem num_eq {x : NaiveDate} (h : Valid x) : num x = monthStart (monthIx x.year x.month) + (x.day - 1) := by
  rw [monthStart_ix h.1 h.2.1, num, dayNumber_day, dayNumber_day _ _ 1]; omega

theorem lengthAt_ix {y : Int} {m : Nat} (h1 : 1 ≤ m) (h2 : m ≤ 12) : lengthAt (monthIx y m) = monthDays y m := by
  unfold lengthAt monthIx
  have e1 : (12 * y + ((m : Int) - 1)) / 12 = y := by omega
  have e2 : ((12 * y + ((m : Int) - 1)) % 12).toNat + 1 = m := by omega
  rw [e1, e2]

theorem num_lt {x y : NaiveDate} (hx : Valid x) (hy : Valid y)
    (h : monthIx x.year x.month < monthIx y.year y.month) : num x < num y := by
  have := monthStart_next_le h
  rw [lengthAt_ix hx.1 hx.2.1] at this
  rw [num_eq hx, num_eq hy]
  obtain ⟨-, -, h3, h4⟩ := hx
  obtain ⟨-, -, h5, -⟩ := hy
  omega

theorem date_cmp {x y : NaiveDate} (hx : Valid x) (hy : Valid y) : x.cmp y = compare (num x) (num y) := by
  have hlt : ∀ {x y : NaiveDate}, Valid x → Valid y → x.year < y.year → num x < num y := by
    intro x y hx hy h
    refine num_lt hx hy ?_
    obtain ⟨h1, h2, -, -⟩ := hx
    obtain ⟨h3, h4, -, -⟩ := hy
    unfold monthIx; omega
  have hm : ∀ {x y : NaiveDate}, Valid x → Valid y → x.year = y.year → x.month < y.month → num x < num y := by
    intro x y hx hy h h'
    refine num_lt hx hy ?_
    unfold monthIx; omega
  have inner : x.year = y.year → (compare x.month y.month).then (compare x.day y.day) = compare (num x) (num y) := by
    intro h
    rw [compare_cast, compare_cast]
    refine lex_compare (fun h' => hm hx hy h (by omega)) (fun h' => hm hy hx h.symm (by omega)) ?_
    intro h'
    rw [num_eq hx, num_eq hy]
    have : monthIx x.year x.month = monthIx y.year y.month := by unfold monthIx; omega
    rw [this]
    constructor <;> omega
  unfold NaiveDate.cmp
  rcases lt_trichotomy x.year y.year with h | h | h
  · rw [compare_lt_iff_lt.2 h, compare_lt_iff_lt.2 (hlt hx hy h)]; rfl
  · rw [compare_eq_iff_eq.2 h]; exact inner h
  · rw [compare_gt_iff_gt.2 h, compare_gt_iff_gt.2 (hlt hy hx h)]; rfl

theorem succ_valid {x : NaiveDate} (h : Valid x) : Valid x.succ ∧ num x.succ = num x + 1 := by
  obtain ⟨h1, h2, h3, h4⟩ := h
  unfold NaiveDate.succ num
  rw [daysInMonth_eq h1 h2]
  by_cases hd : x.day < monthDays x.year x.month
  · rw [if_pos hd]
    refine ⟨⟨h1, h2, by simp, Nat.succ_le_of_lt hd⟩, ?_⟩
    dsimp only
    rw [dayNumber_day _ _ (x.day + 1), dayNumber_day _ _ x.day]; push_cast; omega
  · rw [if_neg hd]
    by_cases hm : x.month < 12
    · rw [if_pos hm]
      have h28 := monthDays_ge x.year (x.month + 1)
      refine ⟨⟨by simp, Nat.succ_le_of_lt hm, le_refl _, by simp; omega⟩, ?_⟩
      dsimp only
      rw [dayNumber_next _ h1, dayNumber_day _ _ 1, dayNumber_day _ _ x.day]
      push_cast; omega
    · rw [if_neg hm]
      have h28 := monthDays_ge (x.year + 1) 1
      refine ⟨⟨le_refl _, by simp, le_refl _, by simp; omega⟩, ?_⟩
      have e : x.month = 12 := by omega
      have e31 : monthDays x.year 12 = 31 := by simp [monthDays, maxDay]
      rw [e, e31] at h4 hd
      dsimp only
      rw [dayNumber_year, e, dayNumber_day _ _ 1, dayNumber_day _ _ x.day]
      push_cast; omega

theorem pred_valid {x : NaiveDate} (h : Valid x) : Valid x.pred ∧ num x.pred = num x - 1 := by
  obtain ⟨h1, h2, h3, h4⟩ := h
  unfold NaiveDate.pred num
  by_cases hd : 1 < x.day
  · rw [if_pos hd]
    refine ⟨⟨h1, h2, by simp; omega, by simp; omega⟩, ?_⟩
    dsimp only
    rw [dayNumber_day _ _ (x.day - 1), dayNumber_day _ _ x.day]; omega
  · rw [if_neg hd]
    have e1 : x.day = 1 := by omega
    by_cases hm : 1 < x.month
    · rw [if_pos hm, daysInMonth_eq (by omega) (by omega)]
      have h28 := monthDays_ge x.year (x.month - 1)
      refine ⟨⟨by simp; omega, by simp; omega, by simp; omega, le_refl _⟩, ?_⟩
      obtain ⟨k, hk⟩ : ∃ k, x.month = k + 1 := ⟨x.month - 1, by omega⟩
      dsimp only
      rw [hk, e1, dayNumber_next _ (by omega), Nat.add_sub_cancel, dayNumber_day _ _ 1,
        dayNumber_day _ _ (monthDays _ _)]
      omega
    · rw [if_neg hm]
      have e : x.month = 1 := by omega
      have e31 : monthDays (x.year - 1) 12 = 31 := by simp [monthDays, maxDay]
      refine ⟨⟨by simp, by simp, by simp, by simp [e31]⟩, ?_⟩
      have := dayNumber_year (x.year - 1) 1
      rw [sub_add_cancel] at this
      dsimp only
      rw [e, e1, this, dayNumber_day _ _ 1, dayNumber_day _ _ 31]
      omega

/-- Seconds on the time line. -/
def secondsOf (x : CDateTime) : Int :=
  timeline x.date.year x.date.month x.date.day x.time.hour x.time.minute x.time.second x.offset

theorem utc_spec {x : CDateTime} (hd : Valid x.date) (hs : x.time.secs < 86400)
    (ho : (-86400 : Int) < x.offset ∧ x.offset < (86400 : Int)) :
    Valid x.utc.1 ∧ 86400 * num x.utc.1 + x.utc.2.1 = secondsOf x ∧ 0 ≤ x.utc.2.1 ∧ x.utc.2.1 < 86400 ∧
      x.utc.2.2 = x.time.nano := by
  have e : secondsOf x = 86400 * num x.date + x.time.secs - x.offset := by
    unfold secondsOf timeline num NaiveTime.secs; push_cast; ring
  rw [e]
  obtain ⟨ho1, ho2⟩ := ho
  have ho3 : LT.lt (α := Int) x.offset 86400 := ho2
  unfold CDateTime.utc
  by_cases h1 : (x.time.secs : Int) - x.offset < 0
  · simp only [h1, if_true]
    obtain ⟨h2, h3⟩ := pred_valid hd
    refine ⟨h2, ?_, by omega, by omega, trivial⟩
    rw [h3]; omega
  · simp only [h1, if_false]
    by_cases h4 : 86400 ≤ (x.time.secs : Int) - x.offset
    · simp only [h4, if_true]
      obtain ⟨h2, h3⟩ := succ_valid hd
      refine ⟨h2, ?_, by omega, by omega, trivial⟩
      rw [h3]; omega
    · simp only [h4, if_false]
      exact ⟨hd, by omega, by omega, by omega, trivial⟩

/-- Comparing date-times compares the seconds on the time line, then the fractions. -/
theorem dt_cmp {x y : CDateTime} (hx : Valid x.date) (hxs : x.time.secs < 86400)
    (hxo : (-86400 : Int) < x.offset ∧ x.offset < (86400 : Int)) (hy : Valid y.date) (hys : y.time.secs < 86400)
    (hyo : (-86400 : Int) < y.offset ∧ y.offset < (86400 : Int)) :
    x.cmp y = (compare (secondsOf x) (secondsOf y)).then (compare x.time.nano y.time.nano) := by
  obtain ⟨h1, h2, h3, h4, h5⟩ := utc_spec hx hxs hxo
  obtain ⟨k1, k2, k3, k4, k5⟩ := utc_spec hy hys hyo
  unfold CDateTime.cmp
  rw [date_cmp h1 k1, h5, k5, ← Ordering.then_assoc]
  congr 1
  refine lex_compare (by omega) (by omega) ?_
  intro h
  constructor <;> omega

/-! ## Decimals -/

theorem decQ_lift (v s t : Int) (h : s ≤ t) : decQ v s = decQ (v * 10 ^ (t - s).toNat) t := by
  unfold decQ
  obtain ⟨k, rfl⟩ : ∃ k : Nat, t = s + k := ⟨(t - s).toNat, by omega⟩
  have e : (s + (k : Int) - s).toNat = k := by omega
  rw [e]
  push_cast
  rw [neg_add, zpow_add₀ (by norm_num), zpow_neg (10 : ℚ) (k : Int), zpow_natCast]
  field_simp

theorem decQ_compare (v w s : Int) : compare v w = compare (decQ v s) (decQ w s) := by
  have hp : (0 : ℚ) < 10 ^ (-s) := zpow_pos (by norm_num) _
  unfold decQ
  refine compare_of_iff ?_ ?_
  · rw [mul_lt_mul_iff_left₀ hp, Int.cast_lt]
  · rw [mul_lt_mul_iff_left₀ hp, Int.cast_lt]

theorem dec_cmp (a b : BigDecimal.Dec) :
    BigDecimal.cmp a b = compare (decQ a.int a.scale) (decQ b.int b.scale) := by
  unfold BigDecimal.cmp
  split_ifs with h
  · rw [decQ_lift a.int _ _ h, decQ_compare _ _ b.scale]
  · rw [decQ_lift b.int _ _ (le_of_not_ge h), decQ_compare _ _ a.scale]

/-! ## Durations -/

/-- Total months, without the sign. -/
def totalMonths (d : Duration Rat) : Nat := 12 * d.years + d.months

/-- Total seconds, without the sign. -/
def totalSecs (d : Duration Rat) : Rat := 86400 * d.days + 3600 * d.hours + 60 * d.minutes + d.seconds

/-- Comparison of numbers which are not NaN. -/
def ratCmp (a b : Rat) : Option Ordering := some (compare a b)

/-- Every component but the years stays below the next larger one (days: below the shortest month). -/
structure Normal (d : Duration Rat) : Prop where
  months : d.months < 12
  days : d.days < 28
  hours : d.hours < 24
  minutes : d.minutes < 60
  nonneg : 0 ≤ d.seconds
  seconds : d.seconds < 60

theorem cmpThen_some (a b : Ordering) : cmpThen (some a) (some b) = some (a.then b) := by cases a <;> rfl

theorem step (a b k : Nat) (x y : Rat) (hx : 0 ≤ x) (hx' : x < k) (hy : 0 ≤ y) (hy' : y < k) :
    (compare a b).then (compare x y) = compare ((k : Rat) * a + x) (k * b + y) := by
  have key : ∀ {a b : Nat} {x y : Rat}, x < k → 0 ≤ y → a < b → (k : Rat) * a + x < k * b + y := by
    intro a b x y hx hy h
    have h1 : ((a + 1 : Nat) : Rat) ≤ b := by exact_mod_cast h
    have h2 : (k : Rat) * (a + 1 : Nat) ≤ k * b := mul_le_mul_of_nonneg_left h1 (by positivity)
    push_cast at h2
    linarith
  refine lex_compare (key hx' hy) (key hy' hx) ?_
  rintro rfl
  constructor <;> constructor <;> intro h <;> linarith

theorem totalSecs_bounds {d : Duration Rat} (h : Normal d) : 0 ≤ totalSecs d ∧ totalSecs d < 28 * 86400 := by
  have h1 : ((d.days + 1 : Nat) : Rat) ≤ (28 : Nat) := by exact_mod_cast h.days
  have h2 : ((d.hours + 1 : Nat) : Rat) ≤ (24 : Nat) := by exact_mod_cast h.hours
  have h3 : ((d.minutes + 1 : Nat) : Rat) ≤ (60 : Nat) := by exact_mod_cast h.minutes
  have := h.nonneg
  have := h.seconds
  push_cast at h1 h2 h3
  unfold totalSecs
  constructor
  · positivity
  · linarith

/-- The derived comparison of normal durations: the sign, then the months, then the seconds. -/
theorem normal_cmp {a b : Duration Rat} (ha : Normal a) (hb : Normal b) : a.partialCmp ratCmp b =
    some ((boolCmp a.isNegative b.isNegative).then
      ((compare (totalMonths a) (totalMonths b)).then (compare (totalSecs a) (totalSecs b)))) := by
  unfold Duration.partialCmp ratCmp
  simp only [cmpThen_some, Ordering.then_eq]
  congr 2
  rw [← Ordering.then_assoc]
  have hm : (compare a.years b.years).then (compare a.months b.months) = compare (totalMonths a) (totalMonths b) := by
    have := ha.months
    have := hb.months
    unfold totalMonths
    refine lex_compare (by omega) (by omega) ?_
    intro h
    constructor <;> omega
  rw [hm]
  congr 1
  have hmi : ∀ {d : Duration Rat}, Normal d → 0 ≤ 60 * (d.minutes : Rat) + d.seconds ∧
      60 * (d.minutes : Rat) + d.seconds < 3600 := by
    intro d h
    have h3 : ((d.minutes + 1 : Nat) : Rat) ≤ (60 : Nat) := by exact_mod_cast h.minutes
    have := h.nonneg
    have := h.seconds
    push_cast at h3
    constructor
    · positivity
    · linarith
  have hh : ∀ {d : Duration Rat}, Normal d → 0 ≤ 3600 * (d.hours : Rat) + (60 * (d.minutes : Rat) + d.seconds) ∧
      3600 * (d.hours : Rat) + (60 * (d.minutes : Rat) + d.seconds) < 86400 := by
    intro d h
    have h2 : ((d.hours + 1 : Nat) : Rat) ≤ (24 : Nat) := by exact_mod_cast h.hours
    obtain ⟨h4, h5⟩ := hmi h
    push_cast at h2
    constructor
    · positivity
    · linarith
  have e1 := step a.minutes b.minutes 60 a.seconds b.seconds ha.nonneg (by exact_mod_cast ha.seconds) hb.nonneg
    (by exact_mod_cast hb.seconds)
  have e2 := step a.hours b.hours 3600 _ _ (hmi ha).1 (by exact_mod_cast (hmi ha).2) (hmi hb).1
    (by exact_mod_cast (hmi hb).2)
  have e3 := step a.days b.days 86400 _ _ (hh ha).1 (by exact_mod_cast (hh ha).2) (hh hb).1
    (by exact_mod_cast (hh hb).2)
  push_cast at e1 e2 e3
  rw [e1, e2, e3]
  unfold totalSecs
  congr 1 <;> ring

/-! The order of durations. -/

theorem durLt_of_months {p q : DurVal} (h : p.months < q.months) (hs : p.secs - q.secs < 28 * 86400) : p.Lt q := by
  intro r _
  have h1 := monthStart_lt (a := r + p.months) (b := r + q.months) (by omega)
  have h2 : ((monthStart (r + p.months) + 28 : Int) : Rat) ≤ (monthStart (r + q.months) : Int) := by exact_mod_cast h1
  unfold DurVal.after
  push_cast at h2 ⊢
  linarith

theorem durLt_of_secs {p q : DurVal} (h : p.months = q.months) : (p.Lt q ↔ p.secs < q.secs) ∧ (p.Eq q ↔ p.secs = q.secs) := by
  unfold DurVal.Lt DurVal.Eq DurVal.after
  rw [h]
  constructor
  · constructor
    · intro h'
      have := h' _ (List.mem_cons_self ..)
      linarith
    · intro h' r _; linarith
  · constructor
    · intro h'
      have := h' _ (List.mem_cons_self ..)
      linarith
    · intro h' r _; rw [h']

theorem durLt_asymm {p q : DurVal} (h : p.Lt q) : ¬ q.Lt p ∧ ¬ p.Eq q ∧ ¬ q.Eq p := by
  have h0 := h _ (List.mem_cons_self ..)
  refine ⟨fun h' => ?_, fun h' => ?_, fun h' => ?_⟩
  · have := h' _ (List.mem_cons_self ..); linarith
  · have := h' _ (List.mem_cons_self ..); linarith
  · have := h' _ (List.mem_cons_self ..); linarith

/-- Durations whose seconds differ by less than 28 days. -/
theorem dur_order {p q : DurVal} (h1 : p.secs - q.secs < 28 * 86400) (h2 : q.secs - p.secs < 28 * 86400) :
    (p.Lt q ↔ p.months < q.months ∨ (p.months = q.months ∧ p.secs < q.secs)) ∧
    (p.Eq q ↔ p.months = q.months ∧ p.secs = q.secs) := by
  rcases lt_trichotomy p.months q.months with h | h | h
  · have hl := durLt_of_months h h1
    exact ⟨⟨fun _ => Or.inl h, fun _ => hl⟩, ⟨fun h' => absurd h' (durLt_asymm hl).2.1, fun h' => absurd h'.1 (by omega)⟩⟩
  · obtain ⟨e1, e2⟩ := durLt_of_secs h
    rw [e1, e2]
    exact ⟨⟨fun h' => Or.inr ⟨h, h'⟩, fun h' => h'.elim (fun h'' => absurd h'' (by omega)) (·.2)⟩, ⟨fun h' => ⟨h, h'⟩, (·.2)⟩⟩
  · have hl := durLt_of_months h h2
    refine ⟨⟨fun h' => absurd h' (durLt_asymm hl).1, fun h' => ?_⟩,
      ⟨fun h' => absurd h' (durLt_asymm hl).2.2, fun h' => absurd h'.1 (by omega)⟩⟩
    rcases h' with h' | h' <;> omega

end Verif.Lemmas.Ord
