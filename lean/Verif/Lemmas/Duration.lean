import Verif.Lemmas.Lexical
import Verif.Model.Duration
import Verif.Spec.Duration

/-! # Helper lemmas for durations -/

namespace Verif.Lemmas.Dur

open Verif Verif.Model Verif.Model.Duration Verif.Spec

/-! ### Numbers -/

theorem fit_ne_err (p : Profile) (n : Nat) : U64.fit p n ≠ .err := by
  unfold U64.fit; split
  · simp
  · cases p <;> simp

theorem fit_of_lt (p : Profile) {n : Nat} (h : n < U64.size) : U64.fit p n = .ok n := by
  unfold U64.fit; rw [if_pos h]

theorem fit_release (n : Nat) : U64.fit .release n = .ok (n % U64.size) := by
  unfold U64.fit; split
  · rename_i h; rw [Nat.mod_eq_of_lt h]
  · rfl

theorem fit_debug (n : Nat) : U64.fit .debug n = if n < U64.size then .ok n else .panic := by
  unfold U64.fit; rfl

theorem fit_fit (p : Profile) (n k d : Nat) (hk : 1 ≤ k) :
    ((U64.fit p n).bind fun m => U64.fit p (m * k + d)) = U64.fit p (n * k + d) := by
  cases p with
  | debug =>
    simp only [fit_debug]
    split
    · simp
    · have : n ≤ n * k := Nat.le_mul_of_pos_right n hk
      rw [if_neg (by omega)]; rfl
  | release =>
    simp only [fit_release, Res.ok_bind, Res.ok.injEq]
    rw [Nat.add_mod, Nat.mod_mul_mod, ← Nat.add_mod]

theorem fit_mul_add (p : Profile) (n d : Nat) :
    ((U64.mul p n 10).bind fun m => U64.add p m d) = U64.fit p (n * 10 + d) := by
  unfold U64.mul U64.add
  have := fit_fit p (n * 10) 1 d (by omega)
  simpa using this

theorem readNum_iff {p : Profile} {ds : List Nat} {v : Nat} :
    ReadNum p ds v ↔ U64.fit p (decVal ds) = .ok v := by
  cases p with
  | debug =>
    rw [fit_debug]
    simp only [ReadNum]
    constructor
    · rintro ⟨h, rfl⟩; rw [if_pos h]
    · intro h; split at h
      · rename_i hlt; simp only [Res.ok.injEq] at h; exact ⟨hlt, h.symm⟩
      · simp at h
  | release =>
    rw [fit_release]
    simp only [ReadNum, Res.ok.injEq]
    exact eq_comm

theorem decVal_append (a b : List Nat) : decVal (a ++ b) = decVal a * 10 ^ b.length + decVal b := by
  unfold decVal
  rw [List.foldl_append]
  generalize List.foldl (fun acc d => 10 * acc + d) 0 a = n
  have key : ∀ (b : List Nat) (n : Nat), List.foldl (fun acc d => 10 * acc + d) n b =
      n * 10 ^ b.length + List.foldl (fun acc d => 10 * acc + d) 0 b := by
    intro b
    induction b with
    | nil => intro n; simp
    | cons x b ih =>
      intro n
      simp only [List.foldl_cons, List.length_cons]
      rw [ih (10 * n + x), ih (10 * 0 + x)]
      rw [Nat.pow_succ, Nat.add_mul, Nat.mul_zero, Nat.zero_add]
      have : 10 * n * 10 ^ b.length = n * (10 ^ b.length * 10) := by
        rw [Nat.mul_comm 10 n, Nat.mul_assoc, Nat.mul_comm 10]
      omega
  exact key b n

theorem decVal_cons (x : Nat) (ds : List Nat) : decVal (x :: ds) = x * 10 ^ ds.length + decVal ds := by
  have := decVal_append [x] ds
  simpa [decVal] using this

theorem decVal_lt {ds : List Nat} (h : Digits ds) : decVal ds < 10 ^ ds.length := by
  induction ds with
  | nil => simp [decVal]
  | cons x ds ih =>
    have hx : x < 10 := h x (by simp)
    have := ih (fun d hd => h d (by simp [hd]))
    rw [decVal_cons, List.length_cons, Nat.pow_succ]
    have : x * 10 ^ ds.length ≤ 9 * 10 ^ ds.length := Nat.mul_le_mul_right _ (by omega)
    omega

/-! ### Characters -/

theorem digit_cases {n : Nat} (h : n < 10) :
    digit n ∈ ['0', '1', '2', '3', '4', '5', '6', '7', '8', '9'] := by
  have : n = 0 ∨ n = 1 ∨ n = 2 ∨ n = 3 ∨ n = 4 ∨ n = 5 ∨ n = 6 ∨ n = 7 ∨ n = 8 ∨ n = 9 := by omega
  rcases this with h|h|h|h|h|h|h|h|h|h <;> subst h <;> decide

theorem digitVal_digit {n : Nat} (h : n < 10) : digitVal (digit n) = n := by
  have : n = 0 ∨ n = 1 ∨ n = 2 ∨ n = 3 ∨ n = 4 ∨ n = 5 ∨ n = 6 ∨ n = 7 ∨ n = 8 ∨ n = 9 := by omega
  rcases this with h|h|h|h|h|h|h|h|h|h <;> subst h <;> decide

theorem isDigit_of_ascii {c : Char} (h : Str.isAsciiDigit c = true) : ∃ n, n < 10 ∧ c = digit n := by
  obtain ⟨d, hd, rfl⟩ := Str.isAsciiDigit_iff_digitChar.1 h
  exact ⟨d, hd, (spec_digit_eq hd).symm⟩

/-- Split a text after its leading digits. -/
theorem tokenize (cs : Str) : ∃ ds rest, Digits ds ∧ cs = dtext ds ++ rest ∧
    (rest = [] ∨ ∃ c r, rest = c :: r ∧ Str.isAsciiDigit c = false) := by
  induction cs with
  | nil => exact ⟨[], [], by simp [Digits], rfl, Or.inl rfl⟩
  | cons c cs ih =>
    by_cases hc : Str.isAsciiDigit c = true
    · obtain ⟨n, hn, rfl⟩ := isDigit_of_ascii hc
      obtain ⟨ds, rest, h1, rfl, h3⟩ := ih
      refine ⟨n :: ds, rest, ?_, rfl, h3⟩
      intro d hd
      rcases List.mem_cons.1 hd with rfl | hd
      · exact hn
      · exact h1 d hd
    · exact ⟨[], c :: cs, by simp [Digits], rfl, Or.inr ⟨c, cs, rfl, by simpa using hc⟩⟩

variable {F : Type} (o : FloatOps F) (p : Profile)

/-- The loop once the position no longer matters. -/
def body : Duration F × Ctx → Str → Res (Duration F × Ctx)
  | st, [] => .ok st
  | st, ch :: cs => (step o p 2 st ch).bind fun st => body st cs

/-- Rest of the parse after the `P`. -/
def run (st : Duration F × Ctx) (cs : Str) : Res (Duration F) := (body o p st cs).bind finish

theorem run_nil (st : Duration F × Ctx) : run o p st [] = finish st := rfl

theorem run_cons (st : Duration F × Ctx) (c : Char) (cs : Str) :
    run o p st (c :: cs) = (step o p 2 st c).bind fun st => run o p st cs := by
  show ((step o p 2 st c).bind fun st => body o p st cs).bind finish = _
  cases step o p 2 st c <;> rfl

theorem step_digit_num (d : Duration F) (c : Ctx) (hc : c.dotFound = false) {n i : Nat} (hn : n < 10) :
    step o p i (d, c) (digit n) =
      (U64.fit p (c.number * 10 + n)).bind fun m => .ok (d, { c with number := m, numberEmpty := false }) := by
  have hne : ∀ x, Str.isAsciiDigit x = false → digit n ≠ x := fun x hx => digit_ne_of hn hx
  have hd : Str.isAsciiDigit (digit n) = true := isAsciiDigit_spec hn
  unfold step
  simp only [hne '-' (by decide), hne 'P' (by decide), hne 'T' (by decide), hne 'Y' (by decide),
    hne 'M' (by decide), hne 'D' (by decide), hne 'H' (by decide), hne 'S' (by decide),
    hne '.' (by decide), hd, hc, if_false, not_true_eq_false, digitVal_digit hn, Bool.false_eq_true]
  rw [← fit_mul_add]
  cases U64.mul p c.number 10 <;> rfl

theorem step_digit_frac (d : Duration F) (c : Ctx) (hc : c.dotFound = true) {n i : Nat} (hn : n < 10) :
    step o p i (d, c) (digit n) =
      (U64.fit p (c.numer * 10 + n)).bind fun a => (U64.fit p (c.denom * 10)).bind fun b =>
        .ok (d, { c with numer := a, denom := b }) := by
  have hne : ∀ x, Str.isAsciiDigit x = false → digit n ≠ x := fun x hx => digit_ne_of hn hx
  have hd : Str.isAsciiDigit (digit n) = true := isAsciiDigit_spec hn
  unfold step
  simp only [hne '-' (by decide), hne 'P' (by decide), hne 'T' (by decide), hne 'Y' (by decide),
    hne 'M' (by decide), hne 'D' (by decide), hne 'H' (by decide), hne 'S' (by decide),
    hne '.' (by decide), hd, hc, if_false, if_true, not_true_eq_false, digitVal_digit hn]
  rw [← fit_mul_add]
  cases U64.mul p c.numer 10 <;> rfl

/-- Reading a run of digits of a whole number. -/
theorem run_num (d : Duration F) (c : Ctx) (hc : c.dotFound = false) {ds : List Nat} (hd : Digits ds)
    (hlt : c.number < U64.size) (rest : Str) :
    run o p (d, c) (dtext ds ++ rest) =
      (U64.fit p (c.number * 10 ^ ds.length + decVal ds)).bind fun m =>
        run o p (d, { c with number := m, numberEmpty := c.numberEmpty && ds.isEmpty }) rest := by
  induction ds generalizing c with
  | nil =>
    simp only [dtext, List.map_nil, List.nil_append, List.length_nil, Nat.pow_zero, Nat.mul_one, decVal,
      List.foldl_nil, Nat.add_zero, List.isEmpty_nil, Bool.and_true]
    rw [fit_of_lt p hlt]; rfl
  | cons x ds ih =>
    have hx : x < 10 := hd x (by simp)
    have hds : Digits ds := fun d hd' => hd d (by simp [hd'])
    have e : dtext (x :: ds) ++ rest = digit x :: (dtext ds ++ rest) := rfl
    rw [e, run_cons, step_digit_num o p d c hc hx]
    have key : c.number * 10 ^ (x :: ds).length + decVal (x :: ds) =
        (c.number * 10 + x) * 10 ^ ds.length + decVal ds := by
      rw [decVal_cons, List.length_cons, Nat.pow_succ, Nat.add_mul, Nat.mul_assoc,
        Nat.mul_comm (10 ^ ds.length) 10]; omega
    rw [key, ← fit_fit p (c.number * 10 + x) (10 ^ ds.length) (decVal ds) (Nat.pow_pos (by omega))]
    cases hf : U64.fit p (c.number * 10 + x) with
    | err => exact absurd hf (fit_ne_err _ _)
    | panic => rfl
    | ok m =>
      have hm : m < U64.size := by
        cases p with
        | debug => rw [fit_debug] at hf; split at hf
                   · simp only [Res.ok.injEq] at hf; omega
                   · simp at hf
        | release => rw [fit_release] at hf; simp only [Res.ok.injEq] at hf
                     rw [← hf]; exact Nat.mod_lt _ (by decide)
      simp only [Res.ok_bind]
      rw [ih { c with number := m, numberEmpty := false } hc hds hm]
      simp

/-- Two 64-bit readings one after the other. -/
def fit2 (a b : Nat) : Res (Nat × Nat) :=
  (U64.fit p a).bind fun a => (U64.fit p b).bind fun b => .ok (a, b)

theorem fit2_ne_err (a b : Nat) : fit2 p a b ≠ .err := by
  unfold fit2
  cases h : U64.fit p a with
  | err => exact absurd h (fit_ne_err _ _)
  | panic => simp
  | ok a =>
    cases h : U64.fit p b with
    | err => exact absurd h (fit_ne_err _ _)
    | panic => simp
    | ok b => simp

theorem fit2_fit2 (a b k x : Nat) (hk : 1 ≤ k) :
    ((fit2 p a b).bind fun q => fit2 p (q.1 * k + x) (q.2 * k)) = fit2 p (a * k + x) (b * k) := by
  unfold fit2
  have h1 := fit_fit p a k x hk
  have h2 := fit_fit p b k 0 hk
  simp only [Nat.add_zero] at h2
  rw [← h1, ← h2]
  cases ha : U64.fit p a with
  | err => exact absurd ha (fit_ne_err _ _)
  | panic => simp
  | ok a' =>
    simp only [Res.ok_bind]
    cases hb : U64.fit p b with
    | err => exact absurd hb (fit_ne_err _ _)
    | panic =>
      simp only [Res.panic_bind]
      cases hc : U64.fit p (a' * k + x) with
      | err => exact absurd hc (fit_ne_err _ _)
      | panic => rfl
      | ok _ => rfl
    | ok b' => rfl

/-- Reading a run of digits of the fraction. -/
theorem run_frac (d : Duration F) (c : Ctx) (hc : c.dotFound = true) {fs : List Nat} (hd : Digits fs)
    (h1 : c.numer < U64.size) (h2 : c.denom < U64.size) (rest : Str) :
    run o p (d, c) (dtext fs ++ rest) =
      (fit2 p (c.numer * 10 ^ fs.length + decVal fs) (c.denom * 10 ^ fs.length)).bind fun q =>
        run o p (d, { c with numer := q.1, denom := q.2 }) rest := by
  induction fs generalizing c with
  | nil =>
    simp only [dtext, List.map_nil, List.nil_append, List.length_nil, Nat.pow_zero, Nat.mul_one, decVal,
      List.foldl_nil, Nat.add_zero, fit2]
    rw [fit_of_lt p h1, Res.ok_bind, fit_of_lt p h2]; rfl
  | cons x fs ih =>
    have hx : x < 10 := hd x (by simp)
    have hds : Digits fs := fun d hd' => hd d (by simp [hd'])
    have e : dtext (x :: fs) ++ rest = digit x :: (dtext fs ++ rest) := rfl
    rw [e, run_cons, step_digit_frac o p d c hc hx]
    have key : c.numer * 10 ^ (x :: fs).length + decVal (x :: fs) =
        (c.numer * 10 + x) * 10 ^ fs.length + decVal fs := by
      rw [decVal_cons, List.length_cons, Nat.pow_succ, Nat.add_mul, Nat.mul_assoc,
        Nat.mul_comm (10 ^ fs.length) 10]; omega
    have key2 : c.denom * 10 ^ (x :: fs).length = c.denom * 10 * 10 ^ fs.length := by
      rw [List.length_cons, Nat.pow_succ, Nat.mul_assoc, Nat.mul_comm (10 ^ fs.length) 10]
    rw [key, key2, ← fit2_fit2 p _ _ _ _ (Nat.pow_pos (by omega))]
    have hbnd : ∀ n m, U64.fit p n = .ok m → m < U64.size := by
      intro n m hf
      cases p with
      | debug => rw [fit_debug] at hf; split at hf
                 · simp only [Res.ok.injEq] at hf; omega
                 · simp at hf
      | release => rw [fit_release] at hf; simp only [Res.ok.injEq] at hf
                   rw [← hf]; exact Nat.mod_lt _ (by decide)
    unfold fit2
    cases hf : U64.fit p (c.numer * 10 + x) with
    | err => exact absurd hf (fit_ne_err _ _)
    | panic => rfl
    | ok a =>
      simp only [Res.ok_bind]
      cases hg : U64.fit p (c.denom * 10) with
      | err => exact absurd hg (fit_ne_err _ _)
      | panic => rfl
      | ok b =>
        simp only [Res.ok_bind]
        rw [ih { c with numer := a, denom := b } hc hds (hbnd _ _ hf) (hbnd _ _ hg)]
        rfl

theorem readFrac_iff {fs : List Nat} (hd : Digits fs) {a b : Nat} :
    ReadFrac p fs a b ↔ fit2 p (decVal fs) (10 ^ fs.length) = .ok (a, b) := by
  unfold fit2
  cases p with
  | debug =>
    simp only [fit_debug, ReadFrac]
    have hlt := decVal_lt hd
    by_cases hl : fs.length ≤ 19
    · have h19 : (10 : Nat) ^ fs.length ≤ 10 ^ 19 := Nat.pow_le_pow_right (by omega) hl
      have : (10 : Nat) ^ 19 < U64.size := by decide
      rw [if_pos (by omega), if_pos (by omega)]
      simp only [Res.ok_bind, Res.ok.injEq, Prod.mk.injEq, hl, true_and]
      constructor <;> rintro ⟨rfl, rfl⟩ <;> exact ⟨rfl, rfl⟩
    · have h20 : (10 : Nat) ^ 20 ≤ 10 ^ fs.length := Nat.pow_le_pow_right (by omega) (by omega)
      have : U64.size ≤ (10 : Nat) ^ 20 := by decide
      simp only [hl, false_and, false_iff]
      rw [if_neg (show ¬ 10 ^ fs.length < U64.size by omega)]
      split <;> simp
  | release =>
    simp only [fit_release, ReadFrac, Res.ok_bind, Res.ok.injEq, Prod.mk.injEq]
    constructor <;> rintro ⟨rfl, rfl⟩ <;> exact ⟨rfl, rfl⟩

theorem readNum_lt {p : Profile} {ds : List Nat} {v : Nat} (h : ReadNum p ds v) : v < U64.size := by
  cases p with
  | debug => obtain ⟨h, rfl⟩ := h; exact h
  | release => rw [show v = _ from h]; exact Nat.mod_lt _ (by decide)

theorem readFrac_append_left {p : Profile} {fs js : List Nat} {a b : Nat} (h : ReadFrac p (fs ++ js) a b) :
    ∃ a' b', ReadFrac p fs a' b' := by
  cases p with
  | debug =>
    obtain ⟨h, -, -⟩ := h
    exact ⟨_, _, by simp only [List.length_append] at h; omega, rfl, rfl⟩
  | release => exact ⟨_, _, rfl, rfl⟩

end Verif.Lemmas.Dur
