import Verif.Lemmas.Duration

/-! # Duration: exact language of the parser -/

namespace Verif.Lemmas.Dur

open Verif Verif.Model Verif.Model.Duration Verif.Spec

variable {F : Type} (o : FloatOps F) (p : Profile)

/-- The value in seconds computed from whole part, numerator and denominator. -/
def secondsOf : SecParts → F
  | none => o.zero
  | some (n, a, b) => o.add (o.ofU64 n) (o.div (o.ofU64 a) (o.ofU64 b))

/-- Context right after a component, before `T`. -/
def ctxD (l : Int) : Ctx := ⟨true, false, l, 0, true, false, 0, 1⟩
/-- Context right after a component, after `T`. -/
def ctxT (l : Int) : Ctx := ⟨true, true, l, 0, true, false, 0, 1⟩

section steps
variable (d : Duration F) (c : Ctx)

theorem step_minus : step o p 2 (d, c) '-' = .err := by simp [step]
theorem step_P : step o p 2 (d, c) 'P' = .err := by simp [step]
theorem step_T : step o p 2 (d, c) 'T' =
    if c.tFound then .err else if c.number > 0 then .err
    else .ok (d, { c with tFound := true, last := 3 }) := by simp [step]
theorem step_Y : step o p 2 (d, c) 'Y' =
    (fillComponent c 1).bind fun c' => .ok ({ d with years := c.number }, c') := by simp [step]
theorem step_M : step o p 2 (d, c) 'M' =
    if c.tFound then (fillComponent c 5).bind fun c' => .ok ({ d with minutes := c.number }, c')
    else (fillComponent c 2).bind fun c' => .ok ({ d with months := c.number }, c') := by simp [step]
theorem step_D : step o p 2 (d, c) 'D' =
    (fillComponent c 3).bind fun c' => .ok ({ d with days := c.number }, c') := by simp [step]
theorem step_H : step o p 2 (d, c) 'H' =
    if ¬ c.tFound = true then .err
    else (fillComponent c 4).bind fun c' => .ok ({ d with hours := c.number }, c') := by simp [step]
theorem step_S : step o p 2 (d, c) 'S' =
    if ¬ c.tFound = true then .err
    else (fillSeconds o c).bind fun x => .ok ({ d with seconds := x.1 }, x.2) := by simp [step]
theorem step_dot : step o p 2 (d, c) '.' =
    if c.dotFound then .err else if c.numberEmpty then .err else .ok (d, { c with dotFound := true }) := by
  simp [step]
theorem step_other {ch : Char} (h1 : ch ≠ 'T') (h2 : ch ≠ 'Y') (h3 : ch ≠ 'M')
    (h4 : ch ≠ 'D') (h5 : ch ≠ 'H') (h6 : ch ≠ 'S') (h7 : ch ≠ '.') (h8 : Str.isAsciiDigit ch = false) :
    step o p 2 (d, c) ch = .err := by
  simp [step, h1, h2, h3, h4, h5, h6, h7, h8]

end steps

theorem fillComponent_ok {c c' : Ctx} {idx : Int} : fillComponent c idx = .ok c' ↔
    c.numberEmpty = false ∧ c.dotFound = false ∧ c.last < idx ∧
      c' = { c with last := idx, number := 0, numberEmpty := true } := by
  unfold fillComponent
  cases c.numberEmpty <;> cases c.dotFound <;> simp [eq_comm]
  · split
    · simp; omega
    · simp; omega

theorem fillSeconds_ok {c : Ctx} {x : F × Ctx} : fillSeconds o c = .ok x ↔
    c.numberEmpty = false ∧ ¬ (c.dotFound = true ∧ c.denom = 1) ∧ c.last < 6 ∧
      x = (o.add (o.ofU64 c.number) (o.div (o.ofU64 c.numer) (o.ofU64 c.denom)),
        { c with last := 6, number := 0, numberEmpty := true }) := by
  unfold fillSeconds
  cases c.numberEmpty
  · simp only [Bool.false_eq_true, if_false, true_and]
    by_cases h : c.dotFound = true ∧ c.denom = 1
    · rw [if_pos h]; simp [h]
    · rw [if_neg h]
      by_cases h6 : c.last ≥ 6
      · rw [if_pos h6]; simp; intro _ h'; omega
      · rw [if_neg h6]
        simp only [Res.ok.injEq, h, not_false_eq_true, true_and]
        constructor
        · rintro rfl; exact ⟨by omega, rfl⟩
        · rintro ⟨_, rfl⟩; rfl
  · simp

/-- After a fraction only digits may follow until the end or the `S`. -/
theorem run_num0 (d : Duration F) (c : Ctx) (hc : c.dotFound = false) (h0 : c.number = 0)
    (he : c.numberEmpty = true) {ds : List Nat} (hd : Digits ds) (rest : Str) :
    run o p (d, c) (dtext ds ++ rest) =
      (U64.fit p (decVal ds)).bind fun m =>
        run o p (d, { c with number := m, numberEmpty := ds.isEmpty }) rest := by
  rw [run_num o p d c hc hd (by rw [h0]; decide)]
  simp [h0, he]

theorem run_frac0 (d : Duration F) (c : Ctx) (hc : c.dotFound = true) (h0 : c.numer = 0) (h1 : c.denom = 1)
    {fs : List Nat} (hd : Digits fs) (rest : Str) :
    run o p (d, c) (dtext fs ++ rest) =
      (fit2 p (decVal fs) (10 ^ fs.length)).bind fun q =>
        run o p (d, { c with numer := q.1, denom := q.2 }) rest := by
  rw [run_frac o p d c hc hd (by rw [h0]; decide) (by rw [h1]; decide)]
  simp [h0, h1]

theorem fit2_append {fs js : List Nat} {q : Nat × Nat}
    (h : fit2 p (decVal fs) (10 ^ fs.length) = .ok q) :
    fit2 p (q.1 * 10 ^ js.length + decVal js) (q.2 * 10 ^ js.length) =
      fit2 p (decVal (fs ++ js)) (10 ^ (fs ++ js).length) := by
  have := fit2_fit2 p (decVal fs) (10 ^ fs.length) (10 ^ js.length) (decVal js) (Nat.pow_pos (by omega))
  rw [h, Res.ok_bind] at this
  rw [this, decVal_append, List.length_append, Nat.pow_add]

theorem fit2_lt {a b : Nat} {q : Nat × Nat} (h : fit2 p a b = .ok q) : q.1 < U64.size ∧ q.2 < U64.size := by
  unfold fit2 at h
  rw [Res.bind_eq_ok] at h
  obtain ⟨x, hx, h⟩ := h
  rw [Res.bind_eq_ok] at h
  obtain ⟨y, hy, h⟩ := h
  simp only [Res.ok.injEq] at h
  have key : ∀ n m, U64.fit p n = .ok m → m < U64.size := by
    intro n m hf
    cases p with
    | debug => rw [fit_debug] at hf; split at hf
               · simp only [Res.ok.injEq] at hf; omega
               · simp at hf
    | release => rw [fit_release] at hf; simp only [Res.ok.injEq] at hf
                 rw [← hf]; exact Nat.mod_lt _ (by decide)
  rw [← h]
  exact ⟨key _ _ hx, key _ _ hy⟩

/-- The denominator after reading `fs` is 1 only when `fs` is empty. -/
theorem denom_eq_one {fs : List Nat} {q : Nat × Nat}
    (h : fit2 p (decVal fs) (10 ^ fs.length) = .ok q) : q.2 = 1 ↔ fs = [] := by
  unfold fit2 at h
  rw [Res.bind_eq_ok] at h
  obtain ⟨x, hx, h⟩ := h
  rw [Res.bind_eq_ok] at h
  obtain ⟨y, hy, h⟩ := h
  simp only [Res.ok.injEq] at h
  rw [← h]
  cases fs with
  | nil =>
    simp only [List.length_nil, Nat.pow_zero, iff_true] at hy ⊢
    rw [fit_of_lt p (by decide)] at hy
    simp only [Res.ok.injEq] at hy; exact hy.symm
  | cons f fs =>
    simp only [reduceCtorEq, iff_false]
    intro h1
    subst h1
    have h2 : (10 ^ (fs.length + 1)) % 2 = 0 := by
      rw [Nat.pow_succ]; omega
    simp only [List.length_cons] at hy
    cases p with
    | debug =>
      rw [fit_debug] at hy
      split at hy
      · simp only [Res.ok.injEq] at hy; omega
      · simp at hy
    | release =>
      rw [fit_release] at hy
      simp only [Res.ok.injEq] at hy
      have hm := Nat.mod_mod_of_dvd (10 ^ (fs.length + 1)) (show 2 ∣ U64.size by decide)
      rw [hy] at hm
      omega

/-! ### After a dot, before `T` or with no `S` -/

/-- Context with a dot seen. -/
def ctxDot (t : Bool) (l : Int) (n : Nat) (e : Bool) (a b : Nat) : Ctx := ⟨true, t, l, n, e, true, a, b⟩

/-- After the seconds with a fraction: only digits. -/
theorem run_afterFrac (d D : Duration F) (l : Int) (e : Bool) (a b : Nat) (cs : Str) (hl : l = 6) (he : e = true)
    (ha : a < U64.size) (hb : b < U64.size) :
    run o p (d, ctxDot true l 0 e a b) cs = .ok D ↔
      D = d ∧ ∃ js, Digits js ∧ cs = dtext js ∧
        ∃ q, fit2 p (a * 10 ^ js.length + decVal js) (b * 10 ^ js.length) = .ok q := by
  subst hl he
  obtain ⟨js, rest, hj, rfl, hr⟩ := tokenize cs
  rw [run_frac o p d _ rfl hj ha hb]
  simp only [ctxDot]
  constructor
  · intro h
    rw [Res.bind_eq_ok] at h
    obtain ⟨q, hq, h⟩ := h
    rcases hr with rfl | ⟨c, r, rfl, hc⟩
    · rw [run_nil] at h
      simp [finish] at h
      exact ⟨h.symm, js, hj, by simp, q, hq⟩
    · exfalso
      rw [run_cons, Res.bind_eq_ok] at h
      obtain ⟨st, hst, -⟩ := h
      by_cases hT : c = 'T'
      · subst hT; rw [step_T] at hst; simp at hst
      by_cases hY : c = 'Y'
      · subst hY; rw [step_Y] at hst; simp [fillComponent] at hst
      by_cases hM : c = 'M'
      · subst hM; rw [step_M] at hst; simp [fillComponent] at hst
      by_cases hD : c = 'D'
      · subst hD; rw [step_D] at hst; simp [fillComponent] at hst
      by_cases hH : c = 'H'
      · subst hH; rw [step_H] at hst; simp [fillComponent] at hst
      by_cases hS : c = 'S'
      · subst hS; rw [step_S] at hst; simp [fillSeconds] at hst
      by_cases hd : c = '.'
      · subst hd; rw [step_dot] at hst; simp at hst
      rw [step_other o p d _ hT hY hM hD hH hS hd hc] at hst
      simp at hst
  · rintro ⟨rfl, js', hj', he, q, hq⟩
    have hrest : rest = [] := by
      rcases hr with rfl | ⟨c, r, rfl, hc⟩
      · rfl
      · exfalso
        have : c ∈ dtext js' := by rw [← he]; simp
        simp only [dtext, List.mem_map] at this
        obtain ⟨x, hx, rfl⟩ := this
        rw [isAsciiDigit_spec (hj' x hx)] at hc
        exact absurd hc (by decide)
    subst hrest
    have hjj : js = js' := by
      simp only [List.append_nil] at he
      have hinj : ∀ (a b : List Nat), Digits a → Digits b → dtext a = dtext b → a = b := by
        intro a
        induction a with
        | nil => intro b _ _ h; cases b with
          | nil => rfl
          | cons => simp [dtext] at h
        | cons x a ih =>
          intro b hA hB h
          cases b with
          | nil => simp [dtext] at h
          | cons y b =>
            simp only [dtext, List.map_cons, List.cons.injEq] at h
            have hx := hA x (by simp)
            have hy := hB y (by simp)
            have : x = y := by rw [← digitVal_digit hx, ← digitVal_digit hy, h.1]
            subst this
            rw [ih b (fun d hd => hA d (by simp [hd])) (fun d hd => hB d (by simp [hd])) h.2]
      exact hinj js js' hj hj' he
    subst hjj
    rw [hq, Res.ok_bind, run_nil]
    simp [finish]

end Verif.Lemmas.Dur
