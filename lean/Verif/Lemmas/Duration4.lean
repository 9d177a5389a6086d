import Verif.Lemmas.Duration3

/-! # Duration: exact language of the parser, date part and prefix -/

namespace Verif.Lemmas.Dur

open Verif Verif.Model Verif.Model.Duration Verif.Spec

variable {F : Type} (o : FloatOps F) (p : Profile)

/-- What follows the date components: ignored leftover, possibly `T` and a time part. -/
def Rest (l : Int) (ne : Prop) (d D : Duration F) (cs : Str) : Prop :=
  (Junk p cs ∧ (l = 0 → ne) ∧ D = d) ∨
  ∃ z w th tn ts tail h n sec, cs = z ++ 'T' :: w ∧ Junk p z ∧ z ++ w = th ++ tn ++ ts ++ tail ∧
    th ++ tn ++ ts ≠ [] ∧ Comp p 'H' th h ∧ Comp p 'M' tn n ∧ SecTail p ts tail sec ∧
    D = { d with hours := if th = [] then d.hours else h,
                 minutes := if tn = [] then d.minutes else n,
                 seconds := if ts = [] then d.seconds else secondsOf o sec }

theorem date_fwd (N : Nat) : ∀ (cs : Str) (l : Int) (d D : Duration F), cs.length ≤ N → 0 ≤ l → l ≤ 3 →
    run o p (d, ctxD l) cs = .ok D →
    ∃ ty tm td rest y m dd, cs = ty ++ tm ++ td ++ rest ∧ Comp p 'Y' ty y ∧ Comp p 'M' tm m ∧
      Comp p 'D' td dd ∧ (1 ≤ l → ty = []) ∧ (2 ≤ l → tm = []) ∧ (3 ≤ l → td = []) ∧
      Rest o p l (ty ++ tm ++ td ≠ [])
        { d with years := if ty = [] then d.years else y,
                 months := if tm = [] then d.months else m,
                 days := if td = [] then d.days else dd } D rest := by
  induction N with
  | zero =>
    intro cs l d D hN h3 h6 h
    have : cs = [] := List.eq_nil_of_length_eq_zero (by omega)
    subst this
    rw [run_nil] at h
    by_cases hl : l = 0
    · subst hl; simp [finish, ctxD] at h
    · simp [finish, ctxD, hl] at h
      refine ⟨[], [], [], [], 0, 0, 0, rfl, .absent, .absent, .absent, by simp, by simp, by simp,
        Or.inl ⟨.whole [] (by simp [Digits]) ?_, fun e => absurd e hl, by simp [h]⟩⟩
      rw [readNum_iff]; exact fit_of_lt p (by decide)
  | succ N ih =>
    intro cs l d D hN h3 h6 h
    obtain ⟨ds, rest, hd, rfl, hr⟩ := tokenize cs
    have h0 := h
    rw [run_num0 o p d (ctxD l) rfl rfl rfl hd, Res.bind_eq_ok] at h
    obtain ⟨m, hm, h⟩ := h
    have hread : ReadNum p ds m := readNum_iff.2 hm
    simp only [ctxD] at h
    rcases hr with rfl | ⟨c, r, rfl, hc⟩
    · rw [run_nil] at h
      simp only [finish] at h
      by_cases hm0 : m > 0
      · rw [if_pos hm0] at h; simp at h
      · have hm0 : m = 0 := by omega
        subst hm0
        by_cases hl : l = 0
        · subst hl; simp at h
        · rw [if_neg (by omega), if_neg (by simp), if_neg (by omega), if_neg (by simp)] at h
          simp only [Res.ok.injEq] at h
          exact ⟨[], [], [], dtext ds, 0, 0, 0, by simp, .absent, .absent, .absent, by simp, by simp, by simp,
            Or.inl ⟨.whole ds hd hread, fun e => absurd e hl, by simp [h]⟩⟩
    · have hlen : r.length ≤ N := by
        simp only [List.length_append, List.length_cons] at hN; omega
      rw [run_cons, Res.bind_eq_ok] at h
      obtain ⟨st, hst, h⟩ := h
      by_cases hT : c = 'T'
      · subst hT; rw [step_T] at hst
        simp only [Bool.false_eq_true, if_false] at hst
        by_cases hm0 : m > 0
        · rw [if_pos hm0] at hst; simp at hst
        have hm0 : m = 0 := by omega
        subst hm0
        rw [if_neg (by omega)] at hst
        simp only [Res.ok.injEq] at hst
        subst hst
        have hrun : run o p (d, ctxT 3) (dtext ds ++ r) = .ok D := by
          rw [run_num0 o p d (ctxT 3) rfl rfl rfl hd, hm, Res.ok_bind]
          exact h
        obtain ⟨th, tn, ts, tail, hh, nn, sec, e, h1, h2, hs, -, -, -, k3, rfl⟩ :=
          time_fwd o p _ _ 3 d D (Nat.le_refl _) (by omega) (by omega) hrun
        exact ⟨[], [], [], dtext ds ++ 'T' :: r, 0, 0, 0, by simp, .absent, .absent, .absent, by simp, by simp,
          by simp, Or.inr ⟨dtext ds, r, th, tn, ts, tail, hh, nn, sec, rfl, .whole ds hd hread, e, k3 rfl,
            h1, h2, hs, by simp⟩⟩
      by_cases hY : c = 'Y'
      · subst hY; rw [step_Y, Res.bind_eq_ok] at hst
        obtain ⟨c', hc', hst⟩ := hst
        obtain ⟨e1, -, e3, rfl⟩ := fillComponent_ok.1 hc'
        simp only [Res.ok.injEq] at hst
        subst hst
        simp only at e3
        obtain ⟨ty, tm, td, rest, yy, mm, dd, rfl, h1, h2, hh3, k1, k2, k3, hR⟩ :=
          ih r 1 _ D hlen (by omega) (by omega) h
        have := k1 (by omega); subst this
        refine ⟨dtext ds ++ ['Y'], tm, td, rest, m, mm, dd, by simp, .present ds m (isEmpty_false e1) hd hread,
          h2, hh3, by intro; omega, by intro; omega, by intro; omega, ?_⟩
        rcases hR with ⟨hj, -, rfl⟩ | ⟨z, w, th, tn, ts, tail, hh, nn, sec, q1, q2, q3, q4, q5, q6, q7, q8⟩
        · exact Or.inl ⟨hj, by simp, by simp⟩
        · exact Or.inr ⟨z, w, th, tn, ts, tail, hh, nn, sec, q1, q2, q3, q4, q5, q6, q7, by simpa using q8⟩
      by_cases hM : c = 'M'
      · subst hM; rw [step_M] at hst
        simp only [Bool.false_eq_true, if_false] at hst
        rw [Res.bind_eq_ok] at hst
        obtain ⟨c', hc', hst⟩ := hst
        obtain ⟨e1, -, e3, rfl⟩ := fillComponent_ok.1 hc'
        simp only [Res.ok.injEq] at hst
        subst hst
        simp only at e3
        obtain ⟨ty, tm, td, rest, yy, mm, dd, rfl, h1, h2, hh3, k1, k2, k3, hR⟩ :=
          ih r 2 _ D hlen (by omega) (by omega) h
        have := k1 (by omega); subst this
        have := k2 (by omega); subst this
        refine ⟨[], dtext ds ++ ['M'], td, rest, 0, m, dd, by simp, .absent, .present ds m (isEmpty_false e1) hd hread,
          hh3, by simp, by intro; omega, by intro; omega, ?_⟩
        rcases hR with ⟨hj, -, rfl⟩ | ⟨z, w, th, tn, ts, tail, hh, nn, sec, q1, q2, q3, q4, q5, q6, q7, q8⟩
        · exact Or.inl ⟨hj, by simp, by simp⟩
        · exact Or.inr ⟨z, w, th, tn, ts, tail, hh, nn, sec, q1, q2, q3, q4, q5, q6, q7, by simpa using q8⟩
      by_cases hD : c = 'D'
      · subst hD; rw [step_D, Res.bind_eq_ok] at hst
        obtain ⟨c', hc', hst⟩ := hst
        obtain ⟨e1, -, e3, rfl⟩ := fillComponent_ok.1 hc'
        simp only [Res.ok.injEq] at hst
        subst hst
        simp only at e3
        obtain ⟨ty, tm, td, rest, yy, mm, dd, rfl, h1, h2, hh3, k1, k2, k3, hR⟩ :=
          ih r 3 _ D hlen (by omega) (by omega) h
        have := k1 (by omega); subst this
        have := k2 (by omega); subst this
        have := k3 (by omega); subst this
        refine ⟨[], [], dtext ds ++ ['D'], rest, 0, 0, m, by simp, .absent, .absent,
          .present ds m (isEmpty_false e1) hd hread, by simp, by simp, by intro; omega, ?_⟩
        rcases hR with ⟨hj, -, rfl⟩ | ⟨z, w, th, tn, ts, tail, hh, nn, sec, q1, q2, q3, q4, q5, q6, q7, q8⟩
        · exact Or.inl ⟨hj, by simp, by simp⟩
        · exact Or.inr ⟨z, w, th, tn, ts, tail, hh, nn, sec, q1, q2, q3, q4, q5, q6, q7, by simpa using q8⟩
      by_cases hH : c = 'H'
      · subst hH; rw [step_H] at hst; simp at hst
      by_cases hS : c = 'S'
      · subst hS; rw [step_S] at hst; simp at hst
      by_cases hdot : c = '.'
      · subst hdot; rw [step_dot] at hst
        simp only [Bool.false_eq_true, if_false] at hst
        by_cases he : ds.isEmpty = true
        · rw [if_pos he] at hst; simp at hst
        rw [if_neg he] at hst
        simp only [Res.ok.injEq] at hst
        subst hst
        simp only [Bool.not_eq_true] at he
        have hne := isEmpty_false he
        obtain ⟨fs, rest, hf, rfl, hr⟩ := tokenize r
        rw [run_frac0 o p d _ rfl rfl rfl hf, Res.bind_eq_ok] at h
        obtain ⟨q, hq, h⟩ := h
        have hrf : ReadFrac p fs q.1 q.2 := (readFrac_iff p hf).2 hq
        simp only [he] at h
        rcases hr with rfl | ⟨c, r, rfl, hc'⟩
        · rw [run_nil] at h
          simp only [finish] at h
          by_cases hm0 : m > 0
          · rw [if_pos hm0] at h; simp at h
          · have hm0 : m = 0 := by omega
            subst hm0
            by_cases hl : l = 0
            · subst hl; simp at h
            · rw [if_neg (by omega), if_neg (by simp), if_neg (by omega), if_neg (by simp)] at h
              simp only [Res.ok.injEq] at h
              exact ⟨[], [], [], dtext ds ++ '.' :: dtext fs, 0, 0, 0, by simp, .absent, .absent, .absent,
                by simp, by simp, by simp,
                Or.inl ⟨.frac ds fs _ _ hne hd hread hf hrf, fun e => absurd e hl, by simp [h]⟩⟩
        · rw [run_cons, Res.bind_eq_ok] at h
          obtain ⟨st, hst, h⟩ := h
          by_cases hT : c = 'T'
          · subst hT; rw [step_T] at hst
            simp only [Bool.false_eq_true, if_false] at hst
            by_cases hm0 : m > 0
            · rw [if_pos hm0] at hst; simp at hst
            have hm0 : m = 0 := by omega
            subst hm0
            rw [if_neg (by omega)] at hst
            simp only [Res.ok.injEq] at hst
            subst hst
            have hrun : run o p (d, ctxT 3) ((dtext ds ++ '.' :: dtext fs) ++ r) = .ok D := by
              rw [List.append_assoc, run_num0 o p d (ctxT 3) rfl rfl rfl hd, hm, Res.ok_bind, List.cons_append,
                run_cons, step_dot, if_neg (by simp [ctxT]), if_neg (by simp [he]), Res.ok_bind,
                run_frac0 o p d _ rfl rfl rfl hf, hq, Res.ok_bind]
              simpa [ctxT, he] using h
            obtain ⟨th, tn, ts, tail, hh, nn, sec, e, h1, h2, hs, -, -, -, k3, rfl⟩ :=
              time_fwd o p _ _ 3 d D (Nat.le_refl _) (by omega) (by omega) hrun
            exact ⟨[], [], [], (dtext ds ++ '.' :: dtext fs) ++ 'T' :: r, 0, 0, 0, by simp,
              .absent, .absent, .absent, by simp, by simp,
              by simp, Or.inr ⟨_, r, th, tn, ts, tail, hh, nn, sec, rfl, .frac ds fs _ _ hne hd hread hf hrf,
                e, k3 rfl, h1, h2, hs, by simp⟩⟩
          by_cases hY : c = 'Y'
          · subst hY; rw [step_Y] at hst; simp [fillComponent] at hst
          by_cases hM : c = 'M'
          · subst hM; rw [step_M] at hst; simp [fillComponent] at hst
          by_cases hD : c = 'D'
          · subst hD; rw [step_D] at hst; simp [fillComponent] at hst
          by_cases hH : c = 'H'
          · subst hH; rw [step_H] at hst; simp at hst
          by_cases hdd : c = '.'
          · subst hdd; rw [step_dot] at hst; simp at hst
          by_cases hS : c = 'S'
          · subst hS; rw [step_S] at hst; simp at hst
          rw [step_other o p d _ hT hY hM hD hH hS hdd hc'] at hst
          simp at hst
      rw [step_other o p d _ hT hY hM hD hH hS hdot hc] at hst
      simp at hst

/-! ### Backward, date part -/

theorem date_comps {ty tm td : Str} {y m dd : Nat} (h1 : Comp p 'Y' ty y) (h2 : Comp p 'M' tm m)
    (h3 : Comp p 'D' td dd) (d : Duration F) (rest : Str) :
    ∃ l : Int, 0 ≤ l ∧ l ≤ 3 ∧ (l = 0 → ty ++ tm ++ td = []) ∧
    run o p (d, ctxD 0) (ty ++ tm ++ td ++ rest) =
      run o p ({ d with years := if ty = [] then d.years else y,
                        months := if tm = [] then d.months else m,
                        days := if td = [] then d.days else dd }, ctxD l) rest := by
  refine ⟨if td = [] then (if tm = [] then (if ty = [] then 0 else 1) else 2) else 3, ?_, ?_, ?_, ?_⟩
  · split
    · split
      · split <;> omega
      · omega
    · omega
  · split
    · split
      · split <;> omega
      · omega
    · omega
  · intro h
    by_cases a : td = [] <;> by_cases b : tm = [] <;> by_cases c : ty = [] <;> simp_all
  · have hlt : (if tm = [] then (if ty = [] then (0 : Int) else 1) else 2) < 3 := by
      split
      · split <;> omega
      · omega
    rw [List.append_assoc, List.append_assoc, run_comp_Y o p h1 0 (Or.inr (by omega)),
      run_comp_Mo o p h2 _ (Or.inr (by split <;> omega)),
      run_comp_D o p h3 _ (Or.inr hlt)]

theorem date_bwd_date {ty tm td z : Str} {y m dd : Nat} (h1 : Comp p 'Y' ty y) (h2 : Comp p 'M' tm m)
    (h3 : Comp p 'D' td dd) (hz : Junk p z) (hne : ty ++ tm ++ td ≠ []) (d : Duration F) :
    run o p (d, ctxD 0) (ty ++ tm ++ td ++ z) =
      .ok { d with years := if ty = [] then d.years else y,
                   months := if tm = [] then d.months else m,
                   days := if td = [] then d.days else dd } := by
  obtain ⟨l, hl0, hl3, hl, e⟩ := date_comps o p h1 h2 h3 d z
  rw [e]
  apply run_junk_end o p hz _ _ rfl rfl rfl rfl rfl rfl
  · simp only [ctxD]; intro h; exact hne (hl h)
  · simp [ctxD]

theorem date_bwd_time {ty tm td z w th tn ts tail : Str} {y m dd h n : Nat} {sec : SecParts}
    (h1 : Comp p 'Y' ty y) (h2 : Comp p 'M' tm m)
    (h3 : Comp p 'D' td dd) (hz : Junk p z) (hw : z ++ w = th ++ tn ++ ts ++ tail)
    (hne : th ++ tn ++ ts ≠ []) (h4 : Comp p 'H' th h) (h5 : Comp p 'M' tn n)
    (h6 : SecTail p ts tail sec) (d : Duration F) :
    run o p (d, ctxD 0) (ty ++ tm ++ td ++ (z ++ 'T' :: w)) =
      .ok { d with years := if ty = [] then d.years else y,
                   months := if tm = [] then d.months else m,
                   days := if td = [] then d.days else dd,
                   hours := if th = [] then d.hours else h,
                   minutes := if tn = [] then d.minutes else n,
                   seconds := if ts = [] then d.seconds else secondsOf o sec } := by
  obtain ⟨l, hl0, hl3, hl, e⟩ := date_comps o p h1 h2 h3 d (z ++ 'T' :: w)
  rw [e]
  obtain ⟨e', dot, a, b, hj⟩ := run_junk (F := F) o p hz
  rw [hj _ (ctxD l) _ rfl rfl rfl rfl rfl, run_cons, step_T, if_neg (by simp [ctxD]), if_neg (by simp [ctxD]),
    Res.ok_bind]
  have hb := time_bwd o p h4 h5 h6 hne
    { d with years := if ty = [] then d.years else y,
             months := if tm = [] then d.months else m,
             days := if td = [] then d.days else dd }
  rw [← hw, hj _ (ctxT 3) _ rfl rfl rfl rfl rfl] at hb
  exact hb

/-! ### The prefix -/

theorem step_idx (i : Nat) (st : Duration F × Ctx) (c : Char)
    (h : 2 ≤ i ∨ (1 ≤ i ∧ (st.1.isNegative = false ∨ c ≠ 'P'))) : step o p i st c = step o p 2 st c := by
  unfold step
  have h0 : i ≠ 0 := by omega
  by_cases hP : c = 'P'
  · subst hP
    have : ¬ (i = 0 ∨ (i = 1 ∧ st.1.isNegative = true)) := by
      rintro (h' | ⟨h1, h2⟩)
      · omega
      · rcases h with h | ⟨-, h | h⟩
        · omega
        · rw [h2] at h; exact absurd h (by decide)
        · exact h rfl
    simp [this]
  · simp [h0, hP]

/-- A step in the body keeps the sign and the `P` flag. -/
theorem step_keeps {st st' : Duration F × Ctx} {c : Char} (h : step o p 2 st c = .ok st') :
    st'.1.isNegative = st.1.isNegative ∧ st'.2.pFound = st.2.pFound := by
  obtain ⟨d, x⟩ := st
  by_cases h1 : c = '-'
  · subst h1; rw [step_minus] at h; simp at h
  by_cases h2 : c = 'P'
  · subst h2; rw [step_P] at h; simp at h
  have fc : ∀ (idx : Int) (f : Ctx → Duration F × Ctx),
      (∀ c', (f c').1.isNegative = d.isNegative ∧ (f c').2 = c') →
      ((fillComponent x idx).bind fun c' => .ok (f c')) = .ok st' →
      st'.1.isNegative = d.isNegative ∧ st'.2.pFound = x.pFound := by
    intro idx f hf h
    rw [Res.bind_eq_ok] at h
    obtain ⟨c', hc', h⟩ := h
    obtain ⟨-, -, -, rfl⟩ := fillComponent_ok.1 hc'
    simp only [Res.ok.injEq] at h
    rw [← h, (hf _).2]
    exact ⟨(hf _).1, rfl⟩
  by_cases hT : c = 'T'
  · subst hT; rw [step_T] at h
    split at h
    · simp at h
    · split at h
      · simp at h
      · simp only [Res.ok.injEq] at h; subst h; exact ⟨rfl, rfl⟩
  by_cases hY : c = 'Y'
  · subst hY; rw [step_Y] at h
    exact fc _ (fun c' => ({ d with years := x.number }, c')) (fun _ => ⟨rfl, rfl⟩) h
  by_cases hM : c = 'M'
  · subst hM; rw [step_M] at h
    split at h
    · exact fc _ (fun c' => ({ d with minutes := x.number }, c')) (fun _ => ⟨rfl, rfl⟩) h
    · exact fc _ (fun c' => ({ d with months := x.number }, c')) (fun _ => ⟨rfl, rfl⟩) h
  by_cases hD : c = 'D'
  · subst hD; rw [step_D] at h
    exact fc _ (fun c' => ({ d with days := x.number }, c')) (fun _ => ⟨rfl, rfl⟩) h
  by_cases hH : c = 'H'
  · subst hH; rw [step_H] at h
    split at h
    · simp at h
    · exact fc _ (fun c' => ({ d with hours := x.number }, c')) (fun _ => ⟨rfl, rfl⟩) h
  by_cases hS : c = 'S'
  · subst hS; rw [step_S] at h
    split at h
    · simp at h
    · rw [Res.bind_eq_ok] at h
      obtain ⟨c', hc', h⟩ := h
      obtain ⟨-, -, -, rfl⟩ := (fillSeconds_ok o).1 hc'
      simp only [Res.ok.injEq] at h
      subst h; exact ⟨rfl, rfl⟩
  by_cases hdot : c = '.'
  · subst hdot; rw [step_dot] at h
    split at h
    · simp at h
    · split at h
      · simp at h
      · simp only [Res.ok.injEq] at h; subst h; exact ⟨rfl, rfl⟩
  by_cases hdig : Str.isAsciiDigit c = true
  · obtain ⟨n, hn, rfl⟩ := isDigit_of_ascii hdig
    cases hx : x.dotFound with
    | false =>
      rw [step_digit_num o p d x hx hn, Res.bind_eq_ok] at h
      obtain ⟨m, -, h⟩ := h
      simp only [Res.ok.injEq] at h; subst h; exact ⟨rfl, rfl⟩
    | true =>
      rw [step_digit_frac o p d x hx hn, Res.bind_eq_ok] at h
      obtain ⟨m, -, h⟩ := h
      rw [Res.bind_eq_ok] at h
      obtain ⟨m', -, h⟩ := h
      simp only [Res.ok.injEq] at h; subst h; exact ⟨rfl, rfl⟩
  · rw [step_other o p d x hT hY hM hD hH hS hdot (by simpa using hdig)] at h
    simp at h

theorem loop_eq_body (cs : Str) : ∀ (i : Nat) (st : Duration F × Ctx),
    (2 ≤ i ∨ (1 ≤ i ∧ st.1.isNegative = false)) → loop o p i st cs = body o p st cs := by
  induction cs with
  | nil => intros; rfl
  | cons c cs ih =>
    intro i st h
    show (step o p i st c).bind _ = (step o p 2 st c).bind _
    rw [step_idx o p i st c (h.imp id fun h => ⟨h.1, Or.inl h.2⟩)]
    cases hs : step o p 2 st c with
    | err => rfl
    | panic => rfl
    | ok st' =>
      simp only [Res.ok_bind]
      apply ih
      have := (step_keeps o p hs).1
      rw [this]
      exact h.imp (by omega) (fun h => ⟨by omega, h.2⟩)

theorem run_no_P (cs : Str) : ∀ (st : Duration F × Ctx) (D : Duration F), st.2.pFound = false →
    run o p st cs ≠ .ok D := by
  induction cs with
  | nil =>
    intro st D h
    rw [run_nil]; unfold finish
    simp only [h]
    split <;> simp
  | cons c cs ih =>
    intro st D h hr
    rw [run_cons, Res.bind_eq_ok] at hr
    obtain ⟨st', hst, hr⟩ := hr
    exact ih st' D ((step_keeps o p hst).2.trans h) hr

theorem fromStr_ok_shape {s : Str} {D : Duration F} (hs : s ≠ []) :
    fromStr o p s = .ok D ↔ ∃ neg cs, s = durSign neg ++ 'P' :: cs ∧
      run o p ({ default o with isNegative := neg }, ctxD 0) cs = .ok D := by
  unfold fromStr
  rw [if_neg hs]
  cases s with
  | nil => exact absurd rfl hs
  | cons c cs =>
    by_cases hP : c = 'P'
    · subst hP
      have h1 : loop o p 0 (default o, Ctx.new) ('P' :: cs) = body o p (default o, ctxD 0) cs := by
        show (step o p 0 _ 'P').bind _ = _
        have : step o p 0 (default o, Ctx.new) 'P' = .ok (default o, ctxD 0) := by
          simp [step, Ctx.new, ctxD]
        rw [this, Res.ok_bind, loop_eq_body o p cs 1 _ (Or.inr ⟨by omega, rfl⟩)]
      rw [h1]
      constructor
      · intro h; exact ⟨false, cs, rfl, h⟩
      · rintro ⟨neg, cs', h, hr⟩
        cases neg with
        | true => simp [durSign] at h
        | false =>
          simp only [durSign, Bool.false_eq_true, if_false, List.nil_append, List.cons.injEq, true_and] at h
          subst h; exact hr
    · by_cases hm : c = '-'
      · subst hm
        have h0 : step o p 0 (default o, Ctx.new) '-' =
            .ok ({ default o with isNegative := true }, Ctx.new) := by simp [step]
        have h1 : loop o p 0 (default o, Ctx.new) ('-' :: cs) =
            loop o p 1 ({ default o with isNegative := true }, Ctx.new) cs := by
          show (step o p 0 _ '-').bind _ = _
          rw [h0]; rfl
        rw [h1]
        cases cs with
        | nil =>
          constructor
          · intro h
            simp [loop, finish, Ctx.new] at h
          · rintro ⟨neg, cs', h, hr⟩
            cases neg <;> simp [durSign] at h
        | cons c cs =>
          by_cases hP' : c = 'P'
          · subst hP'
            have h2 : step o p 1 ({ default o with isNegative := true }, Ctx.new) 'P' =
                .ok ({ default o with isNegative := true }, ctxD 0) := by simp [step, Ctx.new, ctxD]
            have h3 : loop o p 1 ({ default o with isNegative := true }, Ctx.new) ('P' :: cs) =
                body o p ({ default o with isNegative := true }, ctxD 0) cs := by
              show (step o p 1 _ 'P').bind _ = _
              rw [h2, Res.ok_bind, loop_eq_body o p cs 2 _ (Or.inl (by omega))]
            rw [h3]
            constructor
            · intro h; exact ⟨true, cs, rfl, h⟩
            · rintro ⟨neg, cs', h, hr⟩
              cases neg with
              | false => simp [durSign] at h
              | true =>
                simp only [durSign, if_true, List.singleton_append, List.cons.injEq, true_and] at h
                subst h; exact hr
          · constructor
            · intro h
              exfalso
              have h4 : loop o p 1 ({ default o with isNegative := true }, Ctx.new) (c :: cs) =
                  body o p ({ default o with isNegative := true }, Ctx.new) (c :: cs) := by
                show (step o p 1 _ c).bind _ = (step o p 2 _ c).bind _
                rw [step_idx o p 1 _ c (Or.inr ⟨by omega, Or.inr hP'⟩)]
                cases hs' : step o p 2 ({ default o with isNegative := true }, Ctx.new) c with
                | err => rfl
                | panic => rfl
                | ok st' => simp only [Res.ok_bind]; exact loop_eq_body o p cs 2 st' (Or.inl (by omega))
              rw [h4] at h
              exact run_no_P o p (c :: cs) _ D rfl h
            · rintro ⟨neg, cs', h, hr⟩
              cases neg with
              | false => simp [durSign] at h
              | true =>
                simp only [durSign, if_true, List.singleton_append, List.cons.injEq, true_and] at h
                exact absurd h.1 hP'
      · constructor
        · intro h
          exfalso
          have h4 : loop o p 0 (default o, Ctx.new) (c :: cs) =
              body o p (default o, Ctx.new) (c :: cs) := by
            show (step o p 0 _ c).bind _ = (step o p 2 _ c).bind _
            have : step o p 0 (default o, Ctx.new) c = step o p 2 (default o, Ctx.new) c := by
              unfold step; simp [hP, hm]
            rw [this]
            cases hs' : step o p 2 (default o, Ctx.new) c with
            | err => rfl
            | panic => rfl
            | ok st' =>
              simp only [Res.ok_bind]
              exact loop_eq_body o p cs 1 st' (Or.inr ⟨by omega, by rw [(step_keeps o p hs').1]; rfl⟩)
          rw [h4] at h
          exact run_no_P o p (c :: cs) _ D rfl h
        · rintro ⟨neg, cs', h, hr⟩
          cases neg with
          | false => simp only [durSign, Bool.false_eq_true, if_false, List.nil_append, List.cons.injEq] at h
                     exact absurd h.1 hP
          | true =>
            simp only [durSign, if_true, List.singleton_append, List.cons.injEq] at h
            exact absurd h.1 hm

theorem comp_nil {c : Char} {v : Nat} {t : Str} (h : Comp p c t v) (ht : t = []) : v = 0 := by
  cases h with
  | absent => rfl
  | present ds v => simp at ht

theorem secTail_nil {tail t : Str} {sec : SecParts} (h : SecTail p t tail sec) (ht : t = []) : sec = none := by
  cases h with
  | absent => rfl
  | whole => simp at ht
  | frac => simp at ht

/-- The exact language of `Duration::from_str`. -/
theorem fromStr_iff (s : Str) (D : Duration F) :
    fromStr o p s = .ok D ↔ ∃ sec, Accepts p s D.isNegative D.years D.months D.days D.hours D.minutes sec ∧
      D.seconds = secondsOf o sec := by
  by_cases hs : s = []
  · subst hs
    unfold fromStr
    rw [if_pos rfl]
    constructor
    · intro h
      simp only [Res.ok.injEq] at h
      subst h
      exact ⟨none, .empty, rfl⟩
    · rintro ⟨sec, hA, hsec⟩
      cases D
      generalize hnil : ([] : List Char) = e0 at hA
      cases hA with
      | empty => simp only at hsec; subst hsec; rfl
      | date => simp at hnil
      | time => simp at hnil
  · rw [fromStr_ok_shape o p hs]
    constructor
    · rintro ⟨neg, cs, rfl, h⟩
      obtain ⟨ty, tm, td, rest, y, m, dd, rfl, h1, h2, h3, -, -, -, hR⟩ :=
        date_fwd o p _ cs 0 _ D (Nat.le_refl _) (by omega) (by omega) h
      have ey : (if ty = [] then (0 : Nat) else y) = y := by
        split
        · rename_i e; rw [comp_nil p h1 e]
        · rfl
      have em : (if tm = [] then (0 : Nat) else m) = m := by
        split
        · rename_i e; rw [comp_nil p h2 e]
        · rfl
      have ed : (if td = [] then (0 : Nat) else dd) = dd := by
        split
        · rename_i e; rw [comp_nil p h3 e]
        · rfl
      rcases hR with ⟨hj, hne, rfl⟩ | ⟨z, w, th, tn, ts, tail, hh, nn, sec, rfl, q2, q3, q4, q5, q6, q7, rfl⟩
      · refine ⟨none, ?_, rfl⟩
        simp only [Duration.default, ey, em, ed]
        exact .date neg ty tm td rest y m dd h1 h2 h3 hj (hne rfl)
      · have eh : (if th = [] then (0 : Nat) else hh) = hh := by
          split
          · rename_i e; rw [comp_nil p q5 e]
          · rfl
        have en : (if tn = [] then (0 : Nat) else nn) = nn := by
          split
          · rename_i e; rw [comp_nil p q6 e]
          · rfl
        refine ⟨sec, ?_, ?_⟩
        · simp only [Duration.default, ey, em, ed, eh, en]
          exact .time neg ty tm td z w th tn ts tail y m dd hh nn sec h1 h2 h3 q2 q3 q4 q5 q6 q7
        · simp only [Duration.default]
          split
          · rename_i e; rw [secTail_nil p q7 e]; rfl
          · rfl
    · rintro ⟨sec, hA, hsec⟩
      obtain ⟨neg, Y, Mo, Dd, Hh, Mi, S⟩ := D
      simp only at hA hsec
      subst hsec
      cases hA with
      | empty => exact absurd rfl hs
      | date _ ty tm td z _ _ _ h1 h2 h3 hj hne =>
        refine ⟨neg, _, rfl, ?_⟩
        rw [date_bwd_date o p h1 h2 h3 hj hne]
        congr 1
        simp only [Duration.default, secondsOf, Duration.mk.injEq, true_and, and_true]
        refine ⟨?_, ?_, ?_⟩
        · split
          · rename_i e; rw [comp_nil p h1 e]
          · rfl
        · split
          · rename_i e; rw [comp_nil p h2 e]
          · rfl
        · split
          · rename_i e; rw [comp_nil p h3 e]
          · rfl
      | time _ ty tm td z w th tn ts tail _ _ _ _ _ _ h1 h2 h3 q2 q3 q4 q5 q6 q7 =>
        refine ⟨neg, _, rfl, ?_⟩
        rw [date_bwd_time o p h1 h2 h3 q2 q3 q4 q5 q6 q7]
        congr 1
        simp only [Duration.default, Duration.mk.injEq, true_and]
        refine ⟨?_, ?_, ?_, ?_, ?_, ?_⟩
        · split
          · rename_i e; rw [comp_nil p h1 e]
          · rfl
        · split
          · rename_i e; rw [comp_nil p h2 e]
          · rfl
        · split
          · rename_i e; rw [comp_nil p h3 e]
          · rfl
        · split
          · rename_i e; rw [comp_nil p q5 e]
          · rfl
        · split
          · rename_i e; rw [comp_nil p q6 e]
          · rfl
        · split
          · rename_i e; rw [secTail_nil p q7 e]; rfl
          · rfl

end Verif.Lemmas.Dur
