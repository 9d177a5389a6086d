import Verif.Lemmas.Duration2

/-! # Duration: exact language of the parser, continued -/

namespace Verif.Lemmas.Dur

open Verif Verif.Model Verif.Model.Duration Verif.Spec

variable {F : Type} (o : FloatOps F) (p : Profile)

theorem isEmpty_false {ds : List Nat} (h : ds.isEmpty = false) : ds ≠ [] := by
  rintro rfl; simp at h

/-! ### Forward direction, time part -/

theorem time_fwd (N : Nat) : ∀ (cs : Str) (l : Int) (d D : Duration F), cs.length ≤ N → 3 ≤ l → l ≤ 6 →
    run o p (d, ctxT l) cs = .ok D →
    ∃ th tn ts tail h n sec, cs = th ++ tn ++ ts ++ tail ∧ Comp p 'H' th h ∧ Comp p 'M' tn n ∧
      SecTail p ts tail sec ∧ (4 ≤ l → th = []) ∧ (5 ≤ l → tn = []) ∧ (6 ≤ l → ts = []) ∧
      (l = 3 → th ++ tn ++ ts ≠ []) ∧
      D = { d with hours := if th = [] then d.hours else h,
                   minutes := if tn = [] then d.minutes else n,
                   seconds := if ts = [] then d.seconds else secondsOf o sec } := by
  induction N with
  | zero =>
    intro cs l d D hN h3 h6 h
    have : cs = [] := List.eq_nil_of_length_eq_zero (by omega)
    subst this
    rw [run_nil] at h
    simp only [finish, ctxT] at h
    by_cases hl : l = 3
    · subst hl; simp at h
    · rw [if_neg (by omega), if_neg (by simp), if_neg (by omega), if_neg (by simp; omega)] at h
      simp only [Res.ok.injEq] at h
      refine ⟨[], [], [], [], 0, 0, none, rfl, .absent, .absent, .absent _ (.whole [] (by simp [Digits]) ?_),
        by simp, by simp, by simp, fun e => absurd e hl, by simp [h]⟩
      rw [readNum_iff]; exact fit_of_lt p (by decide)
  | succ N ih =>
    intro cs l d D hN h3 h6 h
    obtain ⟨ds, rest, hd, rfl, hr⟩ := tokenize cs
    rw [run_num0 o p d (ctxT l) rfl rfl rfl hd, Res.bind_eq_ok] at h
    obtain ⟨m, hm, h⟩ := h
    have hread : ReadNum p ds m := readNum_iff.2 hm
    simp only [ctxT] at h
    rcases hr with rfl | ⟨c, r, rfl, hc⟩
    · -- end of text
      rw [run_nil] at h
      simp only [finish] at h
      by_cases hm0 : m > 0
      · rw [if_pos hm0] at h; simp at h
      · have hm0 : m = 0 := by omega
        subst hm0
        by_cases hl : l = 3
        · subst hl; simp at h
        · rw [if_neg (by omega), if_neg (by simp), if_neg (by omega), if_neg (by simp; omega)] at h
          simp only [Res.ok.injEq] at h
          exact ⟨[], [], [], dtext ds, 0, 0, none, by simp, .absent, .absent, .absent _ (.whole ds hd hread),
            by simp, by simp, by simp, fun e => absurd e hl, by simp [h]⟩
    · have hlen : r.length ≤ N := by
        simp only [List.length_append, List.length_cons] at hN; omega
      rw [run_cons, Res.bind_eq_ok] at h
      obtain ⟨st, hst, h⟩ := h
      by_cases hT : c = 'T'
      · subst hT; rw [step_T] at hst; simp at hst
      by_cases hY : c = 'Y'
      · subst hY; rw [step_Y, Res.bind_eq_ok] at hst
        obtain ⟨c', hc', -⟩ := hst
        have := (fillComponent_ok.1 hc').2.2.1
        simp only at this; omega
      by_cases hD : c = 'D'
      · subst hD; rw [step_D, Res.bind_eq_ok] at hst
        obtain ⟨c', hc', -⟩ := hst
        have := (fillComponent_ok.1 hc').2.2.1
        simp only at this; omega
      by_cases hM : c = 'M'
      · subst hM; rw [step_M] at hst
        simp only [if_true] at hst
        rw [Res.bind_eq_ok] at hst
        obtain ⟨c', hc', hst⟩ := hst
        obtain ⟨e1, -, e3, rfl⟩ := fillComponent_ok.1 hc'
        simp only [Res.ok.injEq] at hst
        subst hst
        obtain ⟨th, tn, ts, tail, hh, nn, sec, rfl, h1, h2, hs, k4, k5, k6, -, rfl⟩ :=
          ih r 5 _ D hlen (by omega) (by omega) h
        have := k4 (by omega); subst this
        have := k5 (by omega); subst this
        refine ⟨[], dtext ds ++ ['M'], ts, tail, 0, m, sec, by simp, .absent,
          .present ds m (isEmpty_false e1) hd hread, hs, by simp, by intro; simp only at e3; omega,
          by intro; simp only at e3; omega, by simp, by simp⟩
      by_cases hH : c = 'H'
      · subst hH; rw [step_H] at hst
        simp only [not_true_eq_false, if_false] at hst
        rw [Res.bind_eq_ok] at hst
        obtain ⟨c', hc', hst⟩ := hst
        obtain ⟨e1, -, e3, rfl⟩ := fillComponent_ok.1 hc'
        simp only [Res.ok.injEq] at hst
        subst hst
        obtain ⟨th, tn, ts, tail, hh, nn, sec, rfl, h1, h2, hs, k4, k5, k6, -, rfl⟩ :=
          ih r 4 _ D hlen (by omega) (by omega) h
        have := k4 (by omega); subst this
        simp only at e3
        refine ⟨dtext ds ++ ['H'], tn, ts, tail, m, nn, sec, by simp, 
          .present ds m (isEmpty_false e1) hd hread, h2, hs, by intro; omega, by intro; omega,
          by intro; omega, by simp, by simp⟩
      by_cases hS : c = 'S'
      · subst hS; rw [step_S] at hst
        simp only [not_true_eq_false, if_false] at hst
        rw [Res.bind_eq_ok] at hst
        obtain ⟨x, hx, hst⟩ := hst
        obtain ⟨e1, -, e3, rfl⟩ := (fillSeconds_ok o).1 hx
        simp only [Res.ok.injEq] at hst
        subst hst
        obtain ⟨th, tn, ts, tail, hh, nn, sec, rfl, h1, h2, hs, k4, k5, k6, -, rfl⟩ :=
          ih r 6 _ D hlen (by omega) (by omega) h
        have := k4 (by omega); subst this
        have := k5 (by omega); subst this
        have := k6 (by omega); subst this
        simp only at e3
        have hj : Junk p tail := by
          generalize hnil : ([] : List Char) = e0 at hs
          cases hs with
          | absent z hz => exact hz
          | whole ds' v z a b c hz => simp at hnil
          | frac => simp at hnil
        refine ⟨[], [], dtext ds ++ ['S'], tail, 0, 0, some (m, 0, 1), by simp, .absent, .absent,
          .whole ds m tail (isEmpty_false e1) hd hread hj, by simp, by simp, by intro; omega, by simp,
          by simp [secondsOf]⟩
      by_cases hdot : c = '.'
      · subst hdot; rw [step_dot] at hst
        simp only [Bool.false_eq_true, if_false] at hst
        by_cases he : ds.isEmpty = true
        · rw [if_pos he] at hst; simp at hst
        rw [if_neg he] at hst
        simp only [Res.ok.injEq] at hst
        subst hst
        simp only [Bool.not_eq_true] at he
        have hne := isEmpty_false he
        obtain ⟨fs, rest, hf, rfl, hr⟩ := tokenize r
        rw [run_frac0 o p d _ rfl rfl rfl hf, Res.bind_eq_ok] at h
        obtain ⟨q, hq, h⟩ := h
        have hrf : ReadFrac p fs q.1 q.2 := (readFrac_iff p hf).2 hq
        simp only [he] at h
        rcases hr with rfl | ⟨c, r, rfl, hc'⟩
        · rw [run_nil] at h
          simp only [finish] at h
          by_cases hm0 : m > 0
          · rw [if_pos hm0] at h; simp at h
          · have hm0 : m = 0 := by omega
            subst hm0
            by_cases hl : l = 3
            · subst hl; simp at h
            · rw [if_neg (by omega), if_neg (by simp), if_neg (by omega), if_neg (by simp; omega)] at h
              simp only [Res.ok.injEq] at h
              exact ⟨[], [], [], dtext ds ++ '.' :: dtext fs, 0, 0, none, by simp, .absent, .absent,
                .absent _ (.frac ds fs _ _ hne hd hread hf hrf),
                by simp, by simp, by simp, fun e => absurd e hl, by simp [h]⟩
        · rw [run_cons, Res.bind_eq_ok] at h
          obtain ⟨st, hst, h⟩ := h
          by_cases hT : c = 'T'
          · subst hT; rw [step_T] at hst; simp at hst
          by_cases hY : c = 'Y'
          · subst hY; rw [step_Y] at hst; simp [fillComponent] at hst
          by_cases hM : c = 'M'
          · subst hM; rw [step_M] at hst; simp [fillComponent] at hst
          by_cases hD : c = 'D'
          · subst hD; rw [step_D] at hst; simp [fillComponent] at hst
          by_cases hH : c = 'H'
          · subst hH; rw [step_H] at hst; simp [fillComponent] at hst
          by_cases hdd : c = '.'
          · subst hdd; rw [step_dot] at hst; simp at hst
          by_cases hS : c = 'S'
          · subst hS; rw [step_S] at hst
            simp only [not_true_eq_false, if_false] at hst
            rw [Res.bind_eq_ok] at hst
            obtain ⟨x, hx, hst⟩ := hst
            obtain ⟨-, e2, e3, rfl⟩ := (fillSeconds_ok o).1 hx
            simp only [Res.ok.injEq] at hst
            subst hst
            simp only [true_and] at e2
            have hfne : fs ≠ [] := fun hh => e2 ((denom_eq_one p hq).2 hh)
            simp only at e3
            have hlt := fit2_lt p hq
            obtain ⟨rfl, js, hj, rfl, q', hq'⟩ :=
              (run_afterFrac o p _ D 6 true q.1 q.2 r rfl rfl hlt.1 hlt.2).1 h
            rw [fit2_append p hq] at hq'
            have hfj : Digits (fs ++ js) := by
              intro x hx
              rcases List.mem_append.1 hx with hx | hx
              · exact hf x hx
              · exact hj x hx
            exact ⟨[], [], dtext ds ++ '.' :: dtext fs ++ ['S'], dtext js, 0, 0, some (m, q.1, q.2), by simp,
              .absent, .absent, .frac ds fs js m q.1 q.2 q'.1 q'.2 hne hd hread hfne hf hrf hj
                ((readFrac_iff p hfj).2 hq'), by simp, by simp, by intro; omega, by simp, by simp [secondsOf]⟩
          rw [step_other o p d _ hT hY hM hD hH hS hdd hc'] at hst
          simp at hst
      rw [step_other o p d _ hT hY hM hD hH hS hdot hc] at hst
      simp at hst

/-! ### Backward direction, time part -/

theorem isEmpty_of_ne {ds : List Nat} (h : ds ≠ []) : ds.isEmpty = false := by
  cases ds with
  | nil => exact absurd rfl h
  | cons => rfl

theorem run_comp_H {t : Str} {v : Nat} (h : Comp p 'H' t v) (l : Int) (hl : t = [] ∨ l < 4)
    (d : Duration F) (rest : Str) :
    run o p (d, ctxT l) (t ++ rest) =
      run o p ({ d with hours := if t = [] then d.hours else v }, ctxT (if t = [] then l else 4)) rest := by
  cases h with
  | absent => simp
  | present ds v hne hd hv =>
    have hl : l < 4 := by rcases hl with h | h; · simp at h
                          · exact h
    rw [List.append_assoc, run_num0 o p d (ctxT l) rfl rfl rfl hd, readNum_iff.1 hv, Res.ok_bind,
      List.singleton_append, run_cons, step_H, if_neg (by simp [ctxT]), fillComponent_ok.2 ⟨isEmpty_of_ne hne, rfl, hl, rfl⟩]
    simp [ctxT]

theorem run_comp_M {t : Str} {v : Nat} (h : Comp p 'M' t v) (l : Int) (hl : t = [] ∨ l < 5)
    (d : Duration F) (rest : Str) :
    run o p (d, ctxT l) (t ++ rest) =
      run o p ({ d with minutes := if t = [] then d.minutes else v }, ctxT (if t = [] then l else 5)) rest := by
  cases h with
  | absent => simp
  | present ds v hne hd hv =>
    have hl : l < 5 := by rcases hl with h | h; · simp at h
                          · exact h
    rw [List.append_assoc, run_num0 o p d (ctxT l) rfl rfl rfl hd, readNum_iff.1 hv, Res.ok_bind,
      List.singleton_append, run_cons, step_M, if_pos (by simp [ctxT]), fillComponent_ok.2 ⟨isEmpty_of_ne hne, rfl, hl, rfl⟩]
    simp [ctxT]

theorem run_comp_Y {t : Str} {v : Nat} (h : Comp p 'Y' t v) (l : Int) (hl : t = [] ∨ l < 1)
    (d : Duration F) (rest : Str) :
    run o p (d, ctxD l) (t ++ rest) =
      run o p ({ d with years := if t = [] then d.years else v }, ctxD (if t = [] then l else 1)) rest := by
  cases h with
  | absent => simp
  | present ds v hne hd hv =>
    have hl : l < 1 := by rcases hl with h | h; · simp at h
                          · exact h
    rw [List.append_assoc, run_num0 o p d (ctxD l) rfl rfl rfl hd, readNum_iff.1 hv, Res.ok_bind,
      List.singleton_append, run_cons, step_Y, fillComponent_ok.2 ⟨isEmpty_of_ne hne, rfl, hl, rfl⟩]
    simp [ctxD]

theorem run_comp_Mo {t : Str} {v : Nat} (h : Comp p 'M' t v) (l : Int) (hl : t = [] ∨ l < 2)
    (d : Duration F) (rest : Str) :
    run o p (d, ctxD l) (t ++ rest) =
      run o p ({ d with months := if t = [] then d.months else v }, ctxD (if t = [] then l else 2)) rest := by
  cases h with
  | absent => simp
  | present ds v hne hd hv =>
    have hl : l < 2 := by rcases hl with h | h; · simp at h
                          · exact h
    rw [List.append_assoc, run_num0 o p d (ctxD l) rfl rfl rfl hd, readNum_iff.1 hv, Res.ok_bind,
      List.singleton_append, run_cons, step_M, if_neg (by simp [ctxD]), fillComponent_ok.2 ⟨isEmpty_of_ne hne, rfl, hl, rfl⟩]
    simp [ctxD]

theorem run_comp_D {t : Str} {v : Nat} (h : Comp p 'D' t v) (l : Int) (hl : t = [] ∨ l < 3)
    (d : Duration F) (rest : Str) :
    run o p (d, ctxD l) (t ++ rest) =
      run o p ({ d with days := if t = [] then d.days else v }, ctxD (if t = [] then l else 3)) rest := by
  cases h with
  | absent => simp
  | present ds v hne hd hv =>
    have hl : l < 3 := by rcases hl with h | h; · simp at h
                          · exact h
    rw [List.append_assoc, run_num0 o p d (ctxD l) rfl rfl rfl hd, readNum_iff.1 hv, Res.ok_bind,
      List.singleton_append, run_cons, step_D, fillComponent_ok.2 ⟨isEmpty_of_ne hne, rfl, hl, rfl⟩]
    simp [ctxD]

/-- State reached by reading ignored leftover from a fresh context. -/
theorem run_junk {z : Str} (h : Junk p z) : ∃ e dot a b, ∀ (d : Duration F) (c : Ctx) (rest : Str),
    c.number = 0 → c.numberEmpty = true → c.dotFound = false → c.numer = 0 → c.denom = 1 →
    run o p (d, c) (z ++ rest) = run o p (d, { c with numberEmpty := e, dotFound := dot, numer := a, denom := b }) rest := by
  cases h with
  | whole ds hd hv =>
    refine ⟨ds.isEmpty, false, 0, 1, ?_⟩
    intro d c rest h1 h2 h3 h4 h5
    rw [run_num0 o p d c h3 h1 h2 hd, readNum_iff.1 hv, Res.ok_bind]
    simp only [h1, h3, h4, h5]
  | frac ds fs a b hne hd hv hf hfv =>
    refine ⟨false, true, a, b, ?_⟩
    intro d c rest h1 h2 h3 h4 h5
    rw [List.append_assoc, run_num0 o p d c h3 h1 h2 hd, readNum_iff.1 hv, Res.ok_bind, List.cons_append,
      run_cons, step_dot, if_neg (by simp [h3]), if_neg (by simp [isEmpty_of_ne hne]), Res.ok_bind,
      run_frac0 o p d _ rfl (by exact h4) (by exact h5) hf, (readFrac_iff p hf).1 hfv, Res.ok_bind]
    simp only [isEmpty_of_ne hne, ← h1]

theorem run_junk_end {z : Str} (h : Junk p z) (d : Duration F) (c : Ctx)
    (h1 : c.number = 0) (h2 : c.numberEmpty = true) (h3 : c.dotFound = false) (h4 : c.numer = 0)
    (h5 : c.denom = 1) (h6 : c.pFound = true) (h7 : c.last ≠ 0) (h8 : ¬ (c.last ≤ 3 ∧ c.tFound = true)) :
    run o p (d, c) z = .ok d := by
  obtain ⟨e, dot, a, b, hj⟩ := run_junk (F := F) o p h
  have := hj d c [] h1 h2 h3 h4 h5
  rw [List.append_nil] at this
  rw [this, run_nil]
  simp only [finish]
  rw [if_neg (by omega), if_neg (by simp [h6]), if_neg h7, if_neg h8]

theorem run_secTail {ts tail : Str} {sec : SecParts} (h : SecTail p ts tail sec) (l : Int)
    (hl : 3 ≤ l) (hl6 : l ≤ 6) (hne : ts = [] → l ≠ 3) (h6 : ts = [] ∨ l < 6) (d : Duration F) :
    run o p (d, ctxT l) (ts ++ tail) =
      .ok { d with seconds := if ts = [] then d.seconds else secondsOf o sec } := by
  cases h with
  | absent z hz =>
    have := hne rfl
    rw [List.nil_append, run_junk_end o p hz d (ctxT l) rfl rfl rfl rfl rfl rfl]
    · simp
    · simp only [ctxT]; omega
    · simp only [ctxT]; omega
  | whole ds v z hds hd hv hz =>
    have hl : l < 6 := by rcases h6 with h | h; · simp at h
                          · exact h
    rw [List.append_assoc, run_num0 o p d (ctxT l) rfl rfl rfl hd, readNum_iff.1 hv, Res.ok_bind,
      List.singleton_append, run_cons, step_S, if_neg (by simp [ctxT]),
      (fillSeconds_ok o).2 ⟨isEmpty_of_ne hds, by simp [ctxT], by simpa [ctxT] using hl, rfl⟩, Res.ok_bind, Res.ok_bind]
    rw [run_junk_end o p hz _ _ rfl rfl (by simp [ctxT]) (by simp [ctxT]) (by simp [ctxT]) (by simp [ctxT])
      (by simp) (by simp)]
    simp [ctxT, secondsOf]
  | frac ds fs js v a b a' b' hds hd hv hfs hf hfv hj hfj =>
    have hl : l < 6 := by rcases h6 with h | h; · simp at h
                          · exact h
    have hq := (readFrac_iff p hf).1 hfv
    have hlt := fit2_lt p hq
    rw [List.append_assoc, List.append_assoc, run_num0 o p d (ctxT l) rfl rfl rfl hd, readNum_iff.1 hv, Res.ok_bind,
      List.cons_append, run_cons, step_dot, if_neg (by simp [ctxT]), if_neg (by simp [isEmpty_of_ne hds]),
      Res.ok_bind, run_frac0 o p d _ rfl rfl rfl hf, hq, Res.ok_bind, List.singleton_append, run_cons, step_S,
      if_neg (by simp [ctxT]), (fillSeconds_ok o).2 ⟨isEmpty_of_ne hds, ?_, by simpa [ctxT] using hl, rfl⟩,
      Res.ok_bind, Res.ok_bind]
    · have hd' : Digits (fs ++ js) := by
        intro x hx
        rcases List.mem_append.1 hx with hx | hx
        · exact hf x hx
        · exact hj x hx
      have := (run_afterFrac o p { d with seconds := secondsOf o (some (v, a, b)) }
        { d with seconds := secondsOf o (some (v, a, b)) } 6 true a b (dtext js) rfl rfl hlt.1 hlt.2).2
        ⟨rfl, js, hj, rfl, (a', b'), by rw [fit2_append p hq]; exact (readFrac_iff p hd').1 hfj⟩
      rw [if_neg (by simp)]
      exact this
    · rintro ⟨-, h1⟩
      exact hfs ((denom_eq_one p hq).1 h1)

theorem time_bwd {th tn ts tail : Str} {h n : Nat} {sec : SecParts} (h1 : Comp p 'H' th h)
    (h2 : Comp p 'M' tn n) (h3 : SecTail p ts tail sec) (hne : th ++ tn ++ ts ≠ []) (d : Duration F) :
    run o p (d, ctxT 3) (th ++ tn ++ ts ++ tail) =
      .ok { d with hours := if th = [] then d.hours else h,
                   minutes := if tn = [] then d.minutes else n,
                   seconds := if ts = [] then d.seconds else secondsOf o sec } := by
  rw [List.append_assoc, List.append_assoc, run_comp_H o p h1 3 (Or.inr (by omega)),
    run_comp_M o p h2 _ (Or.inr (by split <;> omega)), run_secTail o p h3]
  · by_cases a : tn = [] <;> by_cases b : th = [] <;> simp [a, b]
  · by_cases a : tn = [] <;> by_cases b : th = [] <;> simp [a, b]
  · intro hts
    subst hts
    by_cases a : tn = [] <;> by_cases b : th = [] <;> simp [a, b]
    subst a b; simp at hne
  · right; by_cases a : tn = [] <;> by_cases b : th = [] <;> simp [a, b]

end Verif.Lemmas.Dur
