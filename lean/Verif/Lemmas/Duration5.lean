import Verif.Lemmas.Duration4

/-! # Duration: relation between the XSD grammar and the parser's language; overflow -/

namespace Verif.Lemmas.Dur

open Verif Verif.Model Verif.Model.Duration Verif.Spec

variable {F : Type} (o : FloatOps F) (p : Profile)

/-! ### Grammar to parser language -/

theorem readNum_of_fits {ds : List Nat} (h : decVal ds < 2 ^ 64) : ReadNum p ds (decVal ds) := by
  rw [readNum_iff]; exact fit_of_lt p h

theorem readFrac_of_fits {fs : List Nat} (hd : Digits fs) (h : fs.length ≤ 19) :
    ReadFrac p fs (decVal fs) (10 ^ fs.length) := by
  rw [readFrac_iff p hd]
  have h1 : 10 ^ fs.length ≤ 10 ^ 19 := Nat.pow_le_pow_right (by omega) h
  have h2 : (10 : Nat) ^ 19 < U64.size := by decide
  have h3 := decVal_lt hd
  unfold fit2
  rw [fit_of_lt p (by omega), Res.ok_bind, fit_of_lt p (by omega), Res.ok_bind]

theorem comp_of {c : Char} {x : Option (List Nat)} (h : ∀ ds, x = some ds → Digits1 ds)
    (hf : ∀ ds, x = some ds → decVal ds < 2 ^ 64) : Comp p c (compText c x) (DurParts.val x) := by
  cases x with
  | none => exact .absent
  | some ds => exact .present ds _ (h ds rfl).1 (h ds rfl).2 (readNum_of_fits p (hf ds rfl))

theorem junk_nil : Junk p [] := .whole [] (by simp [Digits]) (readNum_of_fits p (ds := []) (by decide))

theorem secTail_of {x : DurParts} (h : x.WF) (hf : x.Fits) : SecTail p (secText x.s) [] x.sec := by
  obtain ⟨-, -, -, -, -, h6, h7⟩ := h
  obtain ⟨-, -, -, -, -, f6, f7⟩ := hf
  unfold DurParts.sec
  revert h6 h7 f6 f7
  cases x.s with
  | none => intro _ _ _ _; exact .absent [] (junk_nil p)
  | some s =>
    obtain ⟨ds, f⟩ := s
    intro h6 h7 f6 f7
    cases f with
    | none => exact .whole ds _ [] (h6 ds none rfl).1 (h6 ds none rfl).2 (readNum_of_fits p (f6 ds none rfl)) (junk_nil p)
    | some fs =>
      have a := h6 ds (some fs) rfl
      have b := h7 ds fs rfl
      have hr := readFrac_of_fits p b.2 (f7 ds fs rfl)
      exact .frac ds fs [] _ _ _ _ _ a.1 a.2 (readNum_of_fits p (f6 ds _ rfl)) b.1 b.2 hr (by simp [Digits])
        (by rw [List.append_nil]; exact hr)

theorem accepts_of_xsd {s : Str} {x : DurParts} (hx : XsdDuration s x) (hf : x.Fits) :
    Accepts p s x.neg (DurParts.val x.y) (DurParts.val x.m) (DurParts.val x.d) (DurParts.val x.h)
      (DurParts.val x.n) x.sec := by
  obtain ⟨hw, hne, rfl⟩ := hx
  have c1 := comp_of p (c := 'Y') hw.1 hf.1
  have c2 := comp_of p (c := 'M') hw.2.1 hf.2.1
  have c3 := comp_of p (c := 'D') hw.2.2.1 hf.2.2.1
  have c4 := comp_of p (c := 'H') hw.2.2.2.1 hf.2.2.2.1
  have c5 := comp_of p (c := 'M') hw.2.2.2.2.1 hf.2.2.2.2.1
  have c6 := secTail_of p hw hf
  unfold DurParts.text
  by_cases ht : x.timeText = []
  · rw [if_pos ht]
    have hne' : x.dateText ≠ [] := by
      intro h; exact hne (by rw [h, ht]; rfl)
    unfold DurParts.timeText at ht
    simp only [List.append_eq_nil_iff] at ht
    have e4 := comp_nil p c4 ht.1.1
    have e5 := comp_nil p c5 ht.1.2
    have e6 := secTail_nil p c6 ht.2
    rw [e4, e5, e6]
    exact .date x.neg _ _ _ [] _ _ _ c1 c2 c3 (junk_nil p) hne'
  · rw [if_neg ht]
    have := Accepts.time x.neg _ _ _ [] x.timeText _ _ _ [] _ _ _ _ _ _ c1 c2 c3 (junk_nil p)
      (by simp [DurParts.timeText]) ht c4 c5 c6
    exact this

/-! ### Parser language to grammar -/

theorem comp_inv {c : Char} {t : Str} {v : Nat} (h : Comp p c t v) :
    ∃ x : Option (List Nat), t = compText c x ∧ (∀ ds, x = some ds → Digits1 ds) ∧
      (∀ ds, x = some ds → ReadNum p ds v) ∧ (x = none → v = 0) := by
  cases h with
  | absent => exact ⟨none, rfl, by simp, by simp, fun _ => rfl⟩
  | present ds v h1 h2 h3 =>
    exact ⟨some ds, rfl, fun _ e => by cases e; exact ⟨h1, h2⟩, fun _ e => by cases e; exact h3, by simp⟩

theorem readNum_val {c : Char} {t : Str} {v : Nat} {x : Option (List Nat)} (_h : Comp p c t v)
    (h1 : ∀ ds, x = some ds → ReadNum p ds v) (h0 : x = none → v = 0)
    (hf : ∀ ds, x = some ds → decVal ds < 2 ^ 64) : v = DurParts.val x := by
  cases x with
  | none => exact h0 rfl
  | some ds =>
    have := readNum_iff.1 (h1 ds rfl)
    rw [fit_of_lt p (hf ds rfl)] at this
    simp only [Res.ok.injEq] at this
    exact this.symm

theorem readNum_debug_fits {ds : List Nat} {v : Nat} (h : ReadNum .debug ds v) : decVal ds < 2 ^ 64 := h.1

theorem isAscii_digit {n : Nat} (h : n < 10) : Str.isAsciiDigit (digit n) = true := by
  have := digit_cases h
  simp only [List.mem_cons, List.not_mem_nil, or_false] at this
  rcases this with h|h|h|h|h|h|h|h|h|h <;> rw [h] <;> decide

theorem dtext_last {ds : List Nat} (hd : Digits ds) (hne : ds ≠ []) :
    ∃ pre c, dtext ds = pre ++ [c] ∧ Str.isAsciiDigit c = true := by
  refine ⟨dtext ds.dropLast, digit (ds.getLast hne), ?_, isAscii_digit (hd _ (List.getLast_mem hne))⟩
  unfold dtext
  conv => lhs; rw [← List.dropLast_concat_getLast hne]
  simp

theorem junk_last {z : Str} (h : Junk p z) (hne : z ≠ []) :
    ∃ pre c, z = pre ++ [c] ∧ (c = '.' ∨ Str.isAsciiDigit c = true) := by
  cases h with
  | whole ds hd _ =>
    obtain ⟨pre, c, e, hc⟩ := dtext_last hd (by rintro rfl; exact hne rfl)
    exact ⟨pre, c, e, Or.inr hc⟩
  | frac ds fs a b h1 h2 h3 h4 h5 =>
    by_cases hf : fs = []
    · subst hf; exact ⟨dtext ds, '.', rfl, Or.inl rfl⟩
    · obtain ⟨pre, c, e, hc⟩ := dtext_last h4 hf
      exact ⟨dtext ds ++ '.' :: pre, c, by rw [e]; simp, Or.inr hc⟩

theorem secTail_last {ts tail : Str} {sec : SecParts} (h : SecTail p ts tail sec) (hne : tail ≠ []) :
    ∃ pre c, tail = pre ++ [c] ∧ (c = '.' ∨ Str.isAsciiDigit c = true) := by
  cases h with
  | absent _ hj => exact junk_last p hj hne
  | whole _ _ _ _ _ _ hj => exact junk_last p hj hne
  | frac ds fs js v a b a' b' h1 h2 h3 h4 h5 h6 h7 h8 =>
    obtain ⟨pre, c, e, hc⟩ := dtext_last h7 (by rintro rfl; exact hne rfl)
    exact ⟨pre, c, e, Or.inr hc⟩

theorem secTail_inv {ts tail : Str} {sec : SecParts} (h : SecTail p ts tail sec) :
    ∃ x : Option (List Nat × Option (List Nat)), ts = secText x ∧
      (∀ ds f, x = some (ds, f) → Digits1 ds) ∧ (∀ ds fs, x = some (ds, some fs) → Digits1 fs) ∧
      (x = none → sec = none) ∧
      (∀ ds, x = some (ds, none) → ∃ v, ReadNum p ds v ∧ sec = some (v, 0, 1)) ∧
      (∀ ds fs, x = some (ds, some fs) → ∃ v a b, ReadNum p ds v ∧ ReadFrac p fs a b ∧ sec = some (v, a, b)) := by
  cases h with
  | absent _ hj => exact ⟨none, rfl, by simp, by simp, by simp, by simp, by simp⟩
  | whole ds v _ h1 h2 h3 hj =>
    refine ⟨some (ds, none), rfl, ?_, by simp, by simp, ?_, by simp⟩
    · intro ds' f e; cases e; exact ⟨h1, h2⟩
    · intro ds' e; cases e; exact ⟨v, h3, rfl⟩
  | frac ds fs js v a b a' b' h1 h2 h3 h4 h5 h6 h7 h8 =>
    refine ⟨some (ds, some fs), rfl, ?_, ?_, by simp, by simp, ?_⟩
    · intro ds' f e; cases e; exact ⟨h1, h2⟩
    · intro ds' f e; cases e; exact ⟨h4, h5⟩
    · intro ds' f e; cases e; exact ⟨v, a, b, h3, h6, rfl⟩

theorem accepts_clean {s : Str} {neg : Bool} {y m d h n : Nat} {sec : SecParts}
    (hA : Accepts p s neg y m d h n sec) (hc : Clean s) :
    ∃ x : DurParts, XsdDuration s x ∧ x.neg = neg ∧ (p = .debug → x.Fits) ∧
      (x.Fits → y = DurParts.val x.y ∧ m = DurParts.val x.m ∧ d = DurParts.val x.d ∧ h = DurParts.val x.h ∧
        n = DurParts.val x.n ∧ sec = x.sec) := by
  obtain ⟨hs, hl, hT⟩ := hc
  cases hA with
  | empty => exact absurd rfl hs
  | date _ ty tm td z _ _ _ h1 h2 h3 hj hne =>
    have hz : z = [] := by
      apply Classical.byContradiction; intro hz
      obtain ⟨pre, c, rfl, hc⟩ := junk_last p hj hz
      have := hl (durSign neg ++ 'P' :: (ty ++ tm ++ td ++ pre)) c (by simp)
      rcases hc with hc | hc
      · exact this.1 hc
      · rw [this.2] at hc; exact absurd hc (by decide)
    subst hz
    obtain ⟨xy, rfl, a1, a2, a3⟩ := comp_inv p h1
    obtain ⟨xm, rfl, b1, b2, b3⟩ := comp_inv p h2
    obtain ⟨xd, rfl, c1, c2, c3⟩ := comp_inv p h3
    refine ⟨⟨neg, xy, xm, xd, none, none, none⟩, ⟨⟨a1, b1, c1, by simp, by simp, by simp, by simp⟩, ?_, ?_⟩, rfl, ?_, ?_⟩
    · simpa [DurParts.NonEmpty, DurParts.dateText, DurParts.timeText, compText, secText] using hne
    · simp [DurParts.text, DurParts.dateText, DurParts.timeText, compText, secText]
    · rintro rfl
      exact ⟨fun ds e => (a2 ds e).1, fun ds e => (b2 ds e).1, fun ds e => (c2 ds e).1,
        by simp, by simp, by simp, by simp⟩
    · rintro ⟨f1, f2, f3, -⟩
      exact ⟨readNum_val p h1 a2 a3 f1, readNum_val p h2 b2 b3 f2, readNum_val p h3 c2 c3 f3, rfl, rfl, rfl⟩
  | time _ ty tm td z w th tn ts tail _ _ _ _ _ _ h1 h2 h3 hj hw hne h4 h5 h6 =>
    have hz : z = [] := by
      apply Classical.byContradiction; intro hz
      obtain ⟨pre, c, rfl, hc⟩ := junk_last p hj hz
      have := hT (durSign neg ++ 'P' :: (ty ++ tm ++ td ++ pre)) c w (by simp)
      rcases hc with hc | hc
      · exact this.1 hc
      · rw [this.2] at hc; exact absurd hc (by decide)
    subst hz
    simp only [List.nil_append] at hw
    subst hw
    have ht : tail = [] := by
      apply Classical.byContradiction; intro ht
      obtain ⟨pre, c, rfl, hc⟩ := secTail_last p h6 ht
      have := hl (durSign neg ++ 'P' :: (ty ++ tm ++ td ++ 'T' :: (th ++ tn ++ ts ++ pre))) c (by simp)
      rcases hc with hc | hc
      · exact this.1 hc
      · rw [this.2] at hc; exact absurd hc (by decide)
    subst ht
    obtain ⟨xy, rfl, a1, a2, a3⟩ := comp_inv p h1
    obtain ⟨xm, rfl, b1, b2, b3⟩ := comp_inv p h2
    obtain ⟨xd, rfl, c1, c2, c3⟩ := comp_inv p h3
    obtain ⟨xh, rfl, d1, d2, d3⟩ := comp_inv p h4
    obtain ⟨xn, rfl, e1, e2, e3⟩ := comp_inv p h5
    obtain ⟨xs, rfl, s1, s2, s3, s4, s5⟩ := secTail_inv p h6
    refine ⟨⟨neg, xy, xm, xd, xh, xn, xs⟩, ⟨⟨a1, b1, c1, d1, e1, s1, s2⟩, ?_, ?_⟩, rfl, ?_, ?_⟩
    · intro h
      unfold DurParts.timeText at h
      exact hne (List.append_eq_nil_iff.1 h).2
    · have ht : DurParts.timeText ⟨neg, xy, xm, xd, xh, xn, xs⟩ ≠ [] := hne
      unfold DurParts.text
      rw [if_neg ht]; simp [DurParts.dateText, DurParts.timeText]
    · rintro rfl
      refine ⟨fun ds e => (a2 ds e).1, fun ds e => (b2 ds e).1, fun ds e => (c2 ds e).1,
        fun ds e => (d2 ds e).1, fun ds e => (e2 ds e).1, ?_, ?_⟩
      · intro ds f e
        cases f with
        | none => obtain ⟨v, hv, -⟩ := s4 ds e; exact hv.1
        | some fs => obtain ⟨v, _, _, hv, -, -⟩ := s5 ds fs e; exact hv.1
      · intro ds fs e
        obtain ⟨v, _, _, -, hf, -⟩ := s5 ds fs e
        exact hf.1
    · rintro ⟨f1, f2, f3, f4, f5, f6, f7⟩
      refine ⟨readNum_val p h1 a2 a3 f1, readNum_val p h2 b2 b3 f2, readNum_val p h3 c2 c3 f3,
        readNum_val p h4 d2 d3 f4, readNum_val p h5 e2 e3 f5, ?_⟩
      simp only [DurParts.sec]
      cases xs with
      | none => exact s3 rfl
      | some xs =>
        obtain ⟨ds, f⟩ := xs
        cases f with
        | none =>
          obtain ⟨v, hv, rfl⟩ := s4 ds rfl
          have := readNum_iff.1 hv
          rw [fit_of_lt p (f6 ds none rfl)] at this
          simp only [Res.ok.injEq] at this
          simp [this]
        | some fs =>
          obtain ⟨v, a, b, hv, hf, rfl⟩ := s5 ds fs rfl
          have := readNum_iff.1 hv
          rw [fit_of_lt p (f6 ds _ rfl)] at this
          simp only [Res.ok.injEq] at this
          have hd := (s2 ds fs rfl).2
          have h' := (readFrac_iff p hd).1 hf
          have h'' := (readFrac_iff p hd).1 (readFrac_of_fits p hd (f7 ds fs rfl))
          rw [h''] at h'
          simp only [Res.ok.injEq, Prod.mk.injEq] at h'
          simp [this, h'.1, h'.2]

/-! ### Overflow -/

theorem fit_release_ne_panic (n : Nat) : U64.fit .release n ≠ .panic := by
  rw [fit_release]; simp

theorem fit_agree {n v : Nat} (h : U64.fit .debug n = .ok v) : U64.fit .release n = .ok v := by
  rw [fit_debug] at h
  split at h
  · rename_i hn; simp only [Res.ok.injEq] at h; subst h; exact fit_of_lt _ hn
  · simp at h

theorem fit_agree' {n : Nat} (h : U64.fit .debug n ≠ .panic) : U64.fit .release n = U64.fit .debug n := by
  cases h' : U64.fit .debug n with
  | ok v => exact fit_agree h'
  | err => exact absurd h' (fit_ne_err _ _)
  | panic => exact absurd h' h

/-- Inversion of a step: the only panics are overflows of a digit. -/
theorem step_agree (i : Nat) (st : Duration F × Ctx) (c : Char) (h : step o .debug i st c ≠ .panic) :
    step o .release i st c = step o .debug i st c := by
  by_cases hd : Str.isAsciiDigit c = true
  · obtain ⟨n, hn, rfl⟩ := isDigit_of_ascii hd
    obtain ⟨d, x⟩ := st
    cases hx : x.dotFound with
    | false =>
      rw [step_digit_num o _ d x hx hn] at h ⊢
      rw [step_digit_num o _ d x hx hn]
      rw [fit_agree' (by intro e; rw [e] at h; exact h rfl)]
    | true =>
      rw [step_digit_frac o _ d x hx hn] at h ⊢
      rw [step_digit_frac o _ d x hx hn]
      rw [fit_agree' (by intro e; rw [e] at h; exact h rfl)]
      cases h1 : U64.fit .debug (x.numer * 10 + n) with
      | err => rfl
      | panic => rfl
      | ok a =>
        rw [h1] at h
        simp only [Res.ok_bind] at h ⊢
        rw [fit_agree' (by intro e; rw [e] at h; exact h rfl)]
  · unfold step
    simp [hd]

theorem fillComponent_cases (c : Ctx) (idx : Int) : fillComponent c idx = .err ∨
    fillComponent c idx = .ok { c with last := idx, number := 0, numberEmpty := true } := by
  unfold fillComponent
  by_cases h1 : c.numberEmpty = true
  · rw [if_pos h1]; exact Or.inl rfl
  rw [if_neg h1]
  by_cases h2 : c.dotFound = true
  · rw [if_pos h2]; exact Or.inl rfl
  rw [if_neg h2]
  by_cases h3 : c.last ≥ idx
  · rw [if_pos h3]; exact Or.inl rfl
  rw [if_neg h3]; exact Or.inr rfl

theorem fillSeconds_cases (c : Ctx) : fillSeconds o c = .err ∨
    ∃ f, fillSeconds o c = .ok (f, { c with last := 6, number := 0, numberEmpty := true }) := by
  unfold fillSeconds
  by_cases h1 : c.numberEmpty = true
  · rw [if_pos h1]; exact Or.inl rfl
  rw [if_neg h1]
  by_cases h2 : c.dotFound = true ∧ c.denom = 1
  · rw [if_pos h2]; exact Or.inl rfl
  rw [if_neg h2]
  by_cases h3 : c.last ≥ 6
  · rw [if_pos h3]; exact Or.inl rfl
  rw [if_neg h3]; exact Or.inr ⟨_, rfl⟩

/-- A step on a character that is not a digit never overflows and never grows a number. -/
theorem step_nondigit (i : Nat) (st : Duration F × Ctx) (c : Char) (hd : ¬ Str.isAsciiDigit c = true) :
    step o p i st c = .err ∨ ∃ st', step o p i st c = .ok st' ∧
      (st'.2.number = st.2.number ∨ st'.2.number = 0) ∧ st'.2.numer = st.2.numer ∧ st'.2.denom = st.2.denom := by
  obtain ⟨d, x⟩ := st
  have fc : ∀ (idx : Int) (f : Ctx → Duration F × Ctx), (∀ c', (f c').2 = c') →
      ((fillComponent x idx).bind fun c' => .ok (f c')) = .err ∨
      ∃ st', ((fillComponent x idx).bind fun c' => .ok (f c')) = .ok st' ∧
      (st'.2.number = x.number ∨ st'.2.number = 0) ∧ st'.2.numer = x.numer ∧ st'.2.denom = x.denom := by
    intro idx f hf
    rcases fillComponent_cases x idx with h | h
    · rw [h]; exact Or.inl rfl
    · rw [h]; exact Or.inr ⟨_, rfl, by rw [hf]; exact ⟨Or.inr rfl, rfl, rfl⟩⟩
  unfold step
  simp only
  by_cases h1 : c = '-'
  · rw [if_pos h1]
    by_cases hi : i = 0
    · rw [if_pos hi]; exact Or.inr ⟨_, rfl, Or.inl rfl, rfl, rfl⟩
    · rw [if_neg hi]; exact Or.inl rfl
  rw [if_neg h1]
  by_cases h1 : c = 'P'
  · rw [if_pos h1]
    by_cases hi : i = 0 ∨ (i = 1 ∧ d.isNegative = true)
    · rw [if_pos hi]; exact Or.inr ⟨_, rfl, Or.inl rfl, rfl, rfl⟩
    · rw [if_neg hi]; exact Or.inl rfl
  rw [if_neg h1]
  by_cases h1 : c = 'T'
  · rw [if_pos h1]
    by_cases hi : x.tFound = true
    · rw [if_pos hi]; exact Or.inl rfl
    rw [if_neg hi]
    by_cases hi : x.number > 0
    · rw [if_pos hi]; exact Or.inl rfl
    rw [if_neg hi]
    exact Or.inr ⟨_, rfl, Or.inl rfl, rfl, rfl⟩
  rw [if_neg h1]
  by_cases h1 : c = 'Y'
  · rw [if_pos h1]; exact fc _ (fun c' => ({ d with years := x.number }, c')) (fun _ => rfl)
  rw [if_neg h1]
  by_cases h1 : c = 'M'
  · rw [if_pos h1]
    by_cases hi : x.tFound = true
    · rw [if_pos hi]; exact fc _ (fun c' => ({ d with minutes := x.number }, c')) (fun _ => rfl)
    · rw [if_neg hi]; exact fc _ (fun c' => ({ d with months := x.number }, c')) (fun _ => rfl)
  rw [if_neg h1]
  by_cases h1 : c = 'D'
  · rw [if_pos h1]; exact fc _ (fun c' => ({ d with days := x.number }, c')) (fun _ => rfl)
  rw [if_neg h1]
  by_cases h1 : c = 'H'
  · rw [if_pos h1]
    by_cases hi : ¬ x.tFound = true
    · rw [if_pos hi]; exact Or.inl rfl
    · rw [if_neg hi]; exact fc _ (fun c' => ({ d with hours := x.number }, c')) (fun _ => rfl)
  rw [if_neg h1]
  by_cases h1 : c = 'S'
  · rw [if_pos h1]
    by_cases hi : ¬ x.tFound = true
    · rw [if_pos hi]; exact Or.inl rfl
    · rw [if_neg hi]
      rcases fillSeconds_cases o x with h | ⟨f, h⟩
      · rw [h]; exact Or.inl rfl
      · rw [h]; exact Or.inr ⟨_, rfl, Or.inr rfl, rfl, rfl⟩
  rw [if_neg h1]
  by_cases h1 : c = '.'
  · rw [if_pos h1]
    by_cases hi : x.dotFound = true
    · rw [if_pos hi]; exact Or.inl rfl
    rw [if_neg hi]
    by_cases hi : x.numberEmpty = true
    · rw [if_pos hi]; exact Or.inl rfl
    rw [if_neg hi]
    exact Or.inr ⟨_, rfl, Or.inl rfl, rfl, rfl⟩
  rw [if_neg h1, if_pos hd]
  exact Or.inl rfl

theorem step_release_ne_panic (i : Nat) (st : Duration F × Ctx) (c : Char) :
    step o .release i st c ≠ .panic := by
  by_cases hd : Str.isAsciiDigit c = true
  · obtain ⟨n, hn, rfl⟩ := isDigit_of_ascii hd
    obtain ⟨d, x⟩ := st
    cases hx : x.dotFound with
    | false => rw [step_digit_num o _ d x hx hn, fit_release]; simp [Res.ok_bind]
    | true => rw [step_digit_frac o _ d x hx hn, fit_release, fit_release]; simp [Res.ok_bind]
  · rcases step_nondigit o .release i st c hd with h | ⟨st', h, -⟩ <;> rw [h] <;> simp

theorem fit_of_pow {n k : Nat} (h : n < 10 ^ k) (hk : k ≤ 19) : U64.fit p n = .ok n := by
  apply fit_of_lt
  have h1 : 10 ^ k ≤ 10 ^ 19 := Nat.pow_le_pow_right (by omega) hk
  have h2 : (10 : Nat) ^ 19 < U64.size := by decide
  omega

/-- Bounds on the machine numbers after `k` digits. -/
def Small (k : Nat) (c : Ctx) : Prop := c.number < 10 ^ k ∧ c.numer < 10 ^ k ∧ c.denom ≤ 10 ^ k

theorem small_mono {k : Nat} {c : Ctx} (h : Small k c) : Small (k + 1) c := by
  unfold Small at *
  rw [Nat.pow_succ]; omega

/-- One step of either build keeps the numbers small, as long as few digits were read. -/
theorem step_small (i k : Nat) (st : Duration F × Ctx) (c : Char) (h : Small k st.2)
    (hk : k + (if Str.isAsciiDigit c = true then 1 else 0) ≤ 19) :
    step o p i st c ≠ .panic ∧
    ∀ st', step o p i st c = .ok st' → Small (k + (if Str.isAsciiDigit c = true then 1 else 0)) st'.2 := by
  obtain ⟨d, x⟩ := st
  obtain ⟨h1, h2, h3⟩ := h
  simp only at h1 h2 h3
  have hpk : 10 ^ (k + 1) = 10 * 10 ^ k := by rw [Nat.pow_succ]; omega
  by_cases hd : Str.isAsciiDigit c = true
  · rw [if_pos hd] at hk ⊢
    obtain ⟨n, hn, rfl⟩ := isDigit_of_ascii hd
    cases hx : x.dotFound with
    | false =>
      rw [step_digit_num o _ d x hx hn, fit_of_pow p (k := k + 1) (by omega) hk, Res.ok_bind]
      refine ⟨by simp, ?_⟩
      intro st' e
      simp only [Res.ok.injEq] at e
      subst e
      refine ⟨?_, ?_, ?_⟩ <;> simp only <;> omega
    | true =>
      have hb : U64.fit p (x.denom * 10) = .ok (x.denom * 10) := by
        apply fit_of_lt
        have h1 : 10 ^ (k + 1) ≤ 10 ^ 19 := Nat.pow_le_pow_right (by omega) hk
        have h2 : (10 : Nat) ^ 19 < U64.size := by decide
        omega
      rw [step_digit_frac o _ d x hx hn, fit_of_pow p (k := k + 1) (by omega) hk, Res.ok_bind, hb, Res.ok_bind]
      refine ⟨by simp, ?_⟩
      intro st' e
      simp only [Res.ok.injEq] at e
      subst e
      refine ⟨?_, ?_, ?_⟩ <;> simp only <;> omega
  · rw [if_neg hd]
    have hpos : 0 < 10 ^ k := Nat.pow_pos (by omega)
    rcases step_nondigit o p i (d, x) c hd with h | ⟨st', h, a, b, c⟩
    · rw [h]; simp
    · rw [h]
      refine ⟨by simp, ?_⟩
      intro st'' e
      simp only [Res.ok.injEq] at e
      subst e
      refine ⟨?_, ?_, ?_⟩
      · rcases a with a | a <;> rw [a] <;> simp only [Nat.add_zero] <;> omega
      · rw [b]; exact h2
      · rw [c]; exact h3

theorem loop_agree (cs : Str) : ∀ (i : Nat) (st : Duration F × Ctx), loop o .debug i st cs ≠ .panic →
    loop o .release i st cs = loop o .debug i st cs := by
  induction cs with
  | nil => intros; rfl
  | cons c cs ih =>
    intro i st h
    unfold loop at h ⊢
    have h1 : step o .debug i st c ≠ .panic := by intro e; rw [e] at h; exact h rfl
    rw [step_agree o i st c h1]
    cases hs : step o .debug i st c with
    | err => rfl
    | panic => rfl
    | ok st' =>
      rw [hs] at h
      simp only [Res.ok_bind] at h ⊢
      exact ih _ _ h

theorem loop_release_ne_panic (cs : Str) : ∀ (i : Nat) (st : Duration F × Ctx),
    loop o .release i st cs ≠ .panic := by
  induction cs with
  | nil => intros; simp [loop]
  | cons c cs ih =>
    intro i st h
    unfold loop at h
    cases hs : step o .release i st c with
    | err => rw [hs] at h; simp [Res.err_bind] at h
    | panic => exact step_release_ne_panic o i st c hs
    | ok st' => rw [hs, Res.ok_bind] at h; exact ih _ _ h

theorem loop_small (cs : Str) : ∀ (i k : Nat) (st : Duration F × Ctx), Small k st.2 →
    k + cs.countP Str.isAsciiDigit ≤ 19 → loop o p i st cs ≠ .panic := by
  induction cs with
  | nil => intros; simp [loop]
  | cons c cs ih =>
    intro i k st h hk
    rw [List.countP_cons] at hk
    obtain ⟨h1, h2⟩ := step_small o p i k st c h (by omega)
    unfold loop
    cases hs : step o p i st c with
    | err => simp [Res.err_bind]
    | panic => exact absurd hs h1
    | ok st' => rw [Res.ok_bind]; exact ih _ _ _ (h2 st' hs) (by omega)

theorem finish_ne_panic (st : Duration F × Ctx) : finish st ≠ .panic := by
  unfold finish
  simp only
  repeat' split
  all_goals simp

theorem fromStr_P (cs : Str) : fromStr o p ('P' :: cs) = run o p (Duration.default o, ctxD 0) cs := by
  unfold fromStr run
  rw [if_neg (by simp)]
  congr 1
  show (step o p 0 _ 'P').bind _ = _
  have : step o p 0 (Duration.default o, Ctx.new) 'P' = .ok (Duration.default o, ctxD 0) := by
    simp [step, Ctx.new, ctxD]
  rw [this, Res.ok_bind, loop_eq_body o p cs 1 _ (Or.inr ⟨by omega, rfl⟩)]

end Verif.Lemmas.Dur
