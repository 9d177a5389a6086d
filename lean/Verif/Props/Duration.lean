import Verif.Lemmas.Duration6

/-! # C11–C15: xs:duration -/

namespace Verif.Props

open Verif Verif.Model Verif.Spec Verif.Lemmas.Dur
open Verif.Model.Duration (fromStr display toStdDuration)

variable {F : Type}

/-- Seconds computed by the machine from whole part, fraction numerator and denominator. -/
def machineSeconds (o : FloatOps F) : SecParts → F
  | none => o.zero
  | some (n, a, b) => o.add (o.ofU64 n) (o.div (o.ofU64 a) (o.ofU64 b))

/-- The number of seconds denoted. -/
def denotedSeconds : SecParts → Rat
  | none => 0
  | some (n, a, b) => (n : Rat) + (a : Rat) / (b : Rat)

theorem machineSeconds_eq (o : FloatOps F) (s : SecParts) : secondsOf o s = machineSeconds o s := by
  cases s <;> rfl

/-- The duration denoted by the parts of an XSD duration text. -/
def denoted (o : FloatOps F) (x : DurParts) : Duration F :=
  ⟨x.neg, DurParts.val x.y, DurParts.val x.m, DurParts.val x.d, DurParts.val x.h, DurParts.val x.n,
    machineSeconds o x.sec⟩

/-! ## C11 completeness -/

/-- **C11** Every XSD duration text whose numbers fit is accepted with the denoted components, in
both build profiles and for every floating point implementation. -/
theorem C11_complete (o : FloatOps F) (p : Profile) (s : Str) (x : DurParts)
    (hx : XsdDuration s x) (hf : x.Fits) : fromStr o p s = .ok (denoted o x) := by
  rw [fromStr_iff]
  exact ⟨x.sec, accepts_of_xsd p hx hf, by rw [machineSeconds_eq]; rfl⟩

/-- **C11** (seconds) With exact arithmetic the seconds are the denoted decimal number. -/
theorem C11_exact_seconds (sh : Rat → Str) (p : Profile) (s : Str) (x : DurParts)
    (hx : XsdDuration s x) (hf : x.Fits) :
    ∃ d, fromStr (exactOps sh) p s = .ok d ∧ d.seconds = denotedSeconds x.sec := by
  refine ⟨_, C11_complete _ p s x hx hf, ?_⟩
  simp only [denoted]
  cases h : x.sec with
  | none => rfl
  | some q => obtain ⟨n, a, b⟩ := q; rfl

/-- **C11** (seconds) With binary64 arithmetic the seconds are the denoted decimal number up to a
relative error of 2^-50. -/
theorem C11_ieee_seconds (sh : Rat → Str) (p : Profile) (s : Str) (x : DurParts)
    (hx : XsdDuration s x) (hf : x.Fits) :
    ∃ d, fromStr (Ieee.ops sh) p s = .ok d ∧
      |d.seconds - denotedSeconds x.sec| ≤ denotedSeconds x.sec / 2 ^ 50 := by
  refine ⟨_, C11_complete _ p s x hx hf, ?_⟩
  simp only [denoted]
  unfold DurParts.sec
  cases h : x.s with
  | none => simp [machineSeconds, denotedSeconds, Ieee.ops]
  | some q =>
    obtain ⟨ds, f⟩ := q
    cases f with
    | none => exact seconds_error (decVal ds) 0 1 (by omega)
    | some fs => exact seconds_error (decVal ds) (decVal fs) (10 ^ fs.length) (Nat.pow_pos (by omega))

/-- **C11** (seconds) Whole seconds below 2^53 are exact in binary64. -/
theorem C11_ieee_whole (sh : Rat → Str) (p : Profile) (s : Str) (x : DurParts) (ds : List Nat)
    (hx : XsdDuration s x) (hf : x.Fits) (hs : x.s = some (ds, none)) (hn : decVal ds < 2 ^ 53) :
    ∃ d, fromStr (Ieee.ops sh) p s = .ok d ∧ d.seconds = (decVal ds : Rat) := by
  refine ⟨_, C11_complete _ p s x hx hf, ?_⟩
  simp only [denoted, DurParts.sec, hs, machineSeconds, Ieee.ops]
  have h1 := Lemmas.Flt.rnd_nat (n := 1) (by decide)
  have h0 := Lemmas.Flt.rnd_nat (n := 0) (by decide)
  simp only [Nat.cast_one, Nat.cast_zero] at h1 h0 ⊢
  rw [h1, h0, Lemmas.Flt.rnd_nat hn]
  simp [h0, Lemmas.Flt.rnd_nat hn]

/-- **C11** (finding) The seconds are not always the nearest binary64 number: `PT1.14S`. -/
theorem C11_not_nearest : ∃ s x, XsdDuration s x ∧ x.Fits ∧ ∀ sh p,
    ∃ d, fromStr (Ieee.ops sh) p s = .ok d ∧ d.seconds ≠ Ieee.rnd (denotedSeconds x.sec) := by
  let x : DurParts := ⟨false, none, none, none, none, none, some ([1], some [1, 4])⟩
  have hx : XsdDuration "PT1.14S".toList x := by
    refine ⟨⟨by simp [x], by simp [x], by simp [x], by simp [x], by simp [x], ?_, ?_⟩, ?_, by decide⟩
    · intro ds f e; simp [x] at e; rw [← e.1]; exact ⟨by simp, by simp [Digits]⟩
    · intro ds f e; simp [x] at e; rw [← e.2]; exact ⟨by simp, by simp [Digits]⟩
    · simp [x, DurParts.NonEmpty, DurParts.timeText, secText]
  have hf : x.Fits := by
    refine ⟨by simp [x], by simp [x], by simp [x], by simp [x], by simp [x], ?_, ?_⟩
    · intro ds f e; simp [x] at e; rw [← e.1]; decide
    · intro ds f e; simp [x] at e; rw [← e.2]; decide
  refine ⟨_, x, hx, hf, fun sh p => ⟨_, C11_complete _ p _ x hx hf, ?_⟩⟩
  show Ieee.rnd (Ieee.rnd (1 : Nat) + Ieee.rnd (Ieee.rnd (14 : Nat) / Ieee.rnd (100 : Nat))) ≠
    Ieee.rnd (((1 : Nat) : Rat) + ((14 : Nat) : Rat) / ((100 : Nat) : Rat))
  decide +kernel

/-- Non-trivial case: `-P1Y2M3DT4H5M6.75S`. -/
example : ∃ x : DurParts, XsdDuration "-P1Y2M3DT4H5M6.75S".toList x ∧ x.Fits := by
  refine ⟨⟨true, some [1], some [2], some [3], some [4], some [5], some ([6], some [7, 5])⟩,
    ⟨⟨?_, ?_, ?_, ?_, ?_, ?_, ?_⟩, ?_, by decide⟩, ⟨?_, ?_, ?_, ?_, ?_, ?_, ?_⟩⟩
  all_goals first
    | (intro ds e; simp at e; rw [← e]; first | exact ⟨by simp, by simp [Digits]⟩ | decide)
    | (intro ds f e; simp at e; first
        | (rw [← e.1]; first | exact ⟨by simp, by simp [Digits]⟩ | simp [decVal])
        | (rw [← e.2]; first | exact ⟨by simp, by simp [Digits]⟩ | decide))
    | simp [DurParts.NonEmpty, DurParts.dateText, compText]

/-! ## C12 soundness -/

/-- **C12** The exact language of the parser (`Accepts`, independent of the parser): acceptance and
the value read are characterised completely, in both build profiles. -/
theorem C12_accepts_iff (o : FloatOps F) (p : Profile) (s : Str) (D : Duration F) :
    fromStr o p s = .ok D ↔ ∃ sec, Accepts p s D.isNegative D.years D.months D.days D.hours D.minutes sec ∧
      D.seconds = machineSeconds o sec := by
  rw [fromStr_iff]
  simp only [machineSeconds_eq]

/-- **C12** (partial: texts with leftover digits are excluded) If a text has no digit or point at
its end or right before `T` and is accepted, then it is an XSD duration text; when its numbers fit
(always so in debug builds) the result is the denoted duration.  The full statement (without
`Clean`) is false: `C12_violated`. -/
theorem C12_sound_partial (o : FloatOps F) (p : Profile) (s : Str) (D : Duration F) (hc : Clean s)
    (h : fromStr o p s = .ok D) :
    ∃ x, XsdDuration s x ∧ (p = .debug → x.Fits) ∧ (x.Fits → D = denoted o x) := by
  obtain ⟨sec, hA, hs⟩ := (fromStr_iff o p s D).1 h
  obtain ⟨x, h1, h2, h3, h4⟩ := accepts_clean p hA hc
  refine ⟨x, h1, h3, fun hf => ?_⟩
  obtain ⟨e1, e2, e3, e4, e5, e6⟩ := h4 hf
  obtain ⟨neg, y, m, d, hh, n, sc⟩ := D
  simp only at *
  unfold denoted
  rw [h2, ← e1, ← e2, ← e3, ← e4, ← e5, ← e6, hs, machineSeconds_eq]

example : Clean "P1DT2H".toList := by
  have e : "P1DT2H".toList = ['P', '1', 'D', 'T', '2', 'H'] := by decide
  rw [e]
  refine ⟨by simp, ?_, ?_⟩
  · intro pre c h
    have h' := congrArg List.getLast? h
    simp at h'
    subst h'; decide
  · intro pre c post h
    rcases pre with _ | ⟨a, _ | ⟨b, _ | ⟨d, _ | ⟨e, _ | ⟨f, _ | ⟨g, _ | ⟨k, pre⟩⟩⟩⟩⟩⟩⟩ <;> simp at h
    rw [← h.2.2.1]; decide

/-- Leading to text: the last character of an XSD duration is a component letter. -/
theorem xsd_last {s : Str} {x : DurParts} (h : XsdDuration s x) :
    ∃ pre c, s = pre ++ [c] ∧ c ∈ ['Y', 'M', 'D', 'H', 'S'] := by
  obtain ⟨-, hne, rfl⟩ := h
  have key : ∀ (c : Char) (o : Option (List Nat)), compText c o = [] ∨ ∃ pre, compText c o = pre ++ [c] := by
    intro c o; cases o with
    | none => exact Or.inl rfl
    | some ds => exact Or.inr ⟨_, rfl⟩
  have keyS : secText x.s = [] ∨ ∃ pre, secText x.s = pre ++ ['S'] := by
    cases x.s with
    | none => exact Or.inl rfl
    | some q =>
      obtain ⟨ds, f⟩ := q
      cases f with
      | none => exact Or.inr ⟨_, rfl⟩
      | some fs => exact Or.inr ⟨_, rfl⟩
  unfold DurParts.text
  by_cases ht : x.timeText = []
  · rw [if_pos ht, List.append_nil]
    have hd : x.dateText ≠ [] := by intro h; exact hne (by rw [h, ht]; rfl)
    unfold DurParts.dateText at hd ⊢
    rcases key 'D' x.d with h3 | ⟨p3, h3⟩
    · rcases key 'M' x.m with h2 | ⟨p2, h2⟩
      · rcases key 'Y' x.y with h1 | ⟨p1, h1⟩
        · rw [h1, h2, h3] at hd; simp at hd
        · exact ⟨durSign x.neg ++ 'P' :: p1, 'Y', by rw [h1, h2, h3]; simp, by simp⟩
      · exact ⟨durSign x.neg ++ 'P' :: (compText 'Y' x.y ++ p2), 'M', by rw [h2, h3]; simp, by simp⟩
    · exact ⟨durSign x.neg ++ 'P' :: (compText 'Y' x.y ++ compText 'M' x.m ++ p3), 'D', by rw [h3]; simp, by simp⟩
  · rw [if_neg ht]
    unfold DurParts.timeText at ht ⊢
    rcases keyS with h3 | ⟨p3, h3⟩
    · rcases key 'M' x.n with h2 | ⟨p2, h2⟩
      · rcases key 'H' x.h with h1 | ⟨p1, h1⟩
        · rw [h1, h2, h3] at ht; simp at ht
        · exact ⟨durSign x.neg ++ 'P' :: (x.dateText ++ 'T' :: p1), 'H', by rw [h1, h2, h3]; simp, by simp⟩
      · exact ⟨durSign x.neg ++ 'P' :: (x.dateText ++ 'T' :: (compText 'H' x.h ++ p2)), 'M', by rw [h2, h3]; simp,
          by simp⟩
    · exact ⟨durSign x.neg ++ 'P' :: (x.dateText ++ 'T' :: (compText 'H' x.h ++ compText 'M' x.n ++ p3)), 'S',
        by rw [h3]; simp, by simp⟩

/-- **C12** (violated) Texts outside the XSD grammar are accepted, in both profiles: empty text,
leftover zeros at the end, leftover fraction at the end, leftover digits after decimal seconds. -/
theorem C12_violated (o : FloatOps F) (p : Profile) :
    ∀ s ∈ ["".toList, "P1Y0".toList, "PT1H0.5".toList, "PT1S0.".toList, "PT1.5S7".toList],
      (∃ D, fromStr o p s = .ok D) ∧ ¬ ∃ x, XsdDuration s x := by
  have hn : ∀ s : Str, (s = [] ∨ ∃ pre c, s = pre ++ [c] ∧ c ∉ ['Y', 'M', 'D', 'H', 'S']) → ¬ ∃ x, XsdDuration s x := by
    rintro s hs ⟨x, hx⟩
    obtain ⟨pre, c, rfl, hc⟩ := xsd_last hx
    rcases hs with hs | ⟨pre', c', e, hc'⟩
    · simp at hs
    · have := congrArg List.getLast? e
      simp at this
      subst this; exact hc' hc
  intro s hs
  simp only [List.mem_cons, List.not_mem_nil, or_false] at hs
  rcases hs with rfl | rfl | rfl | rfl | rfl
  · exact ⟨⟨_, rfl⟩, hn _ (Or.inl rfl)⟩
  · exact ⟨by cases p <;> exact ⟨_, rfl⟩, hn _ (Or.inr ⟨['P', '1', 'Y'], '0', by decide, by decide⟩)⟩
  · exact ⟨by cases p <;> exact ⟨_, rfl⟩, hn _ (Or.inr ⟨"PT1H0.".toList, '5', by decide, by decide⟩)⟩
  · exact ⟨by cases p <;> exact ⟨_, rfl⟩, hn _ (Or.inr ⟨"PT1S0".toList, '.', by decide, by decide⟩)⟩
  · exact ⟨by cases p <;> exact ⟨_, rfl⟩, hn _ (Or.inr ⟨"PT1.5S".toList, '7', by decide, by decide⟩)⟩

/-- **C12** (finding) Digits before `T` run together with the digits after it: `P0T1H` is read as
one hour, `P1D0.5T0S` as one day and half a second. -/
theorem C12_digits_before_T (o : FloatOps F) (p : Profile) :
    fromStr o p "P0T1H".toList = .ok ⟨false, 0, 0, 0, 1, 0, o.zero⟩ ∧
    fromStr o p "P0TH".toList = .ok ⟨false, 0, 0, 0, 0, 0, o.zero⟩ ∧
    fromStr o p "P1D0.5T0S".toList = .ok ⟨false, 0, 0, 1, 0, 0,
      o.add (o.ofU64 0) (o.div (o.ofU64 50) (o.ofU64 100))⟩ ∧
    fromStr o p "P1D0.5TS".toList = .ok ⟨false, 0, 0, 1, 0, 0,
      o.add (o.ofU64 0) (o.div (o.ofU64 5) (o.ofU64 10))⟩ := by
  cases p <;> exact ⟨rfl, rfl, rfl, rfl⟩

/-! ## C13 display then parse -/

/-- Text of a non-negative decimal number: whole digits and optional fraction digits. -/
def decimalText (ds : List Nat) (f : Option (List Nat)) : Str :=
  dtext ds ++ match f with
    | none => []
    | some fs => '.' :: dtext fs

/-- Seconds as read back from the digits. -/
def rereadSeconds (o : FloatOps F) (ds : List Nat) (f : Option (List Nat)) : F :=
  match f with
  | none => machineSeconds o (some (decVal ds, 0, 1))
  | some fs => machineSeconds o (some (decVal ds, decVal fs, 10 ^ fs.length))

/-- **C13** For every duration with 64-bit components whose positive seconds are printed as a decimal
number that fits, the printed text is an XSD duration text and it parses to the same duration with
the seconds recomputed from the printed digits (both profiles). -/
theorem C13_display_parse (o : FloatOps F) (p : Profile) (d : Duration F) (ds : List Nat) (f : Option (List Nat))
    (hu : d.years < 2 ^ 64 ∧ d.months < 2 ^ 64 ∧ d.days < 2 ^ 64 ∧ d.hours < 2 ^ 64 ∧ d.minutes < 2 ^ 64)
    (hs : o.gtZero d.seconds = true → o.show' d.seconds = decimalText ds f ∧ Digits1 ds ∧
      decVal ds < 2 ^ 64 ∧ ∀ fs, f = some fs → Digits1 fs ∧ fs.length ≤ 19) :
    (∃ x, XsdDuration (display o d) x ∧ x.Fits) ∧
    fromStr o p (display o d) =
      .ok { d with seconds := if o.gtZero d.seconds then rereadSeconds o ds f else o.zero } := by
  obtain ⟨u1, u2, u3, u4, u5⟩ := hu
  obtain ⟨xy, ty, wy, vy, dy⟩ := comp_parts 'Y' d.years
  obtain ⟨xm, tm, wm, vm, dm⟩ := comp_parts 'M' d.months
  obtain ⟨xd, td, wd, vd, dd⟩ := comp_parts 'D' d.days
  obtain ⟨xh, th, wh, vh, dh⟩ := comp_parts 'H' d.hours
  obtain ⟨xn, tn, wn, vn, dn⟩ := comp_parts 'M' d.minutes
  have hsec : ∃ xs : Option (List Nat × Option (List Nat)),
      (if o.gtZero d.seconds then o.show' d.seconds ++ ['S'] else []) = secText xs ∧
      (∀ ds f, xs = some (ds, f) → Digits1 ds ∧ decVal ds < 2 ^ 64) ∧
      (∀ ds fs, xs = some (ds, some fs) → Digits1 fs ∧ fs.length ≤ 19) ∧
      machineSeconds o (DurParts.sec ⟨false, none, none, none, none, none, xs⟩) =
        (if o.gtZero d.seconds then rereadSeconds o ds f else o.zero) := by
    by_cases hg : o.gtZero d.seconds = true
    · obtain ⟨h1, h2, h3, h4⟩ := hs hg
      refine ⟨some (ds, f), ?_, ?_, ?_, ?_⟩
      · rw [if_pos hg, h1]
        cases f with
        | none => simp [decimalText, secText]
        | some fs => simp [decimalText, secText]
      · intro ds' f' e; cases e; exact ⟨h2, h3⟩
      · intro ds' fs' e; cases e; exact h4 _ rfl
      · rw [if_pos hg]
        cases f with
        | none => rfl
        | some fs => rfl
    · refine ⟨none, by rw [if_neg hg]; rfl, by simp, by simp, by rw [if_neg hg]; rfl⟩
  obtain ⟨xs, ts, ws, wf, vs⟩ := hsec
  by_cases hempty : compText 'Y' xy ++ compText 'M' xm ++ compText 'D' xd ++
      (compText 'H' xh ++ compText 'M' xn ++ secText xs) = []
  · -- everything is zero: `P0Y`
    simp only [List.append_eq_nil_iff] at hempty
    obtain ⟨⟨⟨e1, e2⟩, e3⟩, ⟨e4, e5⟩, e6⟩ := hempty
    have n0 : ∀ (c : Char) (x : Option (List Nat)), compText c x = [] → x = none := by
      intro c x hx; cases x with
      | none => rfl
      | some ds => simp [compText] at hx
    have s0 : xs = none := by
      cases xs with
      | none => rfl
      | some q => obtain ⟨a, b⟩ := q; cases b <;> simp [secText] at e6
    have := n0 _ _ e1; subst this
    have := n0 _ _ e2; subst this
    have := n0 _ _ e3; subst this
    have := n0 _ _ e4; subst this
    have := n0 _ _ e5; subst this
    subst s0
    have hdisp : display o d = DurParts.text ⟨d.isNegative, some [0], none, none, none, none, none⟩ := by
      unfold display
      simp only [ty, tm, td, th, tn, ts]
      cases d.isNegative <;> rfl
    have hx : XsdDuration (display o d) ⟨d.isNegative, some [0], none, none, none, none, none⟩ := by
      refine ⟨⟨?_, by simp, by simp, by simp, by simp, by simp, by simp⟩, ?_, hdisp⟩
      · intro ds e; cases e; exact ⟨by simp, by simp [Digits]⟩
      · simp [DurParts.NonEmpty, DurParts.dateText, compText]
    have hf : DurParts.Fits ⟨d.isNegative, some [0], none, none, none, none, none⟩ := by
      refine ⟨?_, by simp, by simp, by simp, by simp, by simp, by simp⟩
      intro ds e; cases e; decide
    refine ⟨⟨_, hx, hf⟩, ?_⟩
    rw [C11_complete o p _ _ hx hf]
    unfold denoted
    congr 1
    rw [← vs]
    simp only [DurParts.val] at vy vm vd vh vn ⊢
    rw [← vy, ← vm, ← vd, ← vh, ← vn]
    rfl
  · have hdisp : display o d = DurParts.text ⟨d.isNegative, xy, xm, xd, xh, xn, xs⟩ := by
      unfold display DurParts.text
      simp only [ty, tm, td, th, tn, ts]
      have e1 : DurParts.timeText ⟨d.isNegative, xy, xm, xd, xh, xn, xs⟩ =
        compText 'H' xh ++ compText 'M' xn ++ secText xs := rfl
      have e2 : DurParts.dateText ⟨d.isNegative, xy, xm, xd, xh, xn, xs⟩ =
        compText 'Y' xy ++ compText 'M' xm ++ compText 'D' xd := rfl
      rw [e1, e2]
      have e3 : (if d.isNegative = true then ['-', 'P'] else ['P']) = durSign d.isNegative ++ ['P'] := by
        cases d.isNegative <;> rfl
      by_cases ht : compText 'H' xh ++ compText 'M' xn ++ secText xs = []
      · rw [if_pos ht, if_pos ht]
        rw [ht, List.append_nil] at hempty
        rw [if_neg hempty, e3]; simp
      · rw [if_neg ht, if_neg ht, e3]; simp
    have hx : XsdDuration (display o d) ⟨d.isNegative, xy, xm, xd, xh, xn, xs⟩ :=
      ⟨⟨wy, wm, wd, wh, wn, fun a b e => (ws a b e).1, fun a b e => (wf a b e).1⟩, hempty, hdisp⟩
    have hf : DurParts.Fits ⟨d.isNegative, xy, xm, xd, xh, xn, xs⟩ := by
      refine ⟨?_, ?_, ?_, ?_, ?_, fun a b e => (ws a b e).2, fun a b e => (wf a b e).2⟩
      · intro ds e; rw [dy ds e]; exact u1
      · intro ds e; rw [dm ds e]; exact u2
      · intro ds e; rw [dd ds e]; exact u3
      · intro ds e; rw [dh ds e]; exact u4
      · intro ds e; rw [dn ds e]; exact u5
    refine ⟨⟨_, hx, hf⟩, ?_⟩
    rw [C11_complete o p _ _ hx hf]
    unfold denoted
    congr 1
    rw [← vs]
    simp only [vy, vm, vd, vh, vn]
    rfl

/-- **C13** Round trip for whole seconds below 2^53 (binary64, printed as std prints integers). -/
theorem C13_roundtrip_whole (sh : Rat → Str) (p : Profile) (d : Duration Rat) (n : Nat)
    (hu : d.years < 2 ^ 64 ∧ d.months < 2 ^ 64 ∧ d.days < 2 ^ 64 ∧ d.hours < 2 ^ 64 ∧ d.minutes < 2 ^ 64)
    (hn : n < 2 ^ 53) (hd : d.seconds = n) (hsh : sh n = Str.natStr n) :
    fromStr (Ieee.ops sh) p (display (Ieee.ops sh) d) = .ok d := by
  obtain ⟨ds, h1, h2, h3⟩ := natStr_dtext n
  have h := (C13_display_parse (Ieee.ops sh) p d ds none hu (by
    intro _
    refine ⟨?_, h1, by omega, by simp⟩
    show sh d.seconds = _
    rw [hd, hsh, h2]; simp [decimalText])).2
  rw [h]
  congr 1
  obtain ⟨a, b, c, e, f, g, s⟩ := d
  simp only at hd
  subst hd
  congr 1
  have h1 := Lemmas.Flt.rnd_nat (n := 1) (by decide)
  have h0 := Lemmas.Flt.rnd_zero
  simp only [Nat.cast_one] at h1
  by_cases hg : (Ieee.ops sh).gtZero (n : Rat) = true
  · rw [if_pos hg]
    simp [rereadSeconds, machineSeconds, Ieee.ops, h3, h1, h0, Lemmas.Flt.rnd_nat hn]
  · rw [if_neg hg]
    simp only [Ieee.ops, decide_eq_true_eq] at hg ⊢
    have : n = 0 := by
      rcases Nat.eq_zero_or_pos n with h | h
      · exact h
      · exfalso; apply hg; exact_mod_cast h
    subst this; simp

example : ∃ (sh : Rat → Str) (d : Duration Rat) (n : Nat), n < 2 ^ 53 ∧ d.seconds = n ∧ sh n = Str.natStr n ∧
    d.years < 2 ^ 64 := ⟨fun q => Str.natStr q.num.toNat, ⟨true, 1, 2, 3, 4, 5, (61 : Nat)⟩, 61, by decide, rfl, rfl, by decide⟩

/-- **C13** (violated) The duration whose seconds are the binary64 number nearest to 1.14, printed
`1.14` (std prints the shortest decimal that identifies the number), does not survive. -/
theorem C13_violated (sh : Rat → Str) (p : Profile) (hsh : sh (Ieee.rnd (114 / 100)) = "1.14".toList) :
    let d : Duration Rat := ⟨false, 0, 0, 0, 0, 0, Ieee.rnd (114 / 100)⟩
    fromStr (Ieee.ops sh) p (display (Ieee.ops sh) d) ≠ .ok d := by
  intro d
  have h := (C13_display_parse (Ieee.ops sh) p d [1] (some [1, 4]) (by simp [d]) (by
    intro _
    refine ⟨?_, ⟨by simp, by simp [Digits]⟩, by decide, ?_⟩
    · show sh _ = _
      rw [hsh]; decide
    · intro fs e; cases e; exact ⟨⟨by simp, by simp [Digits]⟩, by decide⟩)).2
  rw [h]
  have hg : (Ieee.ops sh).gtZero d.seconds = true := by
    show decide (0 < Ieee.rnd (114 / 100)) = true
    decide +kernel
  rw [if_pos hg]
  intro e
  simp only [Res.ok.injEq, d, Duration.mk.injEq, true_and] at e
  revert e
  show Ieee.rnd (Ieee.rnd (1 : Nat) + Ieee.rnd (Ieee.rnd (14 : Nat) / Ieee.rnd (100 : Nat))) ≠ Ieee.rnd (114 / 100)
  decide +kernel

/-- **C13** (violated) Seconds of 2^64 or more do not survive: panic in debug builds, zero seconds
in release builds. -/
theorem C13_large_seconds (sh : Rat → Str) (hsh : sh 18446744073709551616 = "18446744073709551616".toList) :
    let d : Duration Rat := ⟨false, 0, 0, 0, 0, 0, 18446744073709551616⟩
    fromStr (Ieee.ops sh) .debug (display (Ieee.ops sh) d) = .panic ∧
    fromStr (Ieee.ops sh) .release (display (Ieee.ops sh) d) = .ok { d with seconds := 0 } := by
  intro d
  have hg : (Ieee.ops sh).gtZero d.seconds = true := by
    show decide ((0 : Rat) < 18446744073709551616) = true
    decide +kernel
  have hdisp : display (Ieee.ops sh) d = "PT18446744073709551616S".toList := by
    unfold display
    simp only [hg, if_true, d]
    show (if _ = [] then _ else _) = _
    rw [show (Ieee.ops sh).show' = sh from rfl, hsh]
    decide
  rw [hdisp]
  have key : ∀ sh' : Rat → Str,
      fromStr (Ieee.ops sh') .debug "PT18446744073709551616S".toList =
        fromStr (Ieee.ops fun _ => []) .debug "PT18446744073709551616S".toList ∧
      fromStr (Ieee.ops sh') .release "PT18446744073709551616S".toList =
        fromStr (Ieee.ops fun _ => []) .release "PT18446744073709551616S".toList := fun _ => ⟨rfl, rfl⟩
  rw [(key sh).1, (key sh).2]
  constructor <;> decide +kernel

/-! ## C14 conversion to std::time::Duration -/

/-- Total number of whole seconds. -/
def totalSeconds (d : Duration F) (whole : Nat) : Nat :=
  d.days * 86400 + d.hours * 3600 + d.minutes * 60 + whole

/-- **C14** `Err` exactly when years or months are non-zero. -/
theorem C14_err_iff (o : FloatOps F) (p : Profile) (d : Duration F) :
    toStdDuration o p d = .err ↔ d.years ≠ 0 ∨ d.months ≠ 0 := by
  unfold toStdDuration
  by_cases h : d.years > 0 ∨ d.months > 0
  · rw [if_pos h]; simp; omega
  · rw [if_neg h]
    have hb : ∀ (n : Nat) (f : Nat → Res (Nat × Nat)), (∀ m, f m ≠ .err) → (U64.fit p n).bind f ≠ .err := by
      intro n f hf
      cases h : U64.fit p n with
      | ok m => exact hf m
      | err => exact absurd h (fit_ne_err p n)
      | panic => simp
    constructor
    · intro h'
      exfalso
      revert h'
      simp only [U64.mul, U64.add]
      repeat (first | (simp; done) | (apply hb; intro _))
    · omega

/-- **C14** Value: whole seconds exactly when the total fits 64 bits; otherwise debug builds panic
and release builds wrap around.  The nanoseconds are `(seconds - whole) * 10^9`. -/
theorem C14_value (o : FloatOps F) (p : Profile) (d : Duration F) (h : d.years = 0 ∧ d.months = 0) :
    toStdDuration o p d = (U64.fit p (totalSeconds d (o.toU64 d.seconds))).bind fun t =>
      .ok (t, o.toU32 (o.mul (o.sub d.seconds (o.ofU64 (o.toU64 d.seconds))) o.e9)) := by
  unfold toStdDuration
  rw [if_neg (by omega)]
  simp only [U64.mul, U64.add, totalSeconds]
  generalize o.toU64 d.seconds = w
  generalize o.toU32 _ = nn
  generalize d.days = D
  generalize d.hours = H
  generalize d.minutes = M
  cases p with
  | debug =>
    simp only [fit_debug]
    by_cases hfit : D * 86400 + H * 3600 + M * 60 + w < U64.size
    · rw [if_pos hfit, if_pos (by omega), Res.ok_bind, if_pos (by omega), Res.ok_bind, if_pos (by omega),
        Res.ok_bind, if_pos (by omega), Res.ok_bind, if_pos (by omega), Res.ok_bind, if_pos (by omega),
        Res.ok_bind, Res.ok_bind]
      congr 2; omega
    · rw [if_neg hfit, Res.panic_bind]
      by_cases h1 : 24 * D < U64.size
      · rw [if_pos h1, Res.ok_bind]
        by_cases h2 : H + 24 * D < U64.size
        · rw [if_pos h2, Res.ok_bind]
          by_cases h3 : 60 * (H + 24 * D) < U64.size
          · rw [if_pos h3, Res.ok_bind]
            by_cases h4 : M + 60 * (H + 24 * D) < U64.size
            · rw [if_pos h4, Res.ok_bind]
              by_cases h5 : 60 * (M + 60 * (H + 24 * D)) < U64.size
              · rw [if_pos h5, Res.ok_bind, if_neg (by omega), Res.panic_bind]
              · rw [if_neg h5, Res.panic_bind]
            · rw [if_neg h4, Res.panic_bind]
          · rw [if_neg h3, Res.panic_bind]
        · rw [if_neg h2, Res.panic_bind]
      · rw [if_neg h1, Res.panic_bind]
  | release =>
    simp only [fit_release, Res.ok_bind]
    congr 2
    simp only [show U64.size = 18446744073709551616 from rfl]
    omega

/-- **C14** With exact arithmetic and seconds in range the result is the exact length of the duration
rounded down to nanoseconds. -/
theorem C14_exact (sh : Rat → Str) (p : Profile) (d : Duration Rat) (h : d.years = 0 ∧ d.months = 0)
    (h0 : 0 ≤ d.seconds) (hfit : totalSeconds d d.seconds.floor.toNat < 2 ^ 64) :
    toStdDuration (exactOps sh) p d =
      .ok (totalSeconds d d.seconds.floor.toNat,
        ((d.seconds - d.seconds.floor) * 1000000000).floor.toNat) := by
  rw [C14_value _ p d h]
  have hfl : d.seconds.floor.toNat < 18446744073709551616 := by
    unfold totalSeconds at hfit
    have : (2 : Nat) ^ 64 = 18446744073709551616 := by decide
    omega
  have hn : (exactOps sh).toU64 d.seconds = d.seconds.floor.toNat := by
    show min _ (18446744073709551616 - 1) = _
    omega
  rw [hn, fit_of_lt p hfit, Res.ok_bind]
  have hfloor : ((d.seconds.floor.toNat : Nat) : Rat) = (d.seconds.floor : Rat) := by
    have : 0 ≤ d.seconds.floor := by
      rw [Rat.le_floor_iff]; exact_mod_cast h0
    exact_mod_cast Int.toNat_of_nonneg this
  have : (exactOps sh).toU32 ((exactOps sh).mul ((exactOps sh).sub d.seconds
      ((exactOps sh).ofU64 d.seconds.floor.toNat)) (exactOps sh).e9) =
      ((d.seconds - d.seconds.floor) * 1000000000).floor.toNat := by
    show min ((d.seconds - ((d.seconds.floor.toNat : Nat) : Rat)) * 1000000000).floor.toNat 4294967295 = _
    rw [hfloor]
    have hlt : ((d.seconds - d.seconds.floor) * 1000000000).floor < 4294967295 := by
      rw [Rat.floor_lt_iff]
      have := Rat.lt_floor_add_one d.seconds
      push_cast at this ⊢
      linarith
    omega
  rw [this]

/-- **C14** (violated) The sign is ignored. -/
theorem C14_sign_ignored (o : FloatOps F) (p : Profile) (d : Duration F) (b : Bool) :
    toStdDuration o p { d with isNegative := b } = toStdDuration o p d := rfl

/-- **C14** (violated) Concretely: minus one hour converts to plus one hour. -/
theorem C14_violated_sign (sh : Rat → Str) (p : Profile) :
    (fromStr (Ieee.ops sh) p "-PT1H".toList).bind (toStdDuration (Ieee.ops sh) p) = .ok (3600, 0) := by
  show (fromStr (Ieee.ops fun _ => []) p "-PT1H".toList).bind (toStdDuration (Ieee.ops fun _ => []) p) = .ok (3600, 0)
  cases p <;> decide +kernel

/-- **C14** (finding) Nanoseconds are truncated after binary rounding: `PT2.3S` loses a nanosecond. -/
theorem C14_nanos_truncated (p : Profile) :
    (fromStr (Ieee.ops fun _ => []) p "PT2.3S".toList).bind (toStdDuration (Ieee.ops fun _ => []) p) =
      .ok (2, 299999999) := by
  cases p <;> decide +kernel

/-- **C14** (violated) Overflow is not reported as an error. -/
theorem C14_violated_overflow (o : FloatOps F) (w : F) (hw : o.toU64 w = 0) :
    let d : Duration F := ⟨false, 0, 0, 2 ^ 61, 0, 0, w⟩
    toStdDuration o .debug d = .panic ∧ ∃ n, toStdDuration o .release d = .ok (0, n) := by
  intro d
  constructor
  · rw [C14_value _ _ _ ⟨rfl, rfl⟩]
    simp only [d, totalSeconds, hw, fit_debug]
    rw [if_neg (by decide)]; rfl
  · rw [C14_value _ _ _ ⟨rfl, rfl⟩]
    simp only [d, totalSeconds, hw, fit_release]
    exact ⟨_, rfl⟩

/-! ## C15 huge numbers -/

/-- **C15** (partial: texts with at most 19 digits) No panic and no wrap-around: both profiles give
the same result.  The full statement is false: `C15_violated`. -/
theorem C15_no_overflow_partial (o : FloatOps F) (s : Str) (h : s.countP Str.isAsciiDigit ≤ 19) :
    fromStr o .debug s ≠ .panic ∧ fromStr o .release s = fromStr o .debug s := by
  unfold fromStr
  by_cases hs : s = []
  · rw [if_pos hs, if_pos hs]; simp
  · rw [if_neg hs, if_neg hs]
    have h1 : Duration.loop o .debug 0 (Duration.default o, Duration.Ctx.new) s ≠ .panic :=
      loop_small o .debug s 0 0 _ ⟨Nat.lt_add_one 0, Nat.lt_add_one 0, Nat.le_refl 1⟩ (by omega)
    refine ⟨Res.bind_ne_panic h1 fun a _ => finish_ne_panic a, ?_⟩
    rw [loop_agree o s 0 _ h1]

example : "P9223372036854775807Y".toList.countP Str.isAsciiDigit ≤ 19 := by decide

/-- **C15** Whenever a debug build does not panic, release builds give the same result. -/
theorem C15_profiles_agree (o : FloatOps F) (s : Str) (h : fromStr o .debug s ≠ .panic) :
    fromStr o .release s = fromStr o .debug s := by
  unfold fromStr at h ⊢
  by_cases hs : s = []
  · rw [if_pos hs, if_pos hs]
  · rw [if_neg hs] at h ⊢
    rw [if_neg hs, loop_agree]
    intro e; rw [e] at h; exact h rfl

/-- **C15** Release builds never panic. -/
theorem C15_release_no_panic (o : FloatOps F) (s : Str) : fromStr o .release s ≠ .panic := by
  unfold fromStr
  by_cases hs : s = []
  · rw [if_pos hs]; simp
  · rw [if_neg hs]
    exact Res.bind_ne_panic (loop_release_ne_panic o s 0 _) fun a _ => finish_ne_panic a

/-- **C15** (violated) 2^64 years: panic in debug builds, zero years in release builds; a leftover
of 2^64 at the end is not noticed in release builds. -/
theorem C15_violated (o : FloatOps F) :
    fromStr o .debug "P18446744073709551616Y".toList = .panic ∧
    fromStr o .release "P18446744073709551616Y".toList = .ok ⟨false, 0, 0, 0, 0, 0, o.zero⟩ ∧
    fromStr o .release "P18446744073709551617Y".toList = .ok ⟨false, 1, 0, 0, 0, 0, o.zero⟩ ∧
    fromStr o .release "P1Y18446744073709551616".toList = .ok ⟨false, 1, 0, 0, 0, 0, o.zero⟩ := by
  let ds : List Nat := [1, 8, 4, 4, 6, 7, 4, 4, 0, 7, 3, 7, 0, 9, 5, 5, 1, 6, 1, 6]
  let ds' : List Nat := [1, 8, 4, 4, 6, 7, 4, 4, 0, 7, 3, 7, 0, 9, 5, 5, 1, 6, 1, 7]
  have hd : Digits ds := by simp [Digits, ds]
  have hd' : Digits ds' := by simp [Digits, ds']
  refine ⟨?_, ?_, ?_, ?_⟩
  · have e : "P18446744073709551616Y".toList = 'P' :: (dtext ds ++ ['Y']) := by decide
    rw [e, fromStr_P, run_num0 o _ _ _ rfl rfl rfl hd]
    rfl
  · rw [fromStr_iff]
    refine ⟨none, ?_, rfl⟩
    have e : "P18446744073709551616Y".toList = durSign false ++ 'P' :: ((dtext ds ++ ['Y']) ++ [] ++ [] ++ []) := by decide
    rw [e]
    exact .date false _ [] [] [] _ _ _ (.present ds 0 (by simp [ds]) hd (by unfold ReadNum; decide))
      .absent .absent (junk_nil _) (by simp)
  · rw [fromStr_iff]
    refine ⟨none, ?_, rfl⟩
    have e : "P18446744073709551617Y".toList = durSign false ++ 'P' :: ((dtext ds' ++ ['Y']) ++ [] ++ [] ++ []) := by decide
    rw [e]
    exact .date false _ [] [] [] _ _ _ (.present ds' 1 (by simp [ds']) hd' (by unfold ReadNum; decide))
      .absent .absent (junk_nil _) (by simp)
  · rw [fromStr_iff]
    refine ⟨none, ?_, rfl⟩
    have e : "P1Y18446744073709551616".toList = durSign false ++ 'P' :: ((dtext [1] ++ ['Y']) ++ [] ++ [] ++ dtext ds) := by decide
    rw [e]
    exact .date false _ [] [] _ _ _ _ (.present [1] 1 (by simp) (by simp [Digits]) (by unfold ReadNum; decide))
      .absent .absent (.whole ds hd (by unfold ReadNum; decide)) (by simp)

end Verif.Props
