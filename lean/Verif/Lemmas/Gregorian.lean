import Verif.Lemmas.Lexical

/-! # Helper lemmas for gDay, gMonth, gMonthDay, gYear, gYearMonth -/

namespace Verif.Lemmas

open Verif Verif.Model Verif.Spec Chrono

theorem utf8Bytes_eq (s : Str) : utf8Bytes s = Str.byteLen s := by
  induction s with
  | nil => rfl
  | cons c cs ih => simp only [utf8Bytes, List.map_cons, List.sum_cons, Str.byteLen_cons] at *; omega

theorem sliceTo_cases (s : Str) (n : Nat) :
    (∃ a b, s = a ++ b ∧ Str.byteLen a = n ∧ Str.sliceTo s n = .ok a ∧ Str.sliceFrom s n = .ok b) ∨
    (¬ Boundary s n ∧ Str.sliceTo s n = .panic ∧ Str.sliceFrom s n = .panic) := by
  by_cases h : Boundary s n
  · left
    obtain ⟨a, b, h1, h2⟩ := h
    rw [utf8Bytes_eq] at h2
    exact ⟨a, b, h1, h2, Str.sliceTo_eq_ok.2 ⟨b, h1, h2⟩, Str.sliceFrom_eq_ok.2 ⟨a, h1, h2⟩⟩
  · right
    refine ⟨h, ?_, ?_⟩
    · cases hs : Str.sliceTo s n with
      | panic => rfl
      | err => exact absurd hs (Str.sliceTo_ne_err _ _)
      | ok a =>
        obtain ⟨b, h1, h2⟩ := Str.sliceTo_eq_ok.1 hs
        exact absurd ⟨a, b, h1, by rw [utf8Bytes_eq]; exact h2⟩ h
    · cases hs : Str.sliceFrom s n with
      | panic => rfl
      | err => exact absurd hs (Str.sliceFrom_ne_err _ _)
      | ok b =>
        obtain ⟨a, h1, h2⟩ := Str.sliceFrom_eq_ok.1 hs
        exact absurd ⟨a, b, h1, by rw [utf8Bytes_eq]; exact h2⟩ h

theorem slice_ok_of {a m b : Str} {i j : Nat} (h1 : Str.byteLen a = i) (h2 : Str.byteLen (a ++ m) = j) :
    Str.slice (a ++ m ++ b) i j = .ok m := Str.slice_eq_ok.2 ⟨a, b, rfl, h1, h2⟩

theorem slice_panic_of_not_boundary_right {s : Str} {i j : Nat} (h : ¬ Boundary s j) :
    Str.slice s i j = .panic := by
  rcases sliceTo_cases s j with ⟨a, b, rfl, h2, -⟩ | ⟨-, h, -⟩
  · exact absurd ⟨a, b, rfl, by rw [utf8Bytes_eq]; exact h2⟩ h
  · rw [Str.slice, h]; rfl

theorem slice_of_boundary_right {a b : Str} {i j : Nat} (h : Str.byteLen a = j) :
    Str.slice (a ++ b) i j = Str.sliceFrom a i := by
  rw [Str.slice, Str.sliceTo_eq_ok.2 ⟨b, rfl, h⟩, Res.ok_bind]

theorem slice_zero {s : Str} {j : Nat} : Str.slice s 0 j = Str.sliceTo s j := by
  rcases sliceTo_cases s j with ⟨a, b, rfl, h2, h3, -⟩ | ⟨-, h, -⟩
  · rw [slice_of_boundary_right h2, h3]; exact Str.sliceFrom_eq_ok.2 ⟨[], rfl, rfl⟩
  · rw [Str.slice, h]; rfl

theorem sliceFrom_dash (t : Str) : Str.sliceFrom ('-' :: t) 1 = .ok t :=
  Str.sliceFrom_eq_ok.2 ⟨['-'], rfl, by decide⟩

/-! ### gDay -/

theorem gday_parseValue_ok {s : Str} {v : Int} :
    GDay.parseValue s = .ok v ↔ ∃ d : Nat, d < 100 ∧ v = d ∧ s = ['-', '-', '-'] ++ two d := by
  constructor
  · intro h
    unfold GDay.parseValue at h
    split at h
    · simp at h
    rename_i hl
    simp only [ne_eq, Decidable.not_not] at hl
    rw [Res.bind_eq_ok] at h
    obtain ⟨p, hp, h⟩ := h
    split at h
    · simp at h
    rename_i hpe
    simp only [ne_eq, Decidable.not_not] at hpe
    subst hpe
    rw [slice_zero] at hp
    obtain ⟨b, rfl, -⟩ := Str.sliceTo_eq_ok.1 hp
    have hb : Str.byteLen b = 2 := by
      rw [Str.byteLen_append] at hl
      have : Str.byteLen ['-', '-', '-'] = 3 := by decide
      omega
    have : Str.slice (['-', '-', '-'] ++ b) 3 5 = .ok b :=
      Str.slice_eq_ok.2 ⟨['-', '-', '-'], [], by simp, by decide, hl⟩
    rw [this, Res.ok_bind] at h
    split at h
    · simp at h
    rename_i hd
    simp only [Decidable.not_not] at hd
    obtain ⟨n, hn, rfl⟩ := two_digits_iff.1 ⟨hb, hd⟩
    rw [parseI32_two hn] at h
    simp only [Res.ofOption, Res.ok.injEq] at h
    exact ⟨n, hn, h.symm, rfl⟩
  · rintro ⟨d, hd, rfl, rfl⟩
    have hl : Str.byteLen (['-', '-', '-'] ++ two d) = 5 := by
      rw [Str.byteLen_append, byteLen_two hd]; decide
    have h1 : Str.slice (['-', '-', '-'] ++ two d) 0 3 = .ok ['-', '-', '-'] := by
      rw [slice_zero]; exact Str.sliceTo_eq_ok.2 ⟨_, rfl, by decide⟩
    have h2 : Str.slice (['-', '-', '-'] ++ two d) 3 5 = .ok (two d) :=
      Str.slice_eq_ok.2 ⟨['-', '-', '-'], [], by simp, by decide, hl⟩
    unfold GDay.parseValue
    rw [if_neg (by omega), h1, Res.ok_bind, if_neg (by simp), h2, Res.ok_bind,
      if_neg (by simp [allDigits_two hd]), parseI32_two hd]
    rfl

theorem gday_parseValue_panic {s : Str} :
    GDay.parseValue s = .panic ↔ utf8Bytes s = 5 ∧ ¬ Boundary s 3 := by
  unfold GDay.parseValue
  rw [utf8Bytes_eq]
  by_cases hl : Str.byteLen s = 5
  · rw [if_neg (by omega), slice_zero]
    rcases sliceTo_cases s 3 with ⟨a, b, rfl, ha, h1, h2⟩ | ⟨hb, h1, h2⟩
    · have hB : Boundary (a ++ b) 3 := ⟨a, b, rfl, by rw [utf8Bytes_eq]; exact ha⟩
      have hs : Str.slice (a ++ b) 3 5 = .ok b :=
        Str.slice_eq_ok.2 ⟨a, [], by simp, ha, hl⟩
      rw [h1, Res.ok_bind, hs]
      simp only [hl, hB, not_true_eq_false, and_false, iff_false, Res.ok_bind]
      split
      · simp
      · split
        · simp
        · cases Str.parseI32 b <;> simp
    · rw [h1]; simp [hl, hb]
  · rw [if_pos hl]; simp [hl]

theorem gday_fromStr_eq (s : Str) : GDay.fromStr s = tzSplit 3 GDay.parseValue GDay.new s := rfl

/-! ### gMonth -/

theorem gmonth_parseValue_ok {s : Str} {v : Int} :
    GMonth.parseValue s = .ok v ↔ ∃ d : Nat, d < 100 ∧ v = d ∧ s = ['-', '-'] ++ two d := by
  constructor
  · intro h
    unfold GMonth.parseValue at h
    split at h
    · simp at h
    rename_i hl
    simp only [ne_eq, Decidable.not_not] at hl
    rw [Res.bind_eq_ok] at h
    obtain ⟨p, hp, h⟩ := h
    split at h
    · simp at h
    rename_i hpe
    simp only [ne_eq, Decidable.not_not] at hpe
    subst hpe
    rw [slice_zero] at hp
    obtain ⟨b, rfl, -⟩ := Str.sliceTo_eq_ok.1 hp
    have hb : Str.byteLen b = 2 := by
      rw [Str.byteLen_append] at hl
      have : Str.byteLen ['-', '-'] = 2 := by decide
      omega
    have : Str.slice (['-', '-'] ++ b) 2 4 = .ok b :=
      Str.slice_eq_ok.2 ⟨['-', '-'], [], by simp, by decide, hl⟩
    rw [this, Res.ok_bind] at h
    split at h
    · simp at h
    rename_i hd
    simp only [Decidable.not_not] at hd
    obtain ⟨n, hn, rfl⟩ := two_digits_iff.1 ⟨hb, hd⟩
    rw [parseI32_two hn] at h
    simp only [Res.ofOption, Res.ok.injEq] at h
    exact ⟨n, hn, h.symm, rfl⟩
  · rintro ⟨d, hd, rfl, rfl⟩
    have hl : Str.byteLen (['-', '-'] ++ two d) = 4 := by
      rw [Str.byteLen_append, byteLen_two hd]; decide
    have h1 : Str.slice (['-', '-'] ++ two d) 0 2 = .ok ['-', '-'] := by
      rw [slice_zero]; exact Str.sliceTo_eq_ok.2 ⟨_, rfl, by decide⟩
    have h2 : Str.slice (['-', '-'] ++ two d) 2 4 = .ok (two d) :=
      Str.slice_eq_ok.2 ⟨['-', '-'], [], by simp, by decide, hl⟩
    unfold GMonth.parseValue
    rw [if_neg (by omega), h1, Res.ok_bind, if_neg (by simp), h2, Res.ok_bind,
      if_neg (by simp [allDigits_two hd]), parseI32_two hd]
    rfl

theorem gmonth_parseValue_panic {s : Str} :
    GMonth.parseValue s = .panic ↔ utf8Bytes s = 4 ∧ ¬ Boundary s 2 := by
  unfold GMonth.parseValue
  rw [utf8Bytes_eq]
  by_cases hl : Str.byteLen s = 4
  · rw [if_neg (by omega), slice_zero]
    rcases sliceTo_cases s 2 with ⟨a, b, rfl, ha, h1, h2⟩ | ⟨hb, h1, h2⟩
    · have hB : Boundary (a ++ b) 2 := ⟨a, b, rfl, by rw [utf8Bytes_eq]; exact ha⟩
      have hs : Str.slice (a ++ b) 2 4 = .ok b :=
        Str.slice_eq_ok.2 ⟨a, [], by simp, ha, hl⟩
      rw [h1, Res.ok_bind, hs]
      simp only [hl, hB, not_true_eq_false, and_false, iff_false, Res.ok_bind]
      split
      · simp
      · split
        · simp
        · cases Str.parseI32 b <;> simp
    · rw [h1]; simp [hl, hb]
  · rw [if_pos hl]; simp [hl]

theorem gmonth_fromStr_eq (s : Str) : GMonth.fromStr s = tzSplit 2 GMonth.parseValue GMonth.new s := rfl

/-! ### gMonthDay -/

theorem gmonthday_parseValue_ok {s : Str} {v : Int × Int} :
    GMonthDay.parseValue s = .ok v ↔
      ∃ m d : Nat, m < 100 ∧ d < 100 ∧ v = ((m : Int), (d : Int)) ∧
        s = ['-', '-'] ++ two m ++ ['-'] ++ two d := by
  constructor
  · intro h
    unfold GMonthDay.parseValue at h
    split at h
    · simp at h
    rename_i hl
    simp only [ne_eq, Decidable.not_not] at hl
    rw [Res.bind_eq_ok] at h
    obtain ⟨p, hp, h⟩ := h
    split at h
    · simp at h
    rename_i hpe
    simp only [ne_eq, Decidable.not_not] at hpe
    subst hpe
    rw [slice_zero] at hp
    obtain ⟨b, rfl, -⟩ := Str.sliceTo_eq_ok.1 hp
    rw [Res.bind_eq_ok] at h
    obtain ⟨q, hq, h⟩ := h
    split at h
    · simp at h
    rename_i hqe
    simp only [ne_eq, Decidable.not_not] at hqe
    subst hqe
    obtain ⟨a, c, hac, ha, -⟩ := Str.slice_eq_ok.1 hq
    have hpre : ∃ m, a = ['-', '-'] ++ m := by
      cases a with
      | nil => simp at ha
      | cons x a =>
        cases a with
        | nil =>
          simp only [List.cons_append, List.nil_append, List.cons.injEq] at hac
          rw [← hac.1] at ha; exact absurd ha (by decide)
        | cons y a =>
          simp only [List.cons_append, List.nil_append, List.cons.injEq] at hac
          exact ⟨a, by simp [← hac.1, ← hac.2.1]⟩
    obtain ⟨m, rfl⟩ := hpre
    have hb : b = m ++ ['-'] ++ c := by
      have : ['-', '-'] ++ b = ['-', '-'] ++ (m ++ ['-'] ++ c) := by simpa using hac
      exact List.append_cancel_left this
    subst hb
    have e2 : Str.byteLen ['-', '-'] = 2 := by decide
    have e1 : Str.byteLen ['-'] = 1 := by decide
    have hm : Str.byteLen m = 2 := by rw [Str.byteLen_append] at ha; omega
    have hc : Str.byteLen c = 2 := by
      simp only [Str.byteLen_append] at hl; omega
    have s1 : Str.slice (['-', '-'] ++ (m ++ ['-'] ++ c)) 2 4 = .ok m :=
      Str.slice_eq_ok.2 ⟨['-', '-'], ['-'] ++ c, by simp, e2, by rw [Str.byteLen_append]; omega⟩
    have s2 : Str.slice (['-', '-'] ++ (m ++ ['-'] ++ c)) 5 7 = .ok c :=
      Str.slice_eq_ok.2 ⟨['-', '-'] ++ m ++ ['-'], [], by simp,
        by simp only [Str.byteLen_append]; omega, by simp only [Str.byteLen_append]; omega⟩
    rw [s1, Res.ok_bind] at h
    split at h
    · simp at h
    rename_i hd
    simp only [Decidable.not_not] at hd
    obtain ⟨x, hx, rfl⟩ := two_digits_iff.1 ⟨hm, hd⟩
    rw [parseI32_two hx, Res.ofOption, Res.ok_bind, s2, Res.ok_bind] at h
    split at h
    · simp at h
    rename_i hd'
    simp only [Decidable.not_not] at hd'
    obtain ⟨y, hy, rfl⟩ := two_digits_iff.1 ⟨hc, hd'⟩
    rw [parseI32_two hy] at h
    simp only [Res.ofOption, Res.ok_bind, Res.ok.injEq] at h
    exact ⟨x, y, hx, hy, h.symm, by simp⟩
  · rintro ⟨m, d, hm, hd, rfl, rfl⟩
    have e2 : Str.byteLen ['-', '-'] = 2 := by decide
    have e1 : Str.byteLen ['-'] = 1 := by decide
    have b1 := byteLen_two hm
    have b2 := byteLen_two hd
    have hl : Str.byteLen (['-', '-'] ++ two m ++ ['-'] ++ two d) = 7 := by
      simp only [Str.byteLen_append]; omega
    have h1 : Str.slice (['-', '-'] ++ two m ++ ['-'] ++ two d) 0 2 = .ok ['-', '-'] := by
      rw [slice_zero]; exact Str.sliceTo_eq_ok.2 ⟨two m ++ ['-'] ++ two d, by simp, e2⟩
    have h2 : Str.slice (['-', '-'] ++ two m ++ ['-'] ++ two d) 4 5 = .ok ['-'] :=
      Str.slice_eq_ok.2 ⟨['-', '-'] ++ two m, two d, by simp,
        by simp only [Str.byteLen_append]; omega, by simp only [Str.byteLen_append]; omega⟩
    have h3 : Str.slice (['-', '-'] ++ two m ++ ['-'] ++ two d) 2 4 = .ok (two m) :=
      Str.slice_eq_ok.2 ⟨['-', '-'], ['-'] ++ two d, by simp, e2,
        by simp only [Str.byteLen_append]; omega⟩
    have h4 : Str.slice (['-', '-'] ++ two m ++ ['-'] ++ two d) 5 7 = .ok (two d) :=
      Str.slice_eq_ok.2 ⟨['-', '-'] ++ two m ++ ['-'], [], by simp,
        by simp only [Str.byteLen_append]; omega, by simp only [Str.byteLen_append]; omega⟩
    unfold GMonthDay.parseValue
    rw [if_neg (by omega), h1, Res.ok_bind, if_neg (by simp), h2, Res.ok_bind, if_neg (by simp),
      h3, Res.ok_bind, if_neg (by simp [allDigits_two hm]), parseI32_two hm, Res.ofOption, Res.ok_bind,
      h4, Res.ok_bind, if_neg (by simp [allDigits_two hd]), parseI32_two hd]
    rfl

theorem gmonthday_parseValue_panic {s : Str} :
    GMonthDay.parseValue s = .panic ↔ utf8Bytes s = 7 ∧
      (¬ Boundary s 2 ∨ (∃ t, s = '-' :: '-' :: t) ∧ (¬ Boundary s 4 ∨ ¬ Boundary s 5)) := by
  unfold GMonthDay.parseValue
  rw [utf8Bytes_eq]
  by_cases hl : Str.byteLen s = 7
  · rw [if_neg (by omega), slice_zero]
    simp only [hl, true_and]
    rcases sliceTo_cases s 2 with ⟨a, b, rfl, ha, h1, h2⟩ | ⟨hb, h1, h2⟩
    · have hB : Boundary (a ++ b) 2 := ⟨a, b, rfl, by rw [utf8Bytes_eq]; exact ha⟩
      rw [h1, Res.ok_bind]
      by_cases hpa : a = ['-', '-']
      · subst hpa
        rw [if_neg (by simp)]
        have hex : (∃ t, ['-', '-'] ++ b = '-' :: '-' :: t) := ⟨b, rfl⟩
        simp only [hB, hex, not_true_eq_false, false_or, true_and]
        rcases sliceTo_cases (['-', '-'] ++ b) 5 with ⟨x, y, hxy, hx, -, -⟩ | ⟨hb5, -, -⟩
        · have hB5 : Boundary (['-', '-'] ++ b) 5 := ⟨x, y, hxy, by rw [utf8Bytes_eq]; exact hx⟩
          rw [hxy, slice_of_boundary_right hx, ← hxy]
          rcases sliceTo_cases x 4 with ⟨u, w, rfl, hu, -, h5⟩ | ⟨hb4, -, h5⟩
          · have hB4 : Boundary (['-', '-'] ++ b) 4 :=
              ⟨u, w ++ y, by rw [hxy]; simp, by rw [utf8Bytes_eq]; exact hu⟩
            rw [h5, Res.ok_bind]
            simp only [hB4, hB5, not_true_eq_false, or_self, iff_false]
            by_cases hw : w = ['-']
            · subst hw
              rw [if_neg (by simp)]
              have h24 : ∃ m, Str.slice (['-', '-'] ++ b) 2 4 = .ok m := by
                have hh : ['-', '-'] ++ b = u ++ (['-'] ++ y) := by rw [hxy]; simp
                have : ∃ m, u = ['-', '-'] ++ m := by
                  cases u with
                  | nil => simp at hu
                  | cons p u =>
                    cases u with
                    | nil =>
                      simp only [List.cons_append, List.nil_append, List.cons.injEq] at hh
                      rw [← hh.1] at hu; exact absurd hu (by decide)
                    | cons q u =>
                      simp only [List.cons_append, List.nil_append, List.cons.injEq] at hh
                      exact ⟨u, by simp [← hh.1, ← hh.2.1]⟩
                obtain ⟨m, rfl⟩ := this
                exact ⟨m, by rw [hh]; exact Str.slice_eq_ok.2 ⟨['-', '-'], _, rfl, by decide, hu⟩⟩
              obtain ⟨m, hm⟩ := h24
              have h57 : Str.slice (['-', '-'] ++ b) 5 7 = .ok y := by
                rw [hxy]; exact Str.slice_eq_ok.2 ⟨_, [], by simp, hx, by rw [← hxy]; exact hl⟩
              rw [hm, Res.ok_bind]
              split
              · simp
              · cases Str.parseI32 m with
                | none => simp
                | some i =>
                  simp only [Res.ofOption, Res.ok_bind]
                  rw [h57, Res.ok_bind]
                  split
                  · simp
                  · cases Str.parseI32 y <;> simp
            · rw [if_pos hw]; simp
          · have hB4 : ¬ Boundary (['-', '-'] ++ b) 4 := by
              rintro ⟨u, w, huw, hu⟩
              apply hb4
              rw [utf8Bytes_eq] at hu
              rw [hxy] at huw
              rcases List.append_eq_append_iff.1 huw with ⟨z, rfl, rfl⟩ | ⟨z, rfl, rfl⟩
              · exfalso
                rw [Str.byteLen_append] at hu; omega
              · exact ⟨u, z, rfl, by rw [utf8Bytes_eq]; exact hu⟩
            rw [h5]; exact iff_of_true rfl (Or.inl hB4)
        · rw [slice_panic_of_not_boundary_right hb5]; exact iff_of_true rfl (Or.inr hb5)
      · rw [if_pos hpa]
        simp only [hB, not_true_eq_false, false_or, reduceCtorEq, false_iff, not_and]
        rintro ⟨t, ht⟩
        exfalso; apply hpa
        cases a with
        | nil => simp at ha
        | cons p a =>
          cases a with
          | nil =>
            simp only [List.cons_append, List.nil_append, List.cons.injEq] at ht
            rw [ht.1] at ha; exact absurd ha (by decide)
          | cons q a =>
            simp only [List.cons_append, List.cons.injEq] at ht
            obtain ⟨rfl, rfl, -⟩ := ht
            have : Str.byteLen a = 0 := by
              simp only [Str.byteLen_cons] at ha
              have : ('-' : Char).utf8Size = 1 := by decide
              omega
            rw [Str.byteLen_eq_zero.1 this]
    · rw [h1]; simp [hb]
  · rw [if_pos hl]; simp [hl]

/-- `GMonthDay::new` in uncurried form. -/
theorem gmonthday_fromStr_eq (s : Str) :
    GMonthDay.fromStr s = tzSplit 3 GMonthDay.parseValue (fun p tz => GMonthDay.new p.1 p.2 tz) s := rfl

theorem monthMaxLen_get {m : Nat} (h1 : 1 ≤ m) (h2 : m ≤ 12) :
    GMonthDay.monthMaxLen[((m : Int) - 1).toNat]? = some ((maxDay m : Nat) : Int) := by
  have : m = 1 ∨ m = 2 ∨ m = 3 ∨ m = 4 ∨ m = 5 ∨ m = 6 ∨ m = 7 ∨ m = 8 ∨ m = 9 ∨ m = 10 ∨ m = 11 ∨ m = 12 := by
    omega
  rcases this with h|h|h|h|h|h|h|h|h|h|h|h <;> subst h <;> decide

theorem maxDay_le (m : Nat) : maxDay m ≤ 31 := by
  unfold maxDay; split
  · omega
  · split <;> omega

theorem gmonthday_new_ok {month day : Int} {tz : Option Int} {g : GMonthDay} :
    GMonthDay.new month day tz = .ok g ↔ ValidMonthDay month day ∧ g = ⟨month, day, tz⟩ := by
  unfold GMonthDay.new
  by_cases hm : 1 ≤ month ∧ month ≤ 12
  · rw [if_neg (by omega)]
    obtain ⟨m, rfl⟩ : ∃ m : Nat, month = m := ⟨month.toNat, by omega⟩
    have hml := maxDay_le m
    rw [monthMaxLen_get (by omega) (by omega)]
    simp only [Res.unwrap, Res.ok_bind]
    by_cases hd : 1 ≤ day ∧ day ≤ 31
    · rw [if_neg (by omega)]
      obtain ⟨d, rfl⟩ : ∃ d : Nat, day = d := ⟨day.toNat, by omega⟩
      by_cases hx : (d : Int) > ((maxDay m : Nat) : Int)
      · rw [if_pos hx]
        simp only [reduceCtorEq, false_iff, not_and]
        rintro ⟨m', d', h1, h2, h3⟩
        have : m' = m := by omega
        subst this; omega
      · rw [if_neg hx]
        simp only [Res.ok.injEq]
        constructor
        · rintro rfl; exact ⟨⟨m, d, rfl, rfl, by omega, by omega, by omega, by omega⟩, rfl⟩
        · rintro ⟨-, rfl⟩; rfl
    · rw [if_pos hd]
      simp only [reduceCtorEq, false_iff, not_and]
      rintro ⟨m', d', h1, h2, h3⟩
      have : m' = m := by omega
      subst this; omega
  · rw [if_pos hm]
    simp only [reduceCtorEq, false_iff, not_and]
    rintro ⟨m', d', h1, h2, h3⟩
    omega

theorem gmonthday_new_ne_panic (month day : Int) (tz : Option Int) : GMonthDay.new month day tz ≠ .panic := by
  unfold GMonthDay.new
  by_cases hm : 1 ≤ month ∧ month ≤ 12
  · rw [if_neg (by omega)]
    obtain ⟨m, rfl⟩ : ∃ m : Nat, month = m := ⟨month.toNat, by omega⟩
    rw [monthMaxLen_get (by omega) (by omega)]
    simp only [Res.unwrap, Res.ok_bind]
    split
    · simp
    · split <;> simp
  · rw [if_pos hm]; simp

/-! ### gYear -/

theorem gyear_parseValue_ok {s : Str} {v : Int} :
    GYear.parseValue s = .ok v ↔ ∃ n : Nat, YearDigits s n ∧ n ≤ 2147483647 ∧ v = n := by
  unfold GYear.parseValue
  constructor
  · intro h
    split at h
    · simp at h
    rename_i hl
    split at h
    · simp at h
    rename_i hd
    simp only [Decidable.not_not] at hd
    have hlen : 4 ≤ s.length := by
      rw [← Str.byteLen_ascii (Str.allDigits_ascii hd)]; omega
    have hne : s ≠ [] := by rintro rfl; simp at hlen
    rw [parseI32_digits hd hne] at h
    split at h
    · rename_i hle
      simp only [Res.ofOption, Res.ok.injEq] at h
      exact ⟨Str.digitsVal s, yearDigits_iff.2 ⟨hd, hlen, rfl⟩, hle, h.symm⟩
    · simp at h
  · rintro ⟨n, hy, hn, rfl⟩
    obtain ⟨hd, hlen, rfl⟩ := yearDigits_iff.1 hy
    have hne : s ≠ [] := by rintro rfl; simp at hlen
    rw [if_neg (by rw [Str.byteLen_ascii (Str.allDigits_ascii hd)]; omega),
      if_neg (by simp [hd]), parseI32_digits hd hne, if_pos hn]
    rfl

theorem gyear_parseValue_ne_panic (s : Str) : GYear.parseValue s ≠ .panic := by
  unfold GYear.parseValue
  split
  · simp
  · split
    · simp
    · cases Str.parseI32 s <;> simp

/-- With more than one dash the whole text cannot be a digit string, so testing `contains` then
`count > 1` is the same as the common shape with `k = 0`. -/
theorem gyear_parseStrPositive_eq (s : Str) :
    GYear.parseStrPositive s = tzSplit 0 GYear.parseValue GYear.new s := by
  unfold GYear.parseStrPositive tzSplit
  cases hz : Str.stripSuffix 'Z' s with
  | some s' => rfl
  | none =>
    simp only
    split
    · rfl
    · by_cases hd : Str.hasChar '-' s = true
      · rw [if_pos hd]
        have hd' := Str.hasChar_iff_countChar.1 hd
        by_cases hc : Str.countChar '-' s > 1
        · rw [if_pos hc, if_neg (by omega)]
          have : GYear.parseValue s = .err := by
            cases hp : GYear.parseValue s with
            | err => rfl
            | panic => exact absurd hp (gyear_parseValue_ne_panic s)
            | ok v =>
              obtain ⟨n, hy, -⟩ := gyear_parseValue_ok.1 hp
              have := Str.countChar_digits (c := '-') (yearDigits_iff.1 hy).1 (by decide)
              omega
          rw [this]; rfl
        · rw [if_neg hc, if_pos (by omega)]
      · rw [if_neg hd, if_neg (by rw [Str.hasChar_iff_countChar] at hd; omega)]

/-! ### gYearMonth -/

theorem gyearmonth_parseValue_ok {s : Str} {v : Int × Int} :
    GYearMonth.parseValue s = .ok v ↔
      ∃ (y : Str) (n m : Nat), YearDigits y n ∧ n ≤ 2147483647 ∧ m < 100 ∧
        v = ((n : Int), (m : Int)) ∧ s = y ++ ['-'] ++ two m := by
  unfold GYearMonth.parseValue
  constructor
  · intro h
    split at h
    · simp at h
    rename_i hc
    simp only [ne_eq, Decidable.not_not] at hc
    obtain ⟨a, t, hs, rfl, -⟩ := Str.splitAtMatch_of_lt (c := '-') (s := s) (k := 0) (by omega)
    rw [hs] at h
    simp only [Res.ok_bind] at h
    rw [sliceFrom_dash, Res.ok_bind] at h
    split at h
    · simp at h
    rename_i hb
    simp only [not_or, ne_eq, Decidable.not_not] at hb
    split at h
    · simp at h
    rename_i hd
    simp only [Decidable.not_not] at hd
    have hlen : 4 ≤ a.length := by
      rw [← Str.byteLen_ascii (Str.allDigits_ascii hd)]; omega
    have hne : a ≠ [] := by rintro rfl; simp at hlen
    rw [parseI32_digits hd hne] at h
    split at h
    · rename_i hle
      simp only [Res.ofOption, Res.ok_bind] at h
      split at h
      · simp at h
      rename_i hd'
      simp only [Decidable.not_not] at hd'
      obtain ⟨m, hm, rfl⟩ := two_digits_iff.1 ⟨hb.2, hd'⟩
      rw [parseI32_two hm] at h
      simp only [Res.ok_bind, Res.ok.injEq] at h
      exact ⟨a, _, m, yearDigits_iff.2 ⟨hd, hlen, rfl⟩, hle, hm, h.symm, by simp⟩
    · simp at h
  · rintro ⟨y, n, m, hy, hn, hm, rfl, rfl⟩
    obtain ⟨hd, hlen, rfl⟩ := yearDigits_iff.1 hy
    have hne : y ≠ [] := by rintro rfl; simp at hlen
    have c0 : Str.countChar '-' y = 0 := Str.countChar_digits hd (by decide)
    have c1 : Str.countChar '-' (two m) = 0 := Str.countChar_digits (allDigits_two hm) (by decide)
    have hc : Str.countChar '-' (y ++ ['-'] ++ two m) = 1 := by
      simp [c0, c1]
    have hs : Str.splitAtMatch '-' (y ++ ['-'] ++ two m) 0 = .ok (y, '-' :: two m) :=
      Str.splitAtMatch_eq_ok.2 ⟨two m, by simp, rfl, c0⟩
    rw [if_neg (by omega), hs]
    simp only [Res.ok_bind]
    rw [sliceFrom_dash, Res.ok_bind, if_neg, if_neg (by simp [hd]),
      parseI32_digits hd hne, if_pos hn]
    · simp only [Res.ofOption, Res.ok_bind]
      rw [if_neg (by simp [allDigits_two hm]), parseI32_two hm]
      rfl
    · rw [Str.byteLen_ascii (Str.allDigits_ascii hd), byteLen_two hm]; omega

theorem gyearmonth_parseValue_ne_panic (s : Str) : GYearMonth.parseValue s ≠ .panic := by
  unfold GYearMonth.parseValue
  split
  · simp
  rename_i hc
  simp only [ne_eq, Decidable.not_not] at hc
  obtain ⟨a, t, hs, rfl, -⟩ := Str.splitAtMatch_of_lt (c := '-') (s := s) (k := 0) (by omega)
  rw [hs]
  simp only [Res.ok_bind]
  rw [sliceFrom_dash, Res.ok_bind]
  split
  · simp
  · split
    · simp
    · cases Str.parseI32 a with
      | none => simp
      | some i =>
        simp only [Res.ofOption, Res.ok_bind]
        split
        · simp
        · cases Str.parseI32 t <;> simp

theorem gyearmonth_parseStrPositive_eq (s : Str) :
    GYearMonth.parseStrPositive s =
      tzSplit 1 GYearMonth.parseValue (fun p tz => GYearMonth.new p.1 p.2 tz) s := rfl

end Verif.Lemmas
