import Verif.Model.DateTime
import Verif.Spec.DateTime
import Verif.Lemmas.Duration6
import Verif.Lemmas.Gregorian2

/-! # Helper lemmas about the chrono model: scanning numbers, dates, times -/

namespace Verif.Lemmas.Chr

open Verif Verif.Model Verif.Spec Verif.Lemmas Verif.Lemmas.Dur Chrono

/-- The text does not begin with a decimal digit. -/
def NoDigit (r : Str) : Prop := ∀ c r', r = c :: r' → Str.isAsciiDigit c = false

theorem digit_toNat {d : Nat} (h : d < 10) : (Spec.digit d).toNat - 48 = d := by
  have : ∀ d < 10, (Spec.digit d).toNat - 48 = d := by decide
  exact this d h

theorem noDigit_cons {c : Char} {r : Str} : NoDigit (c :: r) ↔ Str.isAsciiDigit c = false := by
  constructor
  · intro h; exact h c r rfl
  · intro h d r' e
    simp only [List.cons.injEq] at e
    rw [← e.1]; exact h

theorem noDigit_nil : NoDigit [] := by intro c r e; simp at e

theorem foldl_ge (ds : List Nat) (n : Nat) : n ≤ ds.foldl (fun acc d => 10 * acc + d) n := by
  induction ds generalizing n with
  | nil => simp
  | cons d ds ih =>
    simp only [List.foldl_cons]
    have := ih (10 * n + d)
    omega

theorem numberGo_iff {min : Nat} {max : Option Nat} {s r : Str} {i n v : Nat}
    (hmax : ∀ k, max = some k → i ≤ k) (hn : n ≤ i64Max) :
    numberGo min max i n s = some (r, v) ↔
      ∃ ds, Digits ds ∧ s = dtext ds ++ r ∧ v = ds.foldl (fun acc d => 10 * acc + d) n ∧ v ≤ i64Max ∧
        (r = [] ∨ min ≤ i + ds.length ∨ max = some (i + ds.length)) ∧
        (∀ k, max = some k → i + ds.length ≤ k) ∧
        (max = some (i + ds.length) ∨ NoDigit r) := by
  induction s generalizing i n with
  | nil =>
    simp only [numberGo, Option.some.injEq, Prod.mk.injEq]
    constructor
    · rintro ⟨rfl, rfl⟩
      exact ⟨[], by simp [Digits], rfl, rfl, hn, Or.inl rfl, by simpa using hmax, Or.inr noDigit_nil⟩
    · rintro ⟨ds, -, h, rfl, -⟩
      simp only [List.nil_eq, List.append_eq_nil_iff] at h
      have : ds = [] := by simpa [dtext] using h.1
      subst this
      exact ⟨h.2.symm, rfl⟩
  | cons c cs ih =>
    unfold numberGo
    by_cases hm : max = some i
    · simp only [hm, if_true, Option.some.injEq, Prod.mk.injEq]
      constructor
      · rintro ⟨rfl, rfl⟩
        exact ⟨[], by simp [Digits], rfl, rfl, hn, by simp, by simp, Or.inl (by simp)⟩
      · rintro ⟨ds, -, h, rfl, -, -, hk, -⟩
        have := hk i rfl
        have : ds = [] := by
          cases ds with
          | nil => rfl
          | cons d ds => simp at this
        subst this
        exact ⟨by simpa [dtext] using h, rfl⟩
    · simp only [hm, if_false]
      by_cases hc : Str.isAsciiDigit c = true
      · simp only [hc, not_true_eq_false, if_false]
        obtain ⟨d, hd, rfl⟩ := isDigit_of_ascii hc
        rw [digit_toNat hd]
        by_cases hov : 10 * n + d > i64Max
        · simp only [hov, if_true]
          constructor
          · intro h; simp at h
          · rintro ⟨ds, hds, h, rfl, hv, h1, h2, h3⟩
            cases ds with
            | nil =>
              simp only [dtext, List.map_nil, List.nil_append] at h
              subst h
              rcases h3 with h3 | h3
              · simp at h3; exact absurd h3 hm
              · rw [noDigit_cons] at h3; rw [h3] at hc; exact absurd hc (by simp)
            | cons e ds =>
              simp only [dtext, List.map_cons, List.cons_append, List.cons.injEq] at h
              have he : e < 10 := hds e (by simp)
              have : d = e := by
                have := congrArg (fun c => c.toNat - 48) h.1
                simpa [digit_toNat hd, digit_toNat he] using this
              subst this
              simp only [List.foldl_cons] at hv
              have := foldl_ge ds (10 * n + d)
              omega
        · simp only [hov, if_false]
          rw [ih (fun k hk => by
            have h1 := hmax k hk
            rcases Nat.lt_or_eq_of_le h1 with h1 | h1
            · exact h1
            · subst h1; exact absurd hk hm) (by omega)]
          constructor
          · rintro ⟨ds, hds, rfl, hv, hv', h1, h2, h3⟩
            refine ⟨d :: ds, ?_, rfl, hv, hv', ?_, ?_, ?_⟩
            · intro x hx
              rcases List.mem_cons.1 hx with rfl | hx
              · exact hd
              · exact hds x hx
            · simp only [List.length_cons]; rw [← Nat.add_assoc, Nat.add_right_comm]; exact h1
            · simp only [List.length_cons]; rw [← Nat.add_assoc, Nat.add_right_comm]; exact h2
            · simp only [List.length_cons]; rw [← Nat.add_assoc, Nat.add_right_comm]; exact h3
          · rintro ⟨ds, hds, h, hv, hv', h1, h2, h3⟩
            cases ds with
            | nil =>
              simp only [dtext, List.map_nil, List.nil_append] at h
              subst h
              rcases h3 with h3 | h3
              · simp at h3; exact absurd h3 hm
              · rw [noDigit_cons] at h3; rw [h3] at hc; exact absurd hc (by simp)
            | cons e ds =>
              simp only [dtext, List.map_cons, List.cons_append, List.cons.injEq] at h
              have he : e < 10 := hds e (by simp)
              have : d = e := by
                have := congrArg (fun c => c.toNat - 48) h.1
                simpa [digit_toNat hd, digit_toNat he] using this
              subst this
              simp only [List.length_cons] at h1 h2 h3
              rw [← Nat.add_assoc, Nat.add_right_comm] at h1 h3
              refine ⟨ds, fun x hx => hds x (by simp [hx]), h.2, hv, hv', h1, ?_, h3⟩
              intro k hk
              have := h2 k hk
              omega
      · have hc' : Str.isAsciiDigit c = false := by simpa using hc
        simp only [hc', Bool.false_eq_true, not_false_eq_true, if_true]
        by_cases hi : i < min
        · simp only [hi, if_true]
          constructor
          · intro h; simp at h
          · rintro ⟨ds, hds, h, hv, hv', h1, h2, h3⟩
            cases ds with
            | nil =>
              simp only [dtext, List.map_nil, List.nil_append] at h
              subst h
              simp at h1
              rcases h1 with h1 | h1
              · omega
              · exact absurd h1 hm
            | cons e ds =>
              simp only [dtext, List.map_cons, List.cons_append, List.cons.injEq] at h
              rw [h.1, isAsciiDigit_spec (hds e (by simp))] at hc'
              simp at hc'
        · simp only [hi, if_false, Option.some.injEq, Prod.mk.injEq]
          constructor
          · rintro ⟨rfl, rfl⟩
            exact ⟨[], by simp [Digits], rfl, rfl, hn, Or.inr (Or.inl (by simpa using hi)),
              by simpa using hmax, Or.inr (noDigit_cons.2 hc')⟩
          · rintro ⟨ds, hds, h, rfl, -⟩
            cases ds with
            | nil => exact ⟨by simpa [dtext] using h, rfl⟩
            | cons e ds =>
              simp only [dtext, List.map_cons, List.cons_append, List.cons.injEq] at h
              rw [h.1, isAsciiDigit_spec (hds e (by simp))] at hc'
              simp at hc'

theorem allDigits_dtext {ds : List Nat} (h : Digits ds) : Str.allDigits (dtext ds) = true := by
  rw [Str.allDigits, List.all_eq_true]
  intro c hc
  obtain ⟨d, hd, rfl⟩ := List.mem_map.1 hc
  exact isAsciiDigit_spec (h d hd)

theorem byteLen_dtext {ds : List Nat} (h : Digits ds) : Str.byteLen (dtext ds) = ds.length := by
  rw [Str.byteLen_ascii (Str.allDigits_ascii (allDigits_dtext h))]
  simp [dtext]

theorem number_iff {s r : Str} {min : Nat} {max : Option Nat} {v : Nat}
    (hmm : ∀ k, max = some k → min ≤ k) :
    number s min max = some (r, v) ↔
      ∃ ds, Digits ds ∧ min ≤ ds.length ∧ s = dtext ds ++ r ∧ v = decVal ds ∧ v ≤ i64Max ∧
        (∀ k, max = some k → ds.length ≤ k) ∧ (max = some ds.length ∨ NoDigit r) := by
  unfold number
  by_cases hb : Str.byteLen s < min
  · simp only [hb, if_true]
    constructor
    · intro h; simp at h
    · rintro ⟨ds, hds, hl, rfl, -⟩
      rw [Str.byteLen_append, byteLen_dtext hds] at hb
      omega
  · simp only [hb, if_false]
    rw [numberGo_iff (by simp) (by decide)]
    constructor
    · rintro ⟨ds, hds, rfl, hv, hv', h1, h2, h3⟩
      refine ⟨ds, hds, ?_, rfl, hv, hv', by simpa using h2, by simpa using h3⟩
      rcases h1 with rfl | h1 | h1
      · rw [Str.byteLen_append, byteLen_dtext hds] at hb
        simp at hb; exact hb
      · simpa using h1
      · exact (by simpa using hmm _ h1)
    · rintro ⟨ds, hds, hl, rfl, hv, hv', h2, h3⟩
      exact ⟨ds, hds, rfl, hv, hv', Or.inr (Or.inl (by simpa using hl)), by simpa using h2,
        by simpa using h3⟩

theorem lit_iff {c : Char} {s r : Str} : lit c s = some r ↔ s = c :: r := by
  cases s with
  | nil => simp [lit]
  | cons d ds =>
    simp only [lit]
    by_cases h : d = c
    · subst h; simp
    · simp [h]

theorem isWhitespace_iff {c : Char} : isWhitespace c = true ↔ Space c := by
  unfold isWhitespace Space
  simp
  omega

theorem spaces_takeWhile (s : Str) : Spaces (s.takeWhile isWhitespace) := by
  intro c hc
  have h := List.all_takeWhile (p := isWhitespace) (l := s)
  exact isWhitespace_iff.1 (List.all_eq_true.1 h c hc)

theorem trimStart_iff {s t : Str} (ht : ∀ c r, t = c :: r → ¬ Space c) :
    trimStart s = t ↔ ∃ w, Spaces w ∧ s = w ++ t := by
  constructor
  · intro h
    refine ⟨s.takeWhile isWhitespace, ?_, ?_⟩
    · exact spaces_takeWhile s
    · rw [← h, trimStart, List.takeWhile_append_dropWhile]
  · rintro ⟨w, hw, rfl⟩
    induction w with
    | nil =>
      cases t with
      | nil => rfl
      | cons c r =>
        have := ht c r rfl
        rw [← isWhitespace_iff] at this
        simp [trimStart, this]
    | cons c w ih =>
      have hc : isWhitespace c = true := isWhitespace_iff.2 (hw c (by simp))
      have := ih (fun d hd => hw d (by simp [hd]))
      simpa [trimStart, List.dropWhile, hc] using this

theorem digit_not_space {d : Nat} (h : d < 10) : ¬ Space (Spec.digit d) := by
  have : ∀ d < 10, isWhitespace (Spec.digit d) = false := by decide
  rw [← isWhitespace_iff, this d h]; simp

theorem trimStart_spaces (s : Str) : ∃ w, Spaces w ∧ s = w ++ trimStart s := by
  refine ⟨s.takeWhile isWhitespace, ?_, ?_⟩
  · exact spaces_takeWhile s
  · rw [trimStart, List.takeWhile_append_dropWhile]

theorem decVal_le_i64 {ds : List Nat} (h : Digits ds) (hl : ds.length ≤ 9) : decVal ds ≤ i64Max := by
  have h1 := decVal_lt h
  have h2 : 10 ^ ds.length ≤ 10 ^ 9 := Nat.pow_le_pow_right (by decide) hl
  have : i64Max = 9223372036854775807 := rfl
  omega

/-- One- or two-digit number after optional white space, followed by a non-digit. -/
theorem number12_iff {s r : Str} {v : Nat} (hr : NoDigit r) :
    number (trimStart s) 1 (some 2) = some (r, v) ↔
      ∃ w ds, Spaces w ∧ Digits12 ds ∧ v = decVal ds ∧ s = w ++ dtext ds ++ r := by
  rw [number_iff (by simp)]
  constructor
  · rintro ⟨ds, hds, hl, hs, hv, -, h2, -⟩
    obtain ⟨w, hw, e⟩ := trimStart_spaces s
    have := h2 2 rfl
    refine ⟨w, ds, hw, ⟨hds, by omega⟩, hv, ?_⟩
    rw [e, hs, List.append_assoc]
  · rintro ⟨w, ds, hw, ⟨hds, hl⟩, rfl, rfl⟩
    refine ⟨ds, hds, by omega, ?_, rfl, decVal_le_i64 hds (by omega), by simp; omega, Or.inr hr⟩
    rw [List.append_assoc]
    rw [trimStart_iff]
    · exact ⟨w, hw, rfl⟩
    · intro c r' h
      cases ds with
      | nil => simp at hl
      | cons d ds =>
        simp only [dtext, List.map_cons, List.cons_append, List.cons.injEq] at h
        rw [← h.1]; exact digit_not_space (hds d (by simp))

end Verif.Lemmas.Chr
