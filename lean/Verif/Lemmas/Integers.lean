import Verif.Model.Integers
import Verif.Spec.Integers
import Verif.Lemmas.Duration6

/-! # Lemmas: integer texts -/

namespace Verif.Lemmas.Int'

open Verif Verif.NumBigint Verif.Spec Verif.Lemmas.Dur

theorem utext_of_all {s : Str} (h : (s.all fun c => Str.isAsciiDigit c || c == '_') = true) :
    ∃ us, Digits (udigits us) ∧ s = utext us ∧ s.filter Str.isAsciiDigit = dtext (udigits us) := by
  induction s with
  | nil => exact ⟨[], by simp [udigits, Digits], rfl, rfl⟩
  | cons c s ih =>
    simp only [List.all_cons, Bool.and_eq_true, Bool.or_eq_true, beq_iff_eq] at h
    obtain ⟨us, hd, rfl, hf⟩ := ih h.2
    by_cases hc : Str.isAsciiDigit c = true
    · obtain ⟨n, hn, rfl⟩ := isDigit_of_ascii hc
      refine ⟨some n :: us, ?_, rfl, ?_⟩
      · intro x hx
        simp only [udigits, List.mem_cons] at hx
        rcases hx with rfl | hx
        · exact hn
        · exact hd x hx
      · rw [List.filter_cons_of_pos hc, hf]; rfl
    · have : c = '_' := by
        rcases h.1 with h | h
        · exact absurd h hc
        · exact h
      subst this
      exact ⟨none :: us, hd, rfl, by rw [List.filter_cons_of_neg (by decide), hf]; rfl⟩

theorem all_utext {us : List (Option Nat)} (hd : Digits (udigits us)) :
    ((utext us).all fun c => Str.isAsciiDigit c || c == '_') = true ∧
    (utext us).filter Str.isAsciiDigit = dtext (udigits us) := by
  induction us with
  | nil => exact ⟨rfl, rfl⟩
  | cons u us ih =>
    cases u with
    | none =>
      obtain ⟨h1, h2⟩ := ih hd
      refine ⟨?_, ?_⟩
      · simp only [utext, List.all_cons, h1]; decide
      · simp only [utext, udigits]; rw [List.filter_cons_of_neg (by decide), h2]
    | some d =>
      have hd10 : d < 10 := hd d (by simp [udigits])
      obtain ⟨h1, h2⟩ := ih (fun x hx => hd x (by simp only [udigits, List.mem_cons]; exact Or.inr hx))
      have hc := isAscii_digit hd10
      refine ⟨?_, ?_⟩
      · simp only [utext, List.all_cons, h1, hc]; rfl
      · simp only [utext, udigits]; rw [List.filter_cons_of_pos hc, h2]; rfl

theorem digit_ne {d : Nat} (h : d < 10) {c : Char} (hc : Str.isAsciiDigit c = false) : digit d ≠ c := by
  intro e; rw [← e, isAscii_digit h] at hc; exact absurd hc (by decide)

/-- The unsigned part. -/
def UPart (t : Str) (n : Nat) : Prop :=
  ∃ d us, d < 10 ∧ Digits (udigits us) ∧ t = digit d :: utext us ∧ n = decVal (d :: udigits us)

theorem core_iff (t : Str) (n : Nat) :
    (if t = [] then none else if t.head? = some '_' then none
      else if t.all fun c => Str.isAsciiDigit c || c == '_' then
        some (Str.digitsVal (t.filter Str.isAsciiDigit)) else none) = some n ↔ UPart t n := by
  constructor
  · intro h
    by_cases h1 : t = []
    · rw [if_pos h1] at h; simp at h
    rw [if_neg h1] at h
    by_cases h2 : t.head? = some '_'
    · rw [if_pos h2] at h; simp at h
    rw [if_neg h2] at h
    by_cases h3 : (t.all fun c => Str.isAsciiDigit c || c == '_') = true
    · rw [if_pos h3] at h
      obtain ⟨us, hd, rfl, hf⟩ := utext_of_all h3
      rcases us with _ | ⟨_ | d, us⟩
      · exact absurd rfl h1
      · exact absurd rfl h2
      · refine ⟨d, us, hd d (by simp [udigits]), fun x hx => hd x (by simp [udigits, hx]), rfl, ?_⟩
        simp only [Option.some.injEq] at h
        rw [← h, hf]
        exact decVal_eq_digitsVal hd
    · rw [if_neg h3] at h; simp at h
  · rintro ⟨d, us, hd, hus, rfl, rfl⟩
    have hall : Digits (udigits (some d :: us)) := by
      intro x hx
      simp only [udigits, List.mem_cons] at hx
      rcases hx with rfl | hx
      · exact hd
      · exact hus x hx
    obtain ⟨h1, h2⟩ := all_utext hall
    have e : digit d :: utext us = utext (some d :: us) := rfl
    rw [if_neg (by simp), if_neg (by
      simp only [List.head?_cons, Option.some.injEq]
      exact digit_ne hd (by decide)), e, if_pos h1, h2]
    congr 1
    exact decVal_eq_digitsVal hall

theorem parseBigUint_iff (s : Str) (n : Nat) :
    parseBigUint s = some n ↔ UPart s n ∨ ∃ t, s = '+' :: t ∧ UPart t n := by
  unfold parseBigUint
  simp only
  rw [core_iff]
  have hplus : ∀ t n, ¬ UPart ('+' :: t) n := by
    rintro t n ⟨d, us, hd, -, e, -⟩
    simp only [List.cons.injEq] at e
    exact digit_ne hd (by decide) e.1.symm
  split
  · rename_i t
    split
    · rename_i ht
      constructor
      · intro h; exact absurd h (hplus _ _)
      · rintro (h | ⟨t', e, h⟩)
        · exact h
        · simp only [List.cons.injEq, true_and] at e
          subst e
          obtain ⟨d, us, hd, -, e, -⟩ := h
          rw [e] at ht
          simp only [List.head?_cons, Option.some.injEq] at ht
          exact absurd ht (digit_ne hd (by decide))
    · constructor
      · intro h; exact Or.inr ⟨t, rfl, h⟩
      · rintro (h | ⟨t', e, h⟩)
        · exact absurd h (hplus _ _)
        · simp only [List.cons.injEq, true_and] at e
          subst e; exact h
  · rename_i hne
    constructor
    · intro h; exact Or.inl h
    · rintro (h | ⟨t, rfl, h⟩)
      · exact h
      · exact absurd rfl (hne t)

theorem uint_part {s : Str} {sg : Sign} {v : Int} :
    UIntText s sg v ↔ ∃ t n, UPart t n ∧ s = sg.text ++ t ∧ v = sg.apply n := by
  constructor
  · rintro ⟨d, us, hd, hus, rfl, rfl⟩
    exact ⟨_, _, ⟨d, us, hd, hus, rfl, rfl⟩, rfl, rfl⟩
  · rintro ⟨t, n, ⟨d, us, hd, hus, rfl, rfl⟩, rfl, rfl⟩
    exact ⟨d, us, hd, hus, rfl, rfl⟩

theorem parseBigUint_text (s : Str) (n : Nat) :
    parseBigUint s = some n ↔ UIntText s .none n ∨ UIntText s .plus n := by
  rw [parseBigUint_iff, uint_part, uint_part]
  constructor
  · rintro (h | ⟨t, rfl, h⟩)
    · exact Or.inl ⟨s, n, h, rfl, rfl⟩
    · exact Or.inr ⟨t, n, h, rfl, rfl⟩
  · rintro (⟨t, m, h, rfl, e⟩ | ⟨t, m, h, rfl, e⟩)
    · have : n = m := by simpa [Sign.apply] using e
      subst this; exact Or.inl h
    · have : n = m := by simpa [Sign.apply] using e
      subst this; exact Or.inr ⟨t, rfl, h⟩

theorem parseBigInt_text (s : Str) (v : Int) :
    parseBigInt s = some v ↔ ∃ sg, UIntText s sg v := by
  have hminus : ∀ t n, ¬ UPart ('-' :: t) n := by
    rintro t n ⟨d, us, hd, -, e, -⟩
    simp only [List.cons.injEq] at e
    exact digit_ne hd (by decide) e.1.symm
  have hplus : ∀ t n, ¬ UPart ('+' :: t) n := by
    rintro t n ⟨d, us, hd, -, e, -⟩
    simp only [List.cons.injEq] at e
    exact digit_ne hd (by decide) e.1.symm
  unfold parseBigInt
  split
  · rename_i t
    simp only [Option.map_eq_some_iff]
    constructor
    · rintro ⟨n, hn, rfl⟩
      rw [parseBigUint_iff] at hn
      by_cases ht : t.head? = some '+'
      · rw [if_pos ht] at hn
        rcases hn with hn | ⟨t', e, hn⟩
        · exact absurd hn (hminus _ _)
        · simp at e
      · rw [if_neg ht] at hn
        rcases hn with hn | ⟨t', rfl, hn⟩
        · exact ⟨.minus, uint_part.2 ⟨t, n, hn, rfl, rfl⟩⟩
        · simp at ht
    · rintro ⟨sg, h⟩
      obtain ⟨t', n, h, e, rfl⟩ := uint_part.1 h
      cases sg with
      | none => simp only [Sign.text, List.nil_append] at e; subst e; exact absurd h (hminus _ _)
      | plus => simp [Sign.text] at e
      | minus =>
        simp only [Sign.text, List.singleton_append, List.cons.injEq, true_and] at e
        subst e
        refine ⟨n, ?_, rfl⟩
        have ht : ¬ t.head? = some '+' := by
          intro ht
          obtain ⟨d, us, hd, -, e, -⟩ := h
          rw [e] at ht
          simp only [List.head?_cons, Option.some.injEq] at ht
          exact absurd ht (digit_ne hd (by decide))
        rw [if_neg ht, parseBigUint_iff]
        exact Or.inl h
  · rename_i hne
    simp only [Option.map_eq_some_iff]
    constructor
    · rintro ⟨n, hn, rfl⟩
      rcases (parseBigUint_text s n).1 hn with h | h
      · exact ⟨_, h⟩
      · exact ⟨_, h⟩
    · rintro ⟨sg, h⟩
      obtain ⟨t, n, hp, rfl, rfl⟩ := uint_part.1 h
      cases sg with
      | none => exact ⟨n, (parseBigUint_iff _ _).2 (Or.inl hp), rfl⟩
      | plus => exact ⟨n, (parseBigUint_iff _ _).2 (Or.inr ⟨t, rfl, hp⟩), rfl⟩
      | minus => exact absurd rfl (hne t)

theorem utext_map_some (ds : List Nat) : utext (ds.map some) = dtext ds := by
  induction ds with
  | nil => rfl
  | cons d ds ih => simp only [List.map_cons, utext, ih]; rfl

theorem udigits_map_some (ds : List Nat) : udigits (ds.map some) = ds := by
  induction ds with
  | nil => rfl
  | cons d ds ih => simp only [List.map_cons, udigits, ih]

theorem xsdInt_uint {s : Str} {sg : Sign} {v : Int} (h : XsdInt s sg v) : UIntText s sg v := by
  obtain ⟨ds, ⟨hne, hd⟩, rfl, rfl⟩ := h
  cases ds with
  | nil => exact absurd rfl hne
  | cons d ds =>
    refine ⟨d, ds.map some, hd d (by simp), ?_, ?_, ?_⟩
    · rw [udigits_map_some]; exact fun x hx => hd x (by simp [hx])
    · rw [utext_map_some]; rfl
    · rw [udigits_map_some]

/-- Without underscores the two languages agree. -/
theorem uint_xsd {s : Str} {sg : Sign} {v : Int} (h : UIntText s sg v) (hu : '_' ∉ s) : XsdInt s sg v := by
  obtain ⟨d, us, hd, hus, rfl, rfl⟩ := h
  have hus' : '_' ∉ utext us := by
    intro h; apply hu; simp [h]
  have hd' : Digits (d :: udigits us) := by
    intro x hx
    simp only [List.mem_cons] at hx
    rcases hx with rfl | hx
    · exact hd
    · exact hus x hx
  refine ⟨d :: udigits us, ⟨by simp, hd'⟩, ?_, rfl⟩
  have : utext us = dtext (udigits us) := by
    clear hu hus hd'
    induction us with
    | nil => rfl
    | cons u us ih =>
      cases u with
      | none => simp [utext] at hus'
      | some x =>
        simp only [utext, List.mem_cons, not_or] at hus'
        simp only [utext, udigits, ih hus'.2]; rfl
  rw [this]; rfl

theorem xsdInt_natStr (n : Nat) : XsdInt (Str.natStr n) .none n := by
  obtain ⟨ds, h1, h2, h3⟩ := natStr_dtext n
  exact ⟨ds, h1, h2, by rw [h3]; rfl⟩

theorem xsdInt_intStr (v : Int) : ∃ sg, XsdInt (Str.intStr v) sg v := by
  unfold Str.intStr
  obtain ⟨ds, h1, h2, h3⟩ := natStr_dtext v.natAbs
  by_cases h : v < 0
  · rw [if_pos h]
    exact ⟨.minus, ds, h1, by rw [h2]; rfl, by rw [h3]; simp only [Sign.apply]; omega⟩
  · rw [if_neg h]
    exact ⟨.none, ds, h1, by rw [h2]; rfl, by rw [h3]; simp only [Sign.apply]; omega⟩

end Verif.Lemmas.Int'
