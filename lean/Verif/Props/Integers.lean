import Verif.Lemmas.Integers

/-! # C16–C18: the arbitrary-size integer types -/

namespace Verif.Props

open Verif Verif.Model Verif.Spec Verif.NumBigint Verif.Lemmas.Int'

/-! ## C16 ranges (exact characterisation over all texts) -/

/-- **C16** -/
theorem C16_integer_iff (s : Str) (i : Integer) :
    Integer.fromStr s = .ok i ↔ ∃ sg, UIntText s sg i.val := by
  rw [← parseBigInt_text]
  unfold Integer.fromStr
  cases h : parseBigInt s with
  | none => simp
  | some v => cases i; simp

/-- **C16** No minus sign is admitted (not even `-0`). -/
theorem C16_nonNegative_iff (s : Str) (i : NonNegativeInteger) :
    NonNegativeInteger.fromStr s = .ok i ↔ UIntText s .none i.val ∨ UIntText s .plus i.val := by
  rw [← parseBigUint_text]
  unfold NonNegativeInteger.fromStr
  cases h : parseBigUint s with
  | none => simp
  | some v => cases i; simp

/-- **C16** -/
theorem C16_positive_iff (s : Str) (i : PositiveInteger) :
    PositiveInteger.fromStr s = .ok i ↔ (∃ sg, UIntText s sg i.val) ∧ 0 < i.val := by
  have key : (∃ sg, UIntText s sg i.val) ∧ 0 < i.val ↔
      (UIntText s .none i.val ∨ UIntText s .plus i.val) ∧ 0 < i.val := by
    constructor
    · rintro ⟨⟨sg, h⟩, hp⟩
      cases sg with
      | none => exact ⟨Or.inl h, hp⟩
      | plus => exact ⟨Or.inr h, hp⟩
      | minus =>
        obtain ⟨d, us, -, -, -, e⟩ := h
        simp only [Sign.apply] at e
        omega
    · rintro ⟨h | h, hp⟩ <;> exact ⟨⟨_, h⟩, hp⟩
  rw [key, ← parseBigUint_text]
  unfold PositiveInteger.fromStr
  cases h : parseBigUint s with
  | none => simp
  | some v =>
    cases i with
    | mk w =>
      simp only [Res.ofOption, Res.ok_bind, Option.some.injEq]
      by_cases hv : v ≤ 0
      · rw [if_pos hv]; simp; omega
      · rw [if_neg hv]; simp; omega

/-- **C16** -/
theorem C16_nonPositive_iff (s : Str) (i : NonPositiveInteger) :
    NonPositiveInteger.fromStr s = .ok i ↔ (∃ sg, UIntText s sg i.val) ∧ i.val ≤ 0 := by
  rw [← parseBigInt_text]
  unfold NonPositiveInteger.fromStr
  cases h : parseBigInt s with
  | none => simp
  | some v =>
    cases i with
    | mk w =>
      simp only [Res.ofOption, Res.ok_bind, Option.some.injEq]
      by_cases hv : v > 0
      · rw [if_pos hv]; simp; omega
      · rw [if_neg hv]; simp; omega

/-- **C16** -/
theorem C16_negative_iff (s : Str) (i : NegativeInteger) :
    NegativeInteger.fromStr s = .ok i ↔ (∃ sg, UIntText s sg i.val) ∧ i.val < 0 := by
  rw [← parseBigInt_text]
  unfold NegativeInteger.fromStr
  cases h : parseBigInt s with
  | none => simp
  | some v =>
    cases i with
    | mk w =>
      simp only [Res.ofOption, Res.ok_bind, Option.some.injEq]
      by_cases hv : v ≥ 0
      · rw [if_pos hv]; simp; omega
      · rw [if_neg hv]; simp; omega

/-- **C16** Completeness: every XSD integer text in range is accepted with the denoted value
(for `nonNegativeInteger`: unless written with a minus sign). -/
theorem C16_complete (s : Str) (sg : Sign) (v : Int) (h : XsdInt s sg v) :
    Integer.fromStr s = .ok ⟨v⟩ ∧
    (0 < v → PositiveInteger.fromStr s = .ok ⟨v.toNat⟩) ∧
    (0 ≤ v → sg ≠ .minus → NonNegativeInteger.fromStr s = .ok ⟨v.toNat⟩) ∧
    (v ≤ 0 → NonPositiveInteger.fromStr s = .ok ⟨v⟩) ∧
    (v < 0 → NegativeInteger.fromStr s = .ok ⟨v⟩) := by
  have hu := xsdInt_uint h
  refine ⟨(C16_integer_iff s ⟨v⟩).2 ⟨sg, hu⟩, ?_, ?_, ?_, ?_⟩
  · intro hv
    have e : ((v.toNat : Nat) : Int) = v := by omega
    exact (C16_positive_iff s ⟨v.toNat⟩).2 ⟨⟨sg, by rw [e]; exact hu⟩, by simp only; omega⟩
  · intro hv hm
    have e : ((v.toNat : Nat) : Int) = v := by omega
    refine (C16_nonNegative_iff s ⟨v.toNat⟩).2 ?_
    rw [e]
    cases sg with
    | none => exact Or.inl hu
    | plus => exact Or.inr hu
    | minus => exact absurd rfl hm
  · intro hv; exact (C16_nonPositive_iff s ⟨v⟩).2 ⟨⟨sg, hu⟩, hv⟩
  · intro hv; exact (C16_negative_iff s ⟨v⟩).2 ⟨⟨sg, hu⟩, hv⟩

example : XsdInt "-0042".toList .minus (-42) :=
  ⟨[0, 0, 4, 2], ⟨by simp, by simp [Digits]⟩, by decide, by decide⟩

/-- **C16** (violated) `-0` denotes zero but is refused by `NonNegativeInteger`. -/
theorem C16_violated_minus_zero :
    XsdInt "-0".toList .minus 0 ∧ NonNegativeInteger.fromStr "-0".toList = .err := by
  refine ⟨⟨[0], ⟨by simp, by simp [Digits]⟩, by decide, by decide⟩, by decide⟩

/-- **C16** No integer parser panics. -/
theorem C16_no_panic (s : Str) :
    Integer.fromStr s ≠ .panic ∧ NonNegativeInteger.fromStr s ≠ .panic ∧ PositiveInteger.fromStr s ≠ .panic ∧
    NonPositiveInteger.fromStr s ≠ .panic ∧ NegativeInteger.fromStr s ≠ .panic := by
  unfold Integer.fromStr NonNegativeInteger.fromStr PositiveInteger.fromStr NonPositiveInteger.fromStr
    NegativeInteger.fromStr
  refine ⟨?_, ?_, ?_, ?_, ?_⟩
  · cases parseBigInt s <;> simp
  · cases parseBigUint s <;> simp
  · cases parseBigUint s with
    | none => simp
    | some v => simp only [Res.ofOption, Res.ok_bind]; split <;> simp
  · cases parseBigInt s with
    | none => simp
    | some v => simp only [Res.ofOption, Res.ok_bind]; split <;> simp
  · cases parseBigInt s with
    | none => simp
    | some v => simp only [Res.ofOption, Res.ok_bind]; split <;> simp

/-! ## C17 display then parse -/

/-- **C17** -/
theorem C17_integer_roundtrip (i : Integer) : Integer.fromStr i.display = .ok i := by
  obtain ⟨sg, h⟩ := xsdInt_intStr i.val
  exact (C16_integer_iff _ _).2 ⟨sg, xsdInt_uint h⟩

/-- **C17** -/
theorem C17_nonNegative_roundtrip (i : NonNegativeInteger) :
    NonNegativeInteger.fromStr i.display = .ok i :=
  (C16_nonNegative_iff _ _).2 (Or.inl (xsdInt_uint (xsdInt_natStr i.val)))

/-- **C17** Round trip exactly for the values in range (the type can hold 0). -/
theorem C17_positive_roundtrip (i : PositiveInteger) :
    PositiveInteger.fromStr i.display = .ok i ↔ 0 < i.val := by
  rw [C16_positive_iff]
  exact ⟨fun h => h.2, fun h => ⟨⟨_, xsdInt_uint (xsdInt_natStr i.val)⟩, h⟩⟩

/-- **C17** Round trip exactly for the values in range. -/
theorem C17_nonPositive_roundtrip (i : NonPositiveInteger) :
    NonPositiveInteger.fromStr i.display = .ok i ↔ i.val ≤ 0 := by
  rw [C16_nonPositive_iff]
  obtain ⟨sg, h⟩ := xsdInt_intStr i.val
  exact ⟨fun h => h.2, fun hv => ⟨⟨sg, xsdInt_uint h⟩, hv⟩⟩

/-- **C17** Round trip exactly for the values in range. -/
theorem C17_negative_roundtrip (i : NegativeInteger) :
    NegativeInteger.fromStr i.display = .ok i ↔ i.val < 0 := by
  rw [C16_negative_iff]
  obtain ⟨sg, h⟩ := xsdInt_intStr i.val
  exact ⟨fun h => h.2, fun hv => ⟨⟨sg, xsdInt_uint h⟩, hv⟩⟩

example : 0 < (⟨10 ^ 40⟩ : PositiveInteger).val ∧ (⟨-(10 ^ 40)⟩ : NegativeInteger).val < 0 := by decide

/-- **C17** (violated) The default values of the strictly signed types do not survive. -/
theorem C17_default_violated :
    PositiveInteger.fromStr PositiveInteger.default.display = .err ∧
    NegativeInteger.fromStr NegativeInteger.default.display = .err := by decide

/-- **C17** The printed text is a plain XSD integer text. -/
theorem C17_display_lexical (i : Integer) : ∃ sg, XsdInt i.display sg i.val := xsdInt_intStr i.val

/-! ## C18 lexical space -/

/-- **C18** (partial: texts without underscore) Accepted texts are XSD integers denoting the result.
The full statement is false: `C18_violated`; the exact language is given by the `C16_*_iff`. -/
theorem C18_sound_partial (s : Str) (i : Integer) (hu : '_' ∉ s) (h : Integer.fromStr s = .ok i) :
    ∃ sg, XsdInt s sg i.val := by
  obtain ⟨sg, hs⟩ := (C16_integer_iff s i).1 h
  exact ⟨sg, uint_xsd hs hu⟩

example : '_' ∉ "+17".toList ∧ Integer.fromStr "+17".toList = .ok ⟨17⟩ := by decide

/-- **C18** (violated) Underscores are accepted by all five types. -/
theorem C18_violated :
    Integer.fromStr "1_000_".toList = .ok ⟨1000⟩ ∧ NonNegativeInteger.fromStr "1_000".toList = .ok ⟨1000⟩ ∧
    PositiveInteger.fromStr "+1__0".toList = .ok ⟨10⟩ ∧ NonPositiveInteger.fromStr "-1_0".toList = .ok ⟨-10⟩ ∧
    NegativeInteger.fromStr "-1_0".toList = .ok ⟨-10⟩ ∧ ∀ sg v, ¬ XsdInt "1_000".toList sg v := by
  refine ⟨by decide, by decide, by decide, by decide, by decide, ?_⟩
  rintro sg v ⟨ds, ⟨-, hd⟩, e, -⟩
  have h1 : '_' ∈ "1_000".toList := by decide
  rw [e, List.mem_append] at h1
  rcases h1 with h1 | h1
  · cases sg <;> simp [Sign.text] at h1
  · simp only [dtext, List.mem_map] at h1
    obtain ⟨d, hm, e⟩ := h1
    exact digit_ne (hd d hm) (by decide) e

end Verif.Props
