import Verif.Lemmas.Decimal

/-! # C62, C63: decimal numbers -/

namespace Verif.Props

open Verif Verif.Model Verif.Spec Verif.BigDecimal Verif.Lemmas.Dec

/-! ## C62 reading -/

/-- **C62** Exactly the texts which are accepted, for all texts, with the number read. -/
theorem C62_accepts_iff (s : Str) (d : Decimal) : Decimal.fromStr s = .ok d ↔ DecText s d.val.int d.val.scale := by
  rw [← parse_iff, Decimal.fromStr]
  cases parse s with
  | none => exact ⟨fun h => (by cases h), fun h => (by cases h)⟩
  | some v => exact ⟨fun h => by cases h; rfl, fun h => by cases h; rfl⟩

/-- **C62** Every other text is refused with an error. -/
theorem C62_no_panic (s : Str) : Decimal.fromStr s ≠ .panic := by
  rw [Decimal.fromStr]
  cases parse s with
  | none => intro h; cases h
  | some v => intro h; cases h

/-- **C62** Every XSD decimal is accepted and has the right value. -/
theorem C62_complete {s : Str} {sg : Sign} {ds fs : List Nat} (h : XsdDec s sg ds fs) (hl : fs.length < 2 ^ 63) :
    ∃ d, Decimal.fromStr s = .ok d ∧ decQ d.val.int d.val.scale = xsdDecVal sg ds fs :=
  ⟨⟨⟨_, _⟩⟩, (C62_accepts_iff s _).2 (xsd_dec h hl), rfl⟩

example : XsdDec "+0.01234".toList .plus [0] [0, 1, 2, 3, 4] :=
  .point (sg := .plus) (ds := [0]) (fs := [0, 1, 2, 3, 4]) (by unfold Digits; decide) (by unfold Digits; decide) (by decide)

/-- **C62** An accepted text is an XSD decimal, and read with the right value, exactly if it has neither an exponent
nor an underscore and does not begin with a point before a sign. -/
theorem C62_sound_partial {s : Str} {d : Decimal} (h : Decimal.fromStr s = .ok d) :
    (∃ sg ds fs, XsdDec s sg ds fs ∧ decQ d.val.int d.val.scale = xsdDecVal sg ds fs) ↔
      'e' ∉ s ∧ 'E' ∉ s ∧ '_' ∉ s ∧ ∀ c t, s = '.' :: c :: t → c ≠ '+' ∧ c ≠ '-' := by
  constructor
  · rintro ⟨sg, ds, fs, hx, -⟩
    exact xsd_chars hx
  · rintro ⟨he, hE, hu, hp⟩
    obtain ⟨m, e, n, x, rfl, hm, hexp, hs, -⟩ := (C62_accepts_iff s d).1 h
    cases hexp with
    | @some c t sg _ hc _ _ _ =>
      rcases hc with rfl | rfl
      · exact absurd (List.mem_append_right _ (List.mem_cons_self ..)) he
      · exact absurd (List.mem_append_right _ (List.mem_cons_self ..)) hE
    | none =>
      rw [List.append_nil] at hu hp ⊢
      obtain ⟨sg, ds, fs, h1, h2, h3⟩ := mantissa_xsd hm hu hp
      refine ⟨sg, ds, fs, h1, ?_⟩
      rw [xsdDecVal, hs, h2, h3, sub_zero]

private theorem accepts {s : Str} {v sc : Int} (h : parse s = some ⟨v, sc⟩) : Decimal.fromStr s = .ok ⟨⟨v, sc⟩⟩ := by
  rw [Decimal.fromStr, h]; rfl

/-- **C62** Exponents, underscores and a sign after the point are accepted, although XSD has none of them; in the last
case the sign is even counted as a digit. -/
theorem C62_violated : Decimal.fromStr "1e2".toList = .ok ⟨⟨1, -2⟩⟩ ∧ Decimal.fromStr "1_0".toList = .ok ⟨⟨10, 0⟩⟩ ∧
    Decimal.fromStr ".-5".toList = .ok ⟨⟨-5, 2⟩⟩ ∧
    ∀ s ∈ ["1e2".toList, "1_0".toList, ".-5".toList], ¬ ∃ sg ds fs, XsdDec s sg ds fs := by
  refine ⟨accepts (by decide +kernel), accepts (by decide +kernel), accepts (by decide +kernel), ?_⟩
  rintro s hs ⟨sg, ds, fs, h⟩
  obtain ⟨h1, h2, h3, h4⟩ := xsd_chars h
  simp only [List.mem_cons, List.not_mem_nil, or_false] at hs
  rcases hs with rfl | rfl | rfl
  · exact h1 (by decide)
  · exact h3 (by decide)
  · exact (h4 '-' ['5'] rfl).2 rfl

/-! ## C63 writing -/

/-- **C63** Whatever is written is read back as the same number, wherever the change to exponents is made. -/
theorem C63_roundtrip (expo : Dec → Bool) (d : Decimal) (h1 : -2 ^ 63 ≤ d.val.scale) (h2 : d.val.scale < 2 ^ 63)
    (h3 : (Str.natStr d.val.int.natAbs).length < 2 ^ 64) :
    ∃ d', Decimal.fromStr (d.display expo) = .ok d' ∧ decQ d'.val.int d'.val.scale = decQ d.val.int d.val.scale ∧
      (0 ≤ d.val.scale → d' = d) := by
  rw [Decimal.display, BigDecimal.display]
  by_cases he : expo d.val = true
  · rw [if_pos he]
    exact ⟨d, (C62_accepts_iff _ _).2 (showExp_text d.val h1 h2 h3), rfl, fun _ => rfl⟩
  · rw [if_neg he]
    obtain ⟨sg, ds, fs, hx, hl, hv⟩ := showFull_xsd d.val
    refine ⟨⟨⟨sg.apply (decVal (ds ++ fs)), fs.length⟩⟩, (C62_accepts_iff _ _).2 (xsd_dec hx (by omega)), ?_, ?_⟩
    · show decQ (sg.apply (decVal (ds ++ fs))) fs.length = _
      rw [hv, hl, decQ_shift]
    · intro h0
      rw [max_eq_left h0] at hl
      rw [hv, hl, show (-d.val.scale).toNat = 0 by omega, pow_zero, mul_one]

example : Decimal.display (fun _ => false) ⟨⟨-1234, 2⟩⟩ = "-12.34".toList ∧
    Decimal.display (fun _ => false) ⟨⟨1234, 5⟩⟩ = "0.01234".toList ∧
    Decimal.display (fun _ => false) ⟨⟨12, -3⟩⟩ = "12000".toList ∧
    Decimal.display (fun _ => true) ⟨⟨12, 30⟩⟩ = "1.2E-29".toList := by decide +kernel

/-- **C63** Written out in full, the text is an XSD decimal with the value of the number. -/
theorem C63_full_partial (expo : Dec → Bool) (d : Decimal) (h : expo d.val = false) :
    ∃ sg ds fs, XsdDec (d.display expo) sg ds fs ∧ xsdDecVal sg ds fs = decQ d.val.int d.val.scale := by
  obtain ⟨sg, ds, fs, hx, hl, hv⟩ := showFull_xsd d.val
  refine ⟨sg, ds, fs, ?_, ?_⟩
  · rw [Decimal.display, BigDecimal.display, if_neg (by rw [h]; simp)]; exact hx
  · rw [xsdDecVal, hv, hl, decQ_shift]

/-- **C63** With an exponent it never is one. -/
theorem C63_exponent_violated (expo : Dec → Bool) (d : Decimal) (h : expo d.val = true) :
    ¬ ∃ sg ds fs, XsdDec (d.display expo) sg ds fs := by
  rintro ⟨sg, ds, fs, hx⟩
  rw [Decimal.display, BigDecimal.display, if_pos h] at hx
  refine (xsd_chars hx).2.1 ?_
  rw [showExp]
  exact List.mem_append_right _ (List.mem_cons_self ..)

/-- **C63** The default is the value zero, and is what the text `0` is read as. -/
theorem C63_default (d : Decimal) :
    (Decimal.fromStr "0".toList = .ok d ↔ d = Decimal.default) ∧ decQ Decimal.default.val.int Decimal.default.val.scale = 0 := by
  have h : Decimal.fromStr "0".toList = .ok Decimal.default := accepts (by decide +kernel)
  refine ⟨⟨fun e => ?_, fun e => e ▸ h⟩, ?_⟩
  · rw [h] at e
    exact (Res.ok.inj e).symm
  · simp [decQ, Decimal.default]

end Verif.Props
