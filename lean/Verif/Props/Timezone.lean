import Verif.Lemmas.Gregorian2

/-! # C01, C02: timezone suffix -/

namespace Verif.Props

open Verif Verif.Model Verif.Spec Verif.Lemmas Chrono

/-- **C01** `parse_timezone` accepts exactly the XSD timezone texts, with exactly the denoted offset. -/
theorem C01_parse_timezone_iff (s : Str) (off : Int) :
    parseTimezone s = .ok off ↔ TzText s off := parseTimezone_ok_iff

example : TzText "-05:30".toList (-19800) := TzText.west 5 30 (by decide) (by decide)

/-- **C01** It panics exactly on the empty text and on texts whose first character is not a single
byte; the callers never pass such a text. Everything else is `Ok` or `Err`. -/
theorem C01_parse_timezone_panic_iff (s : Str) :
    parseTimezone s = .panic ↔ s = [] ∨ ∃ c t, s = c :: t ∧ c.utf8Size ≠ 1 := parseTimezone_panic_iff

example : parseTimezone ['é', '0'] = .panic := by decide

/-- **C01** A non-empty text with an ASCII first character never panics. -/
theorem C01_parse_timezone_no_panic (c : Char) (t : Str) (h : c.toNat < 128) :
    parseTimezone (c :: t) ≠ .panic := parseTimezone_ne_panic (Str.utf8Size_ascii h)

example : ('x' : Char).toNat < 128 := by decide

/-- **C02** Display then parse gives the offset back exactly for the XSD offsets (whole minutes, at
most 14 hours); `off` ranges over all offsets chrono can represent. -/
theorem C02_roundtrip_iff (off : Int) (h : -86400 < off ∧ off < 86400) :
    parseTimezone (showOffset off) = .ok off ↔ XsdOffset off := by
  rw [parseTimezone_ok_iff]
  exact ⟨fun ht => (showOffset_tzText h ht).1, showOffset_xsd⟩

example : (-86400 < (-19800 : Int) ∧ (-19800 : Int) < 86400) ∧ XsdOffset (-19800) := by
  unfold XsdOffset; decide

/-- **C02** The parser can only produce XSD offsets. -/
theorem C02_parse_range (s : Str) (off : Int) (h : parseTimezone s = .ok off) : XsdOffset off :=
  tzText_xsd (parseTimezone_ok_iff.1 h)

example : parseTimezone "+14:00".toList = .ok 50400 := by decide

/-- **C02** Distinct parsed offsets have distinct texts, and a text which is not the display of its
offset is either `Z` or `-00:00`. -/
theorem C02_canonical (s : Str) (off : Int) (h : parseTimezone s = .ok off) :
    s = showOffset off ∨ s = ['Z'] ∨ s = "-00:00".toList := by
  have ht := parseTimezone_ok_iff.1 h
  clear h
  cases ht with
  | zulu => exact Or.inr (Or.inl rfl)
  | east h m hm hle =>
    left
    have e0 : ¬ ((3600 * (h : Int) + 60 * m) < 0) := by omega
    have e1 : (3600 * (h : Int) + 60 * m).natAbs = 3600 * h + 60 * m := by omega
    have e2 : (3600 * h + 60 * m) % 60 = 0 := by omega
    have e3 : (3600 * h + 60 * m) / 60 / 60 = h := by omega
    have e4 : (3600 * h + 60 * m) / 60 % 60 = m := by omega
    simp only [showOffset, e0, e1, e2, e3, e4, if_true, if_false]
    rw [fmtPadNat_two (by omega), fmtPadNat_two (by omega)]
  | west h m hm hle =>
    by_cases hz : h = 0 ∧ m = 0
    · obtain ⟨rfl, rfl⟩ := hz
      exact Or.inr (Or.inr (by decide))
    · left
      have e0 : (-(3600 * (h : Int) + 60 * m) < 0) := by omega
      have e1 : (-(3600 * (h : Int) + 60 * m)).natAbs = 3600 * h + 60 * m := by omega
      have e2 : (3600 * h + 60 * m) % 60 = 0 := by omega
      have e3 : (3600 * h + 60 * m) / 60 / 60 = h := by omega
      have e4 : (3600 * h + 60 * m) / 60 % 60 = m := by omega
      simp only [showOffset, e0, e1, e2, e3, e4, if_true]
      rw [fmtPadNat_two (by omega), fmtPadNat_two (by omega)]

example : parseTimezone "-01:30".toList = .ok (-5400) := by decide

end Verif.Props
