import Verif.Spec.Defaults
import Verif.Props.Returns
import Verif.Props.Facets
import Verif.Props.Checks

/-! # C93: default values are values of their types -/

namespace Verif.Props

open Verif Verif.Model Verif.Spec Verif.Lemmas Verif.Lemmas.Parse Verif.Lemmas.Blt Verif.Lemmas.Val Verif.Lemmas.Prt
open RoXml Verif.Props.Sample

/-! ## The library -/

/-- The built-in types whose default value is out of their bounds. -/
def outOfBounds : List String := ["positiveInteger", "negativeInteger"]

private theorem row_of {n r q : String} (h : (n, r) ∈ readmeTable ++ undocumentedTable)
    (hq : ∀ p ∈ readmeTable ++ undocumentedTable, p.1 = n → p.2 = q) : r = q := hq _ h rfl

private theorem no_offset : ∀ o : Int, (none : Option Int) = some o → DayOffset o := fun _ h => by cases h

private theorem lib_default (L : Lib) (he : L.expo ⟨0, 0⟩ = false) {n r : String} {x : XVal}
    (hrow : (n, r) ∈ readmeTable ++ undocumentedTable) (hl : n ∉ listTypes) (hx : Initial n x) :
    ∃ v, libDefault L r.toList = some (.ok v) ∧ HasType r v ∧ Carries v x ∧ (Proper L.expo n v ↔ n ∉ outOfBounds) ∧
      Returns L.years.lo v := by
  have hlo := L.years.lo_le
  have hv : ValidDate 1 1 1 := by unfold ValidDate LeapYear; decide
  cases hx with
  | text h =>
    have k1 : ∀ p ∈ readmeTable ++ undocumentedTable, p.1 ∈ textTypes → p.2 = "String" := by decide +kernel
    have k2 : ∀ n ∈ textTypes, n ∉ outOfBounds := by decide
    obtain rfl : r = "String" := k1 _ hrow h
    exact ⟨_, rfl, .text, .text, ⟨fun _ => k2 n h, fun _ => trivial⟩, trivial⟩
  | list h => exact absurd h hl
  | boolean =>
    obtain rfl := row_of hrow (q := "bool") (by decide)
    exact ⟨_, rfl, .bool, .bool, ⟨fun _ => by decide, fun _ => trivial⟩, trivial⟩
  | int h =>
    have k1 : ∀ p ∈ readmeTable ++ undocumentedTable, p.1 ∈ intTypes.map (·.1) → p.2 ∈ ["i64", "i32", "i16", "i8", "u64",
      "u32", "u16", "u8", "xs::Integer", "xs::NonNegativeInteger", "xs::PositiveInteger", "xs::NonPositiveInteger",
      "xs::NegativeInteger"] := by decide +kernel
    have k2 : ∀ n ∈ intTypes.map (·.1), ((∀ q ∈ intTypes, q.1 = n → (∀ b ∈ q.2.1.toList, b ≤ 0) ∧ ∀ b ∈ q.2.2.toList, 0 ≤ b) ↔
      n ∉ outOfBounds) := by decide +kernel
    refine ⟨.int 0, ?_, ?_, .int, ?_, trivial⟩
    · have := k1 _ hrow h
      simp only [List.mem_cons, List.not_mem_nil, or_false] at this
      rcases this with rfl | rfl | rfl | rfl | rfl | rfl | rfl | rfl | rfl | rfl | rfl | rfl | rfl <;> (unfold libDefault defaultTable; simp [Integer.default, NonNegativeInteger.default, PositiveInteger.default,
          NonPositiveInteger.default, NegativeInteger.default])
    · have := k1 _ hrow h
      simp only [List.mem_cons, List.not_mem_nil, or_false] at this
      rcases this with rfl | rfl | rfl | rfl | rfl | rfl | rfl | rfl | rfl | rfl | rfl | rfl | rfl <;>
        first
          | exact .big (by decide)
          | exact .nat (by decide) (by decide)
          | exact .machine (lo := -9223372036854775808) (hi := 9223372036854775807) (by decide) (by decide) (by decide)
          | exact .machine (lo := -2147483648) (hi := 2147483647) (by decide) (by decide) (by decide)
          | exact .machine (lo := -32768) (hi := 32767) (by decide) (by decide) (by decide)
          | exact .machine (lo := -128) (hi := 127) (by decide) (by decide) (by decide)
          | exact .machine (lo := 0) (hi := 18446744073709551615) (by decide) (by decide) (by decide)
          | exact .machine (lo := 0) (hi := 4294967295) (by decide) (by decide) (by decide)
          | exact .machine (lo := 0) (hi := 65535) (by decide) (by decide) (by decide)
          | exact .machine (lo := 0) (hi := 255) (by decide) (by decide) (by decide)
    · rw [← k2 n h]
      constructor
      · rintro hp ⟨m, lo, hi⟩ hq rfl
        obtain ⟨h1, h2⟩ := hp lo hi hq
        exact ⟨fun b hb => h1 b (Option.mem_toList.1 hb), fun b hb => h2 b (Option.mem_toList.1 hb)⟩
      · intro hp lo hi hq
        obtain ⟨h1, h2⟩ := hp _ hq rfl
        exact ⟨fun b hb => h1 b (Option.mem_toList.2 hb), fun b hb => h2 b (Option.mem_toList.2 hb)⟩
  | decimal =>
    obtain rfl := row_of hrow (q := "xs::Decimal") (by decide)
    exact ⟨.dec Decimal.default, by unfold libDefault defaultTable; simp, .dec, .dec (by simp [decQ, Decimal.default]), ⟨fun _ => by decide, fun _ => he⟩, trivial⟩
  | double =>
    obtain rfl := row_of hrow (q := "f64") (by decide)
    exact ⟨.float (.num false 0 0), by unfold libDefault defaultTable; simp, .float, .double (.num (by simp)), ⟨fun _ => by decide, fun _ h => absurd h (by decide)⟩, trivial⟩
  | float =>
    obtain rfl := row_of hrow (q := "f64") (by decide)
    have hs : Single 0 := ⟨0, 0, by norm_num, by norm_num, by norm_num, by norm_num⟩
    refine ⟨.float (.num false 0 0), by unfold libDefault defaultTable; simp, .float, .single (.num (by simp)) ?_, ⟨fun _ => by decide, fun _ _ => ?_⟩, trivial⟩
    · rintro b q ⟨⟩
      rw [Flt.rnd_zero]; exact hs
    · rw [show ((0 : Nat) : ℚ) * 10 ^ (0 : Int) = 0 by simp, Flt.rnd_zero]; exact hs
  | date =>
    obtain rfl := row_of hrow (q := "xs::Date") (by decide)
    refine ⟨.date ⟨⟨1, 1, 1⟩, none⟩, ?_, .date hv no_offset, .date, ⟨fun _ => by decide, fun _ => ⟨by decide, trivial⟩⟩,
      show L.years.lo ≤ 1 by omega, .inl (by decide)⟩
    have : libDefault L "xs::Date".toList = some ((Date.default L.years).map .date) := by unfold libDefault defaultTable; simp
    rw [this, (C19_default L.years).1]; rfl
  | time =>
    obtain rfl := row_of hrow (q := "xs::Time") (by decide)
    exact ⟨.time Time.default, by unfold libDefault defaultTable; simp, .time ⟨by decide, by decide, by decide, by decide⟩ no_offset, .time (by simp),
      ⟨fun _ => by decide, fun _ => ⟨by decide, by decide, trivial⟩⟩, trivial⟩
  | dateTime =>
    obtain rfl := row_of hrow (q := "xs::DateTime") (by decide)
    refine ⟨.dateTime ⟨⟨⟨1, 1, 1⟩, ⟨0, 0, 0, 0⟩, 0⟩⟩, ?_, .dateTime hv ⟨by decide, by decide, by decide, by decide⟩
      ⟨by decide, by decide⟩, .dateTime (by simp), ⟨fun _ => by decide, fun _ => ⟨by decide, by decide, ?_⟩⟩,
      (by decide : (0 : Int) ≤ 1)⟩
    · have : libDefault L "xs::DateTime".toList = some ((DateTime.default L.years).map .dateTime) := by unfold libDefault defaultTable; simp
      rw [this, (C23_default L.years).1]; rfl
    · unfold XsdOffset; decide
  | stamp =>
    obtain rfl := row_of hrow (q := "xs::DateTimeStamp") (by decide)
    refine ⟨.stamp ⟨⟨⟨⟨1, 1, 1⟩, ⟨0, 0, 0, 0⟩, 0⟩⟩⟩, ?_, .stamp hv ⟨by decide, by decide, by decide, by decide⟩
      ⟨by decide, by decide⟩, .stamp (by simp), ⟨fun _ => by decide, fun _ => ⟨by decide, by decide, ?_⟩⟩,
      (by decide : (0 : Int) ≤ 1)⟩
    · have : libDefault L "xs::DateTimeStamp".toList = some ((DateTimeStamp.default L.years).map .stamp) := by unfold libDefault defaultTable; simp
      rw [this, DateTimeStamp.default, (C23_default L.years).1]; rfl
    · unfold XsdOffset; decide
  | duration =>
    obtain rfl := row_of hrow (q := "xs::Duration") (by decide)
    refine ⟨.duration ⟨false, 0, 0, 0, 0, 0, 0⟩, by unfold libDefault defaultTable; simp [Duration.default, Ieee.ops], .duration fun _ => Flt.rnd_zero, .duration (by simp),
      ⟨fun _ => by decide, fun _ => le_refl (0 : ℚ)⟩, trivial⟩
  | gDay =>
    obtain rfl := row_of hrow (q := "xs::GDay") (by decide)
    exact ⟨.gDay GDay.default, by unfold libDefault defaultTable; simp, .gDay ⟨by decide, by decide⟩ no_offset, .gDay, ⟨fun _ => by decide, fun _ => ⟨by decide, by decide, trivial⟩⟩, trivial⟩
  | gMonth =>
    obtain rfl := row_of hrow (q := "xs::GMonth") (by decide)
    exact ⟨.gMonth GMonth.default, by unfold libDefault defaultTable; simp, .gMonth ⟨by decide, by decide⟩ no_offset, .gMonth, ⟨fun _ => by decide, fun _ => ⟨by decide, by decide, trivial⟩⟩, trivial⟩
  | gMonthDay =>
    obtain rfl := row_of hrow (q := "xs::GMonthDay") (by decide)
    exact ⟨.gMonthDay GMonthDay.default, by unfold libDefault defaultTable; simp, .gMonthDay ⟨by decide, by decide⟩ ⟨by decide, by decide⟩ no_offset, .gMonthDay,
      ⟨fun _ => by decide, fun _ => ⟨⟨1, 1, rfl, rfl, by decide⟩, trivial⟩⟩, trivial⟩
  | gYear =>
    obtain rfl := row_of hrow (q := "xs::GYear") (by decide)
    exact ⟨.gYear GYear.default, by unfold libDefault defaultTable; simp, .gYear ⟨by decide, by decide⟩ no_offset, .gYear, ⟨fun _ => by decide, fun _ => ⟨by decide, trivial⟩⟩,
      (by decide : (1 : Int) ≠ 0)⟩
  | gYearMonth =>
    obtain rfl := row_of hrow (q := "xs::GYearMonth") (by decide)
    exact ⟨.gYearMonth GYearMonth.default, by unfold libDefault defaultTable; simp, .gYearMonth ⟨by decide, by decide⟩ ⟨by decide, by decide⟩ no_offset, .gYearMonth,
      ⟨fun _ => by decide, fun _ => ⟨by decide, by decide, by decide, trivial⟩⟩, (by decide : (1 : Int) ≠ 0)⟩

/-- Each type of the table has one initial value. -/
theorem initial_row {n r : String} (hrow : (n, r) ∈ readmeTable ++ undocumentedTable) : ∃ x, Initial n x := by
  have key : ∀ p ∈ readmeTable ++ undocumentedTable, p.1 ∈ textTypes ∨ p.1 ∈ listTypes ∨ p.1 ∈ intTypes.map (·.1) ∨
      p.1 ∈ ["boolean", "decimal", "double", "float", "date", "time", "dateTime", "dateTimeStamp", "duration", "gDay",
        "gMonth", "gMonthDay", "gYear", "gYearMonth"] := by decide +kernel
  rcases key _ hrow with h | h | h | h
  · exact ⟨_, .text h⟩
  · exact ⟨_, .list h⟩
  · exact ⟨_, .int h⟩
  · simp only [List.mem_cons, List.not_mem_nil, or_false] at h
    rcases h with rfl | rfl | rfl | rfl | rfl | rfl | rfl | rfl | rfl | rfl | rfl | rfl | rfl | rfl
    exacts [⟨_, .boolean⟩, ⟨_, .decimal⟩, ⟨_, .double⟩, ⟨_, .float⟩, ⟨_, .date⟩, ⟨_, .time⟩, ⟨_, .dateTime⟩, ⟨_, .stamp⟩,
      ⟨_, .duration⟩, ⟨_, .gDay⟩, ⟨_, .gMonth⟩, ⟨_, .gMonthDay⟩, ⟨_, .gYear⟩, ⟨_, .gYearMonth⟩]

private theorem names_of {n : String} {x : XVal} (hx : Initial n x) : ∃ r, (n, r) ∈ readmeTable ++ undocumentedTable := by
  have key : ∀ {l : List String}, n ∈ l → (∀ n ∈ l, ∃ row ∈ readmeTable ++ undocumentedTable, row.1 = n) →
      ∃ r, (n, r) ∈ readmeTable ++ undocumentedTable := by
    intro l h1 h2
    obtain ⟨⟨a, b⟩, hr, e⟩ := h2 n h1
    cases e
    exact ⟨b, hr⟩
  cases hx with
  | text h => exact key h (by decide +kernel)
  | list h => exact key h (by decide +kernel)
  | int h => exact key h (by decide +kernel)
  | _ => exact key (l := ["boolean", "decimal", "double", "float", "date", "time", "dateTime", "dateTimeStamp",
      "duration", "gDay", "gMonth", "gMonthDay", "gYear", "gYearMonth"]) (by decide) (by decide +kernel)

private theorem d0 : Digits1 [0] := ⟨by decide, by unfold Digits; decide⟩

private theorem dec_zero : XsdDec "0".toList .none [0] [] := by
  have := XsdDec.whole (sg := .none) d0
  exact this

private theorem decimal_back {L : Lib} (he : L.expo ⟨0, 0⟩ = false) :
    ReadsBack L "decimal" "xs::Decimal" (.dec Decimal.default) := by
  have hc : Carries (.dec Decimal.default) (.dec (xsdDecVal .none [0] [])) :=
    .dec (by simp [decQ, Decimal.default, xsdDecVal, decVal, Sign.apply])
  refine ⟨"0".toList, _, .dec Decimal.default, _, ?_, lib_Decimal L, ?_, .dec dec_zero, hc, hc⟩
  · have : Decimal.default.display L.expo = "0".toList := by
      rw [Decimal.display, BigDecimal.display, if_neg (by rw [show Decimal.default.val = ⟨0, 0⟩ from rfl, he]; simp)]
      decide +kernel
    simp only [libToString, libDisplay, this, Option.bind_some, if_true]
  · rw [((C63_default Decimal.default).1).2 rfl]; rfl

private theorem duration_back {L : Lib} : ReadsBack L "duration" "xs::Duration" (.duration ⟨false, 0, 0, 0, 0, 0, 0⟩) := by
  have hl : XsdDuration "P0Y".toList ⟨false, some [0], none, none, none, none, none⟩ :=
    ⟨⟨by rintro ds ⟨⟩; exact d0, by simp, by simp, by simp, by simp, by simp, by simp⟩, by unfold DurParts.NonEmpty; decide, by decide⟩
  have hc : Carries (.duration ⟨false, 0, 0, 0, 0, 0, 0⟩) (.duration false 0 0 0 0 0 0) := .duration (by simp)
  refine ⟨"P0Y".toList, _, .duration ⟨false, 0, 0, 0, 0, 0, 0⟩, _, ?_, lib_Duration L, ?_, .duration hl, hc, hc⟩
  · have : Duration.display (Ieee.ops L.sh) ⟨false, 0, 0, 0, 0, 0, 0⟩ = "P0Y".toList := by
      simp [Duration.display, Ieee.ops]
    simp only [libToString, libDisplay, this, Option.bind_some, if_true]
  · have : Duration.fromStr (Ieee.ops L.sh) L.profile "P0Y".toList = .ok ⟨false, 0, 0, 0, 0, 0, 0⟩ := by
      cases L.profile <;> rfl
    rw [this]; rfl

/-- **C93** For every row of the table but the list types: `default()` does not panic and returns the initial value; it is
written as a literal denoting it and read back, except for `positiveInteger` and `negativeInteger`, where neither holds.
(That zero has no exponent when it is printed, and how doubles are printed, is assumed of the libraries.) -/
theorem C93_library_iff (L : Lib) (hsh : Shows L.sh) (he : L.expo ⟨0, 0⟩ = false) {n r : String} {x : XVal}
    (hrow : (n, r) ∈ readmeTable ++ undocumentedTable) (hl : n ∉ listTypes) (hx : Initial n x) :
    ∃ v, libDefault L r.toList = some (.ok v) ∧ HasType r v ∧ Carries v x ∧ (Writes L n r v ↔ n ∉ outOfBounds) ∧
      (ReadsBack L n r v ↔ n ∉ outOfBounds) := by
  obtain ⟨v, h1, h2, h3, h4, h5⟩ := lib_default L he hrow hl hx
  have hw := (C80_writes_iff_partial L hsh hrow h2).trans h4
  refine ⟨v, h1, h2, h3, hw, ?_, fun hb => ?_⟩
  · rintro ⟨s, f, w, x, k1, -, -, k4, k5, -⟩
    exact hw.1 ⟨s, x, k1, k4, k5⟩
  · by_cases hd : n = "decimal"
    · subst hd
      obtain rfl := row_of hrow (q := "xs::Decimal") (by decide)
      have : libDefault L "xs::Decimal".toList = some (.ok (.dec Decimal.default)) := by unfold libDefault defaultTable; simp
      cases Option.some.inj (h1.symm.trans this)
      exact decimal_back he
    by_cases hu : n = "duration"
    · subst hu
      obtain rfl := row_of hrow (q := "xs::Duration") (by decide)
      have : libDefault L "xs::Duration".toList = some (.ok (.duration ⟨false, 0, 0, 0, 0, 0, 0⟩)) := by
        unfold libDefault defaultTable; simp [Duration.default, Ieee.ops]
      cases Option.some.inj (h1.symm.trans this)
      exact duration_back
    exact (C82_back_iff_partial L hsh hrow h2 (h4.2 hb) fun _ _ => no_huge ⟨hd, hu⟩).2 h5

private theorem year_one : XsdYear false "0001".toList 1 :=
  ⟨[0, 0, 0, 1], by unfold Digits; decide, by decide, fun h => absurd h (by decide), by decide, by decide⟩

private theorem day_one : XsdDay false "0001-01-01".toList 1 1 1 :=
  ⟨_, year_one, by unfold ValidDate LeapYear; decide, by decide⟩

private theorem midnight : XsdTime "00:00:00".toList 0 0 0 [] :=
  ⟨two 0, .inl (by decide), by decide, by decide, .whole, by decide⟩

private theorem second_zero : secondQ 0 [] = 0 := by simp [secondQ, decVal]

private theorem initial_literal {n : String} {x : XVal} (hx : Initial n x) (hb : n ∉ outOfBounds) : ∃ s, Literal n s x := by
  have hf : FloatText "0".toList (.num false 0) := by
    have := FloatText.num dec_zero .none
    simpa [decQ, decVal] using this
  cases hx with
  | text h => exact ⟨_, .text h⟩
  | list h => exact ⟨[], .list (ts := []) h (.nil fun c hc => by cases hc) (fun c hc => by cases hc)⟩
  | boolean => exact ⟨_, .no (.inl rfl)⟩
  | int h =>
    have k2 : ∀ q ∈ intTypes, q.1 ∉ outOfBounds → (∀ b ∈ q.2.1.toList, b ≤ 0) ∧ ∀ b ∈ q.2.2.toList, 0 ≤ b := by decide +kernel
    obtain ⟨⟨m, lo, hi⟩, hq, rfl⟩ := List.mem_map.1 h
    obtain ⟨h1, h2⟩ := k2 _ hq hb
    exact ⟨_, .int hq (sg := .none) ⟨[0], d0, rfl, rfl⟩ (fun b hb => h1 b (Option.mem_toList.2 hb))
      (fun b hb => h2 b (Option.mem_toList.2 hb))⟩
  | decimal =>
    have := Literal.dec dec_zero
    rw [show xsdDecVal .none [0] [] = 0 by simp [decQ, xsdDecVal, decVal, Sign.apply]] at this
    exact ⟨_, this⟩
  | double => exact ⟨_, .double hf⟩
  | float => exact ⟨_, .float hf⟩
  | date => exact ⟨_, .date day_one .none⟩
  | time =>
    have := Literal.time midnight .none
    rw [second_zero] at this
    exact ⟨_, this⟩
  | dateTime =>
    have := Literal.dateTime day_one midnight (.some .zulu)
    rw [second_zero] at this
    exact ⟨_, this⟩
  | stamp =>
    have := Literal.stamp day_one midnight .zulu
    rw [second_zero] at this
    exact ⟨_, this⟩
  | duration =>
    have hl : XsdDuration "P0Y".toList ⟨false, some [0], none, none, none, none, none⟩ :=
      ⟨⟨by rintro ds ⟨⟩; exact d0, by simp, by simp, by simp, by simp, by simp, by simp⟩, by unfold DurParts.NonEmpty; decide, by decide⟩
    exact ⟨_, .duration hl⟩
  | gDay => exact ⟨_, .gDay ⟨1, [], by decide, by decide, rfl, rfl, .none⟩⟩
  | gMonth => exact ⟨_, .gMonth ⟨1, [], by decide, by decide, rfl, rfl, .none⟩⟩
  | gMonthDay => exact ⟨_, .gMonthDay ⟨1, 1, [], by decide, by decide, by decide, by decide, rfl, rfl, rfl, .none⟩⟩
  | gYear => exact ⟨_, .gYear year_one .none⟩
  | gYearMonth => exact ⟨_, .gYearMonth (m := 1) year_one (by decide) (by decide) .none⟩

/-- **C93** The initial value of a built-in type is a value of it, except for `positiveInteger` and `negativeInteger`, where
it is zero, and for the types of names, tokens and their lists, where it is empty. -/
theorem C93_value_iff {n : String} {x : XVal} (hx : Initial n x) : IsValue n x ↔ n ∉ outOfBounds ++ nonEmptyTypes := by
  constructor
  · rintro ⟨⟨s, hl⟩, hne⟩ hm
    rcases List.mem_append.1 hm with hm | hm
    · have k1 : ∀ n ∈ outOfBounds, n ∉ textTypes ∧ n ∉ listTypes ∧ ∀ q ∈ intTypes, q.1 = n →
        ¬ ((∀ b ∈ q.2.1.toList, b ≤ 0) ∧ ∀ b ∈ q.2.2.toList, 0 ≤ b) := by decide +kernel
      obtain ⟨h1, h2, h3⟩ := k1 n hm
      cases hx with
      | text h => exact h1 h
      | list h => exact h2 h
      | int h =>
        cases hl with
        | int hq _ hlo hhi =>
          exact h3 _ hq rfl ⟨fun b hb => hlo b (Option.mem_toList.1 hb), fun b hb => hhi b (Option.mem_toList.1 hb)⟩
      | _ => exact absurd hm (by decide)
    · have k1 : ∀ n ∈ nonEmptyTypes, n ∉ intTypes.map (·.1) := by decide +kernel
      cases hx with
      | text _ => exact (hne hm).1 rfl
      | list _ => exact (hne hm).2 rfl
      | int h => exact k1 n hm h
      | _ => exact absurd hm (by decide)
  · intro hm
    rw [List.mem_append, not_or] at hm
    exact ⟨initial_literal hx hm.1, fun h => absurd h hm.2⟩

/-- Zero, and how it is read. -/
private theorem zero_read (L : Lib) {n r : String} (hrow : (n, r) ∈ readmeTable ++ undocumentedTable)
    (hn : n ∈ intTypes.map (·.1)) (hb : n ∉ outOfBounds) :
    Kept L n "0".toList (.int 0) ∧ ∃ f, libFromStr L r.toList = some f ∧ f "0".toList = .ok (.int 0) ∧
      libDefault L r.toList = some (.ok (.int 0)) ∧ r ∈ reservedNames ∧ r ≠ "String" := by
  have k0 : ∀ n ∈ intTypes.map (·.1), n ∉ ["boolean", "float", "date", "time", "dateTime", "dateTimeStamp", "gYear",
    "gYearMonth"] ∧ n ≠ "decimal" ∧ n ≠ "duration" := by decide +kernel
  have k1 : ∀ p ∈ readmeTable ++ undocumentedTable, p.1 ∈ intTypes.map (·.1) → p.1 ∉ outOfBounds → p.2 ∈ ["i64", "i32", "i16",
      "i8", "u64", "u32", "u16", "u8", "xs::Integer", "xs::NonNegativeInteger", "xs::NonPositiveInteger"] := by decide +kernel
  refine ⟨⟨?_, no_huge (k0 n hn).2, ?_⟩, ?_⟩
  · have k2 : ∀ q ∈ intTypes, q.1 ∉ outOfBounds → (∀ b ∈ q.2.1.toList, b ≤ 0) ∧ ∀ b ∈ q.2.2.toList, 0 ≤ b := by decide +kernel
    obtain ⟨⟨m, lo, hi⟩, hq, rfl⟩ := List.mem_map.1 hn
    obtain ⟨h1, h2⟩ := k2 _ hq hb
    exact .int hq (sg := .none) ⟨[0], d0, rfl, rfl⟩ (fun b hb => h1 b (Option.mem_toList.2 hb))
      (fun b hb => h2 b (Option.mem_toList.2 hb))
  · intro h
    have h1 := (k0 n hn).1
    revert h1
    generalize hs : "0".toList = s at h
    generalize hx : XVal.int 0 = x at h
    cases h with
    | minus _ h => subst hs; exact absurd h (by decide)
    | digit _ => intro h1; exact absurd h1 (by decide)
    | minusYear h _ => intro h1; rcases h with rfl | rfl <;> exact absurd h1 (by decide)
    | _ => first | (intro h1; exact absurd h1 (by decide)) | cases hx
  · have := k1 _ hrow hn hb
    simp only [List.mem_cons, List.not_mem_nil, or_false] at this
    rcases this with rfl | rfl | rfl | rfl | rfl | rfl | rfl | rfl | rfl | rfl | rfl
    · exact ⟨_, lib_i64 L, by rw [show Str.parseSigned _ _ "0".toList = some 0 by decide +kernel]; rfl, by unfold libDefault defaultTable; simp, by decide, by decide⟩
    · exact ⟨_, lib_i32 L, by rw [show Str.parseSigned _ _ "0".toList = some 0 by decide +kernel]; rfl, by unfold libDefault defaultTable; simp, by decide, by decide⟩
    · exact ⟨_, lib_i16 L, by rw [show Str.parseSigned _ _ "0".toList = some 0 by decide +kernel]; rfl, by unfold libDefault defaultTable; simp, by decide, by decide⟩
    · exact ⟨_, lib_i8 L, by rw [show Str.parseSigned _ _ "0".toList = some 0 by decide +kernel]; rfl, by unfold libDefault defaultTable; simp, by decide, by decide⟩
    · exact ⟨_, lib_u64 L, by rw [show Str.parseUnsigned _ "0".toList = some 0 by decide +kernel]; rfl, by unfold libDefault defaultTable; simp, by decide, by decide⟩
    · exact ⟨_, lib_u32 L, by rw [show Str.parseUnsigned _ "0".toList = some 0 by decide +kernel]; rfl, by unfold libDefault defaultTable; simp, by decide, by decide⟩
    · exact ⟨_, lib_u16 L, by rw [show Str.parseUnsigned _ "0".toList = some 0 by decide +kernel]; rfl, by unfold libDefault defaultTable; simp, by decide, by decide⟩
    · exact ⟨_, lib_u8 L, by rw [show Str.parseUnsigned _ "0".toList = some 0 by decide +kernel]; rfl, by unfold libDefault defaultTable; simp, by decide, by decide⟩
    · exact ⟨_, lib_Integer L, by rw [show Integer.fromStr "0".toList = .ok ⟨0⟩ by decide +kernel]; rfl, by unfold libDefault defaultTable; (simp; rfl), by decide, by decide⟩
    · exact ⟨_, lib_NonNegativeInteger L, by rw [show NonNegativeInteger.fromStr "0".toList = .ok ⟨0⟩ by decide +kernel]; rfl, by unfold libDefault defaultTable; (simp; rfl), by decide, by decide⟩
    · exact ⟨_, lib_NonPositiveInteger L, by rw [show NonPositiveInteger.fromStr "0".toList = .ok ⟨0⟩ by decide +kernel]; rfl, by unfold libDefault defaultTable; (simp; rfl), by decide, by decide⟩

/-! ## Simple types of a schema -/

/-- **C93** The default of the type generated for a simple type of the schema is the initial value of the built-in type at the
bottom of its restrictions, whatever the facets say; the default of a list is the empty list.  Also where it is the field of
a wrapper.  Partial: no enumerations of names, unions and inline types. -/
theorem C93_default_partial (U : UnicodeTable) (root : Node) (uri t : Str) (hg : Grammatical root) (hs : CopySafe root)
    (h : convertXsd U root = .ok t) (is : List Item) (hi : HasItems t is) (hp : PlainNames root uri)
    (hun : Unshadowed U root is) (L : Lib) (he0 : L.expo ⟨0, 0⟩ = false) (D : Str → RVal) (hD : Defaults D L is) {ref : Str}
    {x : XVal} (hx : InitialOf U root uri ref x) :
    Represents (D ((naming U root).type ref)) x ∧ ∃ v, FieldDefault D ((naming U root).type ref) v ∧ Represents v x := by
  have none : Represents (.many []) (.list []) := .many rfl (by simp)
  have vec : ∀ ty, D ("Vec<".toList ++ ty ++ ">".toList) = .many [] := hD.vec (hun.items "Vec" (by decide))
  have own : ∀ {c d : Node} {nm ref ty : Str} {v : RVal} {x : XVal}, Denotes root uri nm ref → SimpleDecl root c nm d →
      ')' ∉ ty → (∃ i ∈ is, i.path = [] ∧
        i.attrs = ["#[derive(Default, Clone, PartialEq, Debug, UtilsTupleIo, UtilsDefaultSerde)]".toList] ∧
        i.head = "pub struct ".toList ++ ((naming U root).type nm ++ (" (pub ".toList ++ (ty ++ ");".toList)))) →
      FieldDefault D ty v → Represents v x →
      Represents (D ((naming U root).type ref)) x ∧ ∃ v, FieldDefault D ((naming U root).type ref) v ∧ Represents v x := by
    rintro c d nm ref ty v x hd hc hpar ⟨i, him, h1, h2, h3⟩ hv hr
    obtain ⟨e, hpl⟩ := own_type (U := U) hp hd (hp.names c hc.1 nm hc.2.2.1)
    have hsp : ' ' ∉ (naming U root).type nm := fun h => hpl _ h (by decide)
    have hDn : D ((naming U root).type nm) = v :=
      hD.tuple i him h1 (by rw [h2]; decide) _ _ (by rw [h3]; exact readTuple_of hsp hpar) v hv
    rw [e]
    refine ⟨hDn ▸ hr, _, .one ?_ ?_, .one (hDn ▸ hr)⟩
    · intro e
      exact hun.declared c hc.1 nm hc.2.2.1 (e ▸ by decide)
    · intro ty e
      exact hpl '<' (by rw [e]; simp) (by decide)
  have par : ∀ {ref : Str} {x : XVal}, InitialOf U root uri ref x → ')' ∉ (naming U root).type ref := by
    intro ref x hx
    have own : ∀ {c d : Node} {nm : Str}, Denotes root uri nm ref → SimpleDecl root c nm d → ')' ∉ (naming U root).type ref := by
      intro c d nm hd hc
      obtain ⟨e, hpl⟩ := own_type (U := U) hp hd (hp.names c hc.1 nm hc.2.2.1)
      rw [e]
      exact fun h => hpl _ h (by decide)
    cases hx with
    | builtin hd hx =>
      obtain ⟨r, hrow⟩ := names_of hx
      rw [builtin_type hp hrow hd]
      have : ∀ p ∈ readmeTable ++ undocumentedTable, ')' ∉ p.2.toList := by decide +kernel
      exact this _ hrow
    | restriction hd hc => exact own hd hc
    | list hd hc => exact own hd hc
  induction hx with
  | @builtin n ref x hd hx =>
    obtain ⟨r, hrow⟩ := names_of hx
    rw [builtin_type hp hrow hd]
    by_cases hl : n ∈ listTypes
    · have k : ∀ p ∈ readmeTable ++ undocumentedTable, p.1 ∈ listTypes → p.2 = "Vec<String>" := by decide +kernel
      obtain rfl : r = "Vec<String>" := k _ hrow hl
      have hx : x = .list [] := by
        have k1 : ∀ n ∈ listTypes, n ∉ textTypes ∧ n ∉ intTypes.map (·.1) := by decide +kernel
        cases hx with
        | list _ => rfl
        | text h => exact absurd h (k1 n hl).1
        | int h => exact absurd h (k1 n hl).2
        | _ => exact absurd hl (by decide)
      subst hx
      have e := vec "String".toList
      refine ⟨?_, _, .vec (ty := "String".toList), ?_⟩ <;> exact e ▸ none
    · obtain ⟨v, h1, h2, h3, -⟩ := lib_default L he0 hrow hl hx
      have e := hD.lib _ _ h1 (hun.items r (hasType_reserved h2))
      refine ⟨e ▸ .lib h3, ?_⟩
      by_cases hstr : r = "String"
      · obtain ⟨s, rfl⟩ := (hasType_string h2).1 hstr
        subst hstr
        cases h3
        exact ⟨_, .text e, .text⟩
      · refine ⟨_, .one (fun h => hstr (String.toList_injective h)) ?_, .one (e ▸ .lib h3)⟩
        intro ty e
        have k : ∀ r ∈ reservedNames, '<' ∉ r.toList := by decide
        exact k r (hasType_reserved h2) (by rw [e]; simp)
  | @restriction ref c nm d b fs x hd hc htag hb hf he hx ih =>
    obtain ⟨-, v, h1, h2⟩ := ih
    exact own hd hc (par hx) (C72_restriction_partial U root t hg hs h is hi c d nm b fs hc htag hb hf he).1 h1 h2
  | @list ref c nm d it hd hc htag hit hk =>
    obtain ⟨⟨i, him, h1, h2, h3⟩, -⟩ := C72_list_partial U root t hg hs h is hi c d nm it hc htag hit
    have hpar : ')' ∉ (naming U root).type it := by
      rcases hk with ⟨⟨n, r⟩, hrow, hd⟩ | ⟨nm, c, hd, hc, hnm⟩
      · rw [builtin_type hp hrow hd]
        have : ∀ p ∈ readmeTable ++ undocumentedTable, ')' ∉ p.2.toList := by decide +kernel
        exact this _ hrow
      · obtain ⟨e, hpl⟩ := own_type (U := U) hp hd (hp.names c hc nm hnm)
        rw [e]
        exact fun h => hpl _ h (by decide)
    refine own (ty := "Vec<".toList ++ (naming U root).type it ++ ">".toList) hd hc ?_ ⟨i, him, h1, h2, by rw [h3]; simp⟩
      .vec (vec _ ▸ none)
    simp only [List.mem_append, not_or]
    exact ⟨⟨by decide, hpar⟩, by decide⟩

/-- **C93** A restriction of a type of integers, texts or lists by bounds and lengths: the checks in `Validate` accept the
default of the wrapper exactly if the facets admit the initial value.  Partial: other built-in types and restrictions of
restrictions (their checks are those of the last step only, C87) are left out. -/
theorem C93_facets_partial (U : UnicodeTable) (root : Node) (uri t : Str) (hg : Grammatical root) (hs : CopySafe root)
    (h : convertXsd U root = .ok t) (is : List Item) (hi : HasItems t is) (hp : PlainNames root uri)
    (hun : Unshadowed U root is) (L : Lib) (D : Str → RVal) (hD : Defaults D L is)
    {c d : Node} {nm b : Str} {fs : List Facet} {n : String} {x : XVal} (hc : SimpleDecl root c nm d)
    (ht : d.tag = "restriction".toList)
    (hb : d.attr "base".toList = some b) (hf : FacetsOf d.tag d.children fs)
    (he : enumValues fs = [] ∨ ∃ v ∈ enumValues fs, ¬ SimpleValue U v.1) (hd : DenotesXsd root n b)
    (hl : ∀ f ∈ fs, LegalFacet (Kept L) n f.facetType) (hx : Initial n x)
    (hn : n ∈ intTypes.map (·.1) ++ textTypes ++ listTypes) (hbo : n ∉ outOfBounds) :
    ∃ j ∈ is, j.path = [] ∧ ∃ cs, ValidateItem ((naming U root).type nm) cs j ∧
      ∀ S, OperationsOf S L ((naming U root).type b) →
        ((∀ f ∈ fs, Admits (Kept L) n x f.facetType) → runChecks S (D ((naming U root).type nm)).field cs = .ok ()) ∧
        (¬ (∀ f ∈ fs, Admits (Kept L) n x f.facetType) → runChecks S (D ((naming U root).type nm)).field cs = .err) := by
  obtain ⟨⟨i, him, h1, h2, h3⟩, j, hj, j1, cs, hen, j2, -, j3⟩ :=
    C72_restriction_partial U root t hg hs h is hi c d nm b fs hc ht hb hf he
  refine ⟨j, hj, j1, cs, j2, ?_⟩
  intro S hS
  obtain ⟨r, hrow⟩ := names_of hx
  rw [builtin_type (U := U) hp hrow hd] at hS h3
  have hnc := hp.names c hc.1 nm hc.2.2.1
  have hpl := declared_plain (U := U) hp hc
  have hsp : ' ' ∉ (naming U root).type nm := fun h => hpl _ h (by decide)
  have hpar : ')' ∉ r.toList := by
    have : ∀ p ∈ readmeTable ++ undocumentedTable, ')' ∉ p.2.toList := by decide +kernel
    exact this _ hrow
  have hDn : ∀ v, FieldDefault D r.toList v → D ((naming U root).type nm) = v := fun v hv =>
    hD.tuple i him h1 (by rw [h2]; decide) _ _ (by rw [h3]; exact readTuple_of hsp hpar) v hv
  have key : ∃ s w, Kept L n s x ∧ ReadShape L n r s x w ∧ FieldDefault D r.toList (.ofTup w) := by
    have lost : ∀ {s x}, n ∉ ["boolean", "nonNegativeInteger", "unsignedLong", "unsignedInt", "unsignedShort", "unsignedByte",
        "float", "date", "time", "dateTime", "dateTimeStamp", "gYear", "gYearMonth"] → ¬ Lost L.years.lo n s x :=
      fun h hl => h (lost_none hl)
    have k0 : ∀ n ∈ textTypes ++ listTypes, n ∉ ["boolean", "nonNegativeInteger", "unsignedLong", "unsignedInt", "unsignedShort",
        "unsignedByte", "float", "date", "time", "dateTime", "dateTimeStamp", "gYear", "gYearMonth"] ∧ n ≠ "decimal" ∧
        n ≠ "duration" ∧ n ∉ intTypes.map (·.1) := by decide +kernel
    cases hx with
    | text hm =>
      have k1 : ∀ p ∈ readmeTable ++ undocumentedTable, p.1 ∈ textTypes → p.2 = "String" := by decide +kernel
      obtain rfl : r = "String" := k1 _ hrow hm
      obtain ⟨q1, q2, q3, -⟩ := k0 n (List.mem_append_left _ hm)
      refine ⟨[], .text [], ⟨.text hm, no_huge ⟨q2, q3⟩, lost q1⟩, .inr (.inl ⟨rfl, rfl, rfl⟩), .text ?_⟩
      exact hD.lib _ _ (by unfold libDefault defaultTable; simp) (hun.items "String" (by decide))
    | list hm =>
      have k1 : ∀ p ∈ readmeTable ++ undocumentedTable, p.1 ∈ listTypes → p.2 = "Vec<String>" := by decide +kernel
      obtain rfl : r = "Vec<String>" := k1 _ hrow hm
      obtain ⟨q1, q2, q3, -⟩ := k0 n (List.mem_append_right _ hm)
      refine ⟨[], .many [], ⟨.list (ts := []) hm (.nil fun c hc => by cases hc) (fun c hc => by cases hc), no_huge ⟨q2, q3⟩,
        lost q1⟩, .inl ⟨hm, [], [], rfl, rfl, rfl⟩, ?_⟩
      have e := hD.vec (hun.items "Vec" (by decide)) "String".toList
      have := FieldDefault.vec (D := D) (ty := "String".toList)
      rw [e] at this
      exact this
    | int hm =>
      obtain ⟨hk, f, hf, hv, hv', hr, hr'⟩ := zero_read L hrow hm hbo
      have k1 : ∀ n ∈ intTypes.map (·.1), n ∉ listTypes := by decide +kernel
      have e := hD.lib _ _ hv' (hun.items r hr)
      refine ⟨_, .one (.lib (.int 0)), hk, .inr (.inr ⟨k1 n hm, hr', f, _, hf, hv, .int, rfl⟩), ?_⟩
      have := FieldDefault.one (D := D) (ty := r.toList) (fun h => hr' (String.toList_injective h)) fun t e => by
        have k : ∀ r ∈ reservedNames, '<' ∉ r.toList := by decide
        exact k r hr (by rw [e]; simp)
      rw [e] at this
      exact this
    | _ => exact absurd hn (by decide)
  obtain ⟨s, w, k1, k2, k3⟩ := key
  rw [hDn _ k3]
  refine checks_iff hS hrow k1 k2 ?_ hl hen j3
  cases hx <;> first | trivial | (intro c hc; cases hc)

/-! ## Enumerations -/

private theorem expected_fromText (tn : Str → Str) (x : List Str × Origin) :
    ∀ y ∈ expectedImpls tn x, y.2.2 ≠ "From<&str>".toList := by
  intro y hy
  obtain ⟨p, o⟩ := x
  cases o with
  | entity e =>
    unfold expectedImpls at hy
    dsimp only at hy
    cases hn : typeName? e with
    | none => rw [hn] at hy; cases hy
    | some n =>
      rw [hn] at hy
      obtain ⟨tr, htr, rfl⟩ := List.mem_map.1 hy
      show tr ≠ _
      rintro rfl
      revert htr
      cases e with
      | struct s => rw [traitsOf]; decide
      | tupleStruct s => rw [traitsOf]; decide
      | enum s =>
        obtain ⟨n, cs, c, t, ss, src⟩ := s
        rw [traitsOf]
        cases src <;> decide
      | «alias» _ => cases hn
      | structField _ => cases hn
      | enumCase _ => cases hn
      | «import» _ => cases hn
  | inner _ => cases hy
  | validate _ _ _ _ => cases hy
  | default _ => cases hy

/-- **C93** No type in the generated code can be made from a text literal with `into()`: what can is what stands for
`String`. -/
theorem C93_fromText_iff (U : UnicodeTable) (root : Node) (t : Str) (hg : Grammatical root) (hs : CopySafe root)
    (h : convertXsd U root = .ok t) (is : List Item) (hi : HasItems t is) (p : List Str) (ty : Str) :
    FromText is p ty ↔ StandsFor is p ty "String".toList ∧ ¬ InScope is p "String".toList := by
  obtain ⟨f, -, is', h1, h2⟩ := C70_document U root t hg hs h
  obtain rfl := C69_determined t is is' hi h1
  constructor
  · rintro ⟨ty', k1, ⟨k2, rfl⟩ | ⟨q, -, k2⟩⟩
    · exact ⟨k1, k2⟩
    · obtain ⟨o, -, hx⟩ := List.mem_flatMap.1 (h2.mem_iff.1 k2)
      exact absurd rfl (expected_fromText _ o _ hx)
  · rintro ⟨k1, k2⟩
    exact ⟨_, k1, .inl ⟨k2, rfl⟩⟩

/-- **C93** The default of an enumeration of names is a text in its variant for unknown values, which holds a value of the base
type. -/
theorem C93_enumeration (U : UnicodeTable) (root : Node) (t : Str) (hg : Grammatical root) (hs : CopySafe root)
    (h : convertXsd U root = .ok t) (is : List Item) (hi : HasItems t is) (c r : Node) (nm base : Str) (fs : List Facet)
    (hc : SimpleDecl root c nm r) (hrt : r.tag = "restriction".toList) (hb : r.attr "base".toList = some base)
    (hf : FacetsOf r.tag r.children fs) (he : enumValues fs ≠ []) (hv : ∀ v ∈ enumValues fs, SimpleValue U v.1) :
    (∃ i ∈ is, i.path = [] ∧ i.attrs = [] ∧ i.head = "impl Default for ".toList ++ ((naming U root).type nm ++ " {".toList) ∧
      i.body = ["fn default() -> ".toList ++ ((naming U root).type nm ++ " {".toList),
        "Self::__Unknown__(\"No valid variants\".into())".toList, "}".toList]) ∧
    ∃ i ∈ is, i.path = [] ∧ i.head = "pub enum ".toList ++ ((naming U root).type nm ++ " {".toList) ∧
      ∃ ms, readCaseLines none i.body = ms ++ [⟨none, "__Unknown__".toList, some ((naming U root).type base)⟩] := by
  constructor
  · obtain ⟨f, hp, hit⟩ := items_for hg hs h hi
    rcases global_restriction hg hp hc.1 hc.2.1 hc.2.2.1 hc.2.2.2 hrt hb hf with ⟨-, -, hm⟩ | ⟨k, -⟩
    · obtain ⟨i, him, k1, k2, k3, k4⟩ := hit _ hm ([], .default nm) (by rw [originsOf]; simp)
      exact ⟨i, him, k1, k2, k3, k4⟩
    · rcases k with k | ⟨v, hvm, hn⟩
      · exact absurd k he
      · exact absurd (hv v hvm) hn
  · obtain ⟨i, him, k1, k2, ms, -, k3⟩ := C72_enumeration_partial U root t hg hs h is hi c r nm base fs hc hrt hb hf he hv
    exact ⟨i, him, k1, k2, ms, k3⟩

/-- **C93** With a built-in base type (other than a list) this default is well-typed exactly if the values of the base type are
texts. -/
theorem C93_builtin_base_iff (U : UnicodeTable) (root : Node) (uri t : Str) (hg : Grammatical root) (hs : CopySafe root)
    (h : convertXsd U root = .ok t) (is : List Item) (hi : HasItems t is) (hp : PlainNames root uri)
    (hun : Unshadowed U root is) {n r : String} {base : Str} (hrow : (n, r) ∈ readmeTable ++ undocumentedTable)
    (hd : DenotesXsd root n base) (hl : n ∉ listTypes) : FromText is [] ((naming U root).type base) ↔ n ∈ textTypes := by
  rw [C93_fromText_iff U root t hg hs h is hi, builtin_type (U := U) hp hrow hd]
  have k1 : ∀ p ∈ readmeTable ++ undocumentedTable, p.1 ∉ listTypes → p.2 ∈ reservedNames ∧ (p.2 = "String" ↔ p.1 ∈ textTypes) := by
    decide +kernel
  obtain ⟨hr, hs⟩ := k1 _ hrow hl
  rw [← hs]
  constructor
  · rintro ⟨k, -⟩
    generalize hy : "String".toList = y at k
    cases k with
    | refl => exact (String.toList_injective hy).symm
    | step hi hpa ha _ => exact absurd ⟨_, hi, hpa, .inr (alias_type ha)⟩ (hun.items r hr)
  · rintro rfl
    exact ⟨.refl, hun.items "String" (by decide)⟩

/-- **C93** With a base type of the schema it never is (if there is no alias with the same name, C83). -/
theorem C93_declared_base (U : UnicodeTable) (root : Node) (uri t : Str) (hg : Grammatical root) (hs : CopySafe root)
    (h : convertXsd U root = .ok t) (is : List Item) (hi : HasItems t is) (hp : PlainNames root uri)
    (hun : Unshadowed U root is) {c : Node} {nm base : Str} (hc : c ∈ globals root) (hnm : c.attr "name".toList = some nm)
    (hd : Denotes root uri nm base)
    (ha : ∀ i ∈ is, i.path = [] → ∀ b, readAlias i.head ≠ some ((naming U root).type nm, b)) :
    ¬ FromText is [] ((naming U root).type base) := by
  rw [C93_fromText_iff U root t hg hs h is hi, (own_type (U := U) hp hd (hp.names c hc nm hnm)).1]
  rintro ⟨k, -⟩
  generalize hy : "String".toList = y at k
  cases k with
  | refl => exact hun.declared c hc nm hnm (hy ▸ by decide)
  | step hi hpa h _ => exact ha _ hi (List.prefix_nil.1 hpa) _ h

/-! ## A document -/

private def limit : Node := el "restriction" [("base", "xs:int")] [el "minInclusive" [("value", "1")] []]
private def level : Node := el "restriction" [("base", "xs:int")] [el "maxInclusive" [("value", "1")] []]
private def limits : Node := el "list" [("itemType", "tns:Limit")] []
private def colour : Node := el "restriction" [("base", "xs:string")] []
private def warm : Node := el "restriction" [("base", "tns:Colour")] [el "enumeration" [("value", "red")] []]
private def simple (n : String) (r : Node) : Node := el "simpleType" [("name", n)] [r]
private def starts : Node := doc [simple "Limit" limit, simple "Level" level, simple "Limits" limits, simple "Colour" colour,
  simple "Warm" warm]

private def startsText : Str := okText (convertXsd A starts)
private def startsItems : List Item := readItems [] [] (Gen.lns startsText)

private theorem starts_has : HasItems startsText startsItems := ⟨_, Gen.lines_lns _, rfl⟩
private theorem starts_ok : convertXsd A starts = .ok startsText := okText_eq (by decide +kernel)
private theorem starts_grammatical : Grammatical starts := grammatical_of rfl (by decide +kernel)
private theorem starts_copySafe : CopySafe starts :=
  copySafe_of (by decide +kernel) (by decide +kernel) (by decide +kernel) (by decide +kernel) (by decide +kernel)

private def startsUri : Str := "http://example.com/a".toList

private theorem starts_plain : PlainNames starts startsUri where
  prefixes := by unfold UniquePrefixes; decide +kernel
  uris := by decide +kernel
  xsd := ⟨⟨some "xs".toList, Model.xsdUri⟩, List.mem_cons_self, rfl, by simp⟩
  target := by decide
  names := by
    have : ∀ c ∈ globals starts, ∀ nm ∈ (c.attr "name".toList).toList, ':' ∉ nm := by decide +kernel
    exact fun c hc nm h => this c hc nm (Option.mem_toList.2 h)

private theorem starts_unshadowed : Unshadowed A starts startsItems where
  declared := by
    have : ∀ c ∈ globals starts, ∀ nm ∈ (c.attr "name".toList).toList,
        (naming A starts).type nm ∉ reservedNames.map String.toList := by decide +kernel
    exact fun c hc nm h => this c hc nm (Option.mem_toList.2 h)
  items := by
    have : ∀ w ∈ reservedNames, ∀ i ∈ startsItems, ¬ (DefinesType i w.toList ∨ readHead i.head = some (.type, w.toList)) := by
      decide +kernel
    rintro w hw ⟨i, hi, -, h⟩
    exact this w hw i hi h

private theorem starts_tuples : ∀ i ∈ startsItems, i.path = [] → "Default".toList ∈ i.attrs.flatMap derived →
    readTuple i.head ∈ [some ("Limit".toList, "i32".toList), some ("Level".toList, "i32".toList),
      some ("Limits".toList, "Vec<Limit>".toList), some ("Colour".toList, "String".toList)] := by decide +kernel

/-- `default()` of these types. -/
private def start (L : Lib) (ty : Str) : RVal :=
  match libDefault L ty with
  | some (.ok v) => .lib v
  | _ => if ty ∈ ["Limit".toList, "Level".toList] then .one (.lib (.int 0))
    else if ty = "Colour".toList then .text [] else .many []

private theorem no_default (L : Lib) {ty : Str} (h : ∀ w ∈ reservedNames, w.toList ≠ ty) : libDefault L ty = none := by
  unfold libDefault
  rw [Option.map_eq_none_iff, List.find?_eq_none]
  intro x hx hc
  have hm : x.1 ∈ (defaultTable L).map (·.1) := List.mem_map_of_mem hx
  have k : ∀ r ∈ (defaultTable L).map (·.1), r ∈ reservedNames := by
    simp only [defaultTable, List.map_cons, List.map_nil]
    decide
  exact h x.1 (k _ hm) (by simpa using hc)

private theorem start_int (L : Lib) : start L "i32".toList = .lib (.int 0) := by
  unfold start; rw [show libDefault L "i32".toList = some (.ok (.int 0)) by unfold libDefault defaultTable; simp]

private theorem start_own (L : Lib) {n : String} (h : n ∉ reservedNames) : start L n.toList =
    if n.toList ∈ ["Limit".toList, "Level".toList] then .one (.lib (.int 0))
    else if n.toList = "Colour".toList then .text [] else .many [] := by
  unfold start
  rw [no_default L fun w hw e => h (by rw [← String.toList_injective e]; exact hw)]

private theorem starts_defaults (L : Lib) : Defaults (start L) L startsItems where
  lib ty v h _ := by unfold start; rw [h]
  vec _ ty := by
    have k : ∀ w ∈ reservedNames, '<' ∉ w.toList := by decide
    have k' : ∀ w ∈ ["Limit".toList, "Level".toList, "Colour".toList], '<' ∉ w := by decide
    have hm : '<' ∈ "Vec<".toList ++ ty ++ ">".toList := by simp
    unfold start
    rw [no_default L fun w hw e => k w hw (e ▸ hm)]
    dsimp only
    rw [if_neg fun h => k' _ (List.mem_append_left ["Colour".toList] h) hm, if_neg fun h => k' _ (by rw [h]; decide) hm]
  tuple i hi h1 h2 n ty ht v hv := by
    have h := starts_tuples i hi h1 h2
    rw [ht] at h
    simp only [List.mem_cons, List.not_mem_nil, or_false, Option.some.injEq, Prod.mk.injEq] at h
    have one : ∀ {ty : Str}, '<' ∉ ty → ty ≠ "String".toList → ∀ {v}, FieldDefault (start L) ty v → v = .one (start L ty) := by
      intro ty h1 h2 v hv
      cases hv with
      | text _ => exact absurd rfl h2
      | vec => exact absurd (by simp) h1
      | one _ _ => rfl
    rcases h with ⟨rfl, rfl⟩ | ⟨rfl, rfl⟩ | ⟨rfl, rfl⟩ | ⟨rfl, rfl⟩
    · rw [one (by decide) (by decide) hv, start_int, start_own L (by decide)]; rfl
    · rw [one (by decide) (by decide) hv, start_int, start_own L (by decide)]; rfl
    · rw [start_own L (by decide)]
      generalize hty : "Vec<Limit>".toList = ty at hv
      cases hv with
      | text _ => exact absurd hty (by decide)
      | vec => rw [← hty, start_own L (by decide)]; rfl
      | one _ h => exact absurd hty.symm (h "Limit".toList)
    · rw [start_own L (by decide)]
      generalize hty : "String".toList = ty at hv
      cases hv with
      | text h =>
        have : start L "String".toList = .lib (.text []) := by
          unfold start; rw [show libDefault L "String".toList = some (.ok (.text [])) by unfold libDefault defaultTable; simp]
        rw [this] at h
        cases h; rfl
      | vec =>
        have hm : '<' ∈ "String".toList := by rw [hty]; simp
        exact absurd hm (by decide)
      | one h _ => exact absurd hty.symm h

private theorem den_int : DenotesXsd starts "int" "xs:int".toList :=
  ⟨⟨some "xs".toList, Model.xsdUri⟩, List.mem_cons_self, rfl, .prefixed (p := "xs".toList) (n := "int".toList) (by decide)⟩
private theorem den_own (nm : Str) : Denotes starts startsUri nm ("tns:".toList ++ nm) :=
  ⟨by rfl, ⟨some "tns".toList, startsUri⟩, List.mem_cons_of_mem _ List.mem_cons_self, rfl,
    .prefixed (p := "tns".toList) (n := nm) (by decide)⟩

private theorem limit_decl : SimpleDecl starts (simple "Limit" limit) "Limit".toList limit :=
  ⟨List.mem_cons_self, rfl, by decide +kernel, rfl⟩
private theorem level_decl : SimpleDecl starts (simple "Level" level) "Level".toList level :=
  ⟨List.mem_cons_of_mem _ List.mem_cons_self, rfl, by decide +kernel, rfl⟩
private theorem limits_decl : SimpleDecl starts (simple "Limits" limits) "Limits".toList limits :=
  ⟨List.mem_cons_of_mem _ (List.mem_cons_of_mem _ List.mem_cons_self), rfl, by decide +kernel, rfl⟩
private theorem warm_decl : SimpleDecl starts (simple "Warm" warm) "Warm".toList warm :=
  ⟨List.mem_cons_of_mem _ (List.mem_cons_of_mem _ (List.mem_cons_of_mem _ (List.mem_cons_of_mem _ List.mem_cons_self))), rfl, by decide +kernel, rfl⟩

private theorem limit_facets : FacetsOf limit.tag limit.children [⟨.minInclusive "1".toList, none⟩] :=
  .facet (.facet (s := "minInclusive") (by simp [facetTags]) (by decide +kernel) (by decide +kernel)) .nil
private theorem level_facets : FacetsOf level.tag level.children [⟨.maxInclusive "1".toList, none⟩] :=
  .facet (.facet (s := "maxInclusive") (by simp [facetTags]) (by decide +kernel) (by decide +kernel)) .nil
private theorem warm_facets : FacetsOf warm.tag warm.children [⟨.enumeration "red".toList, none⟩] :=
  .facet (.facet (s := "enumeration") (by simp [facetTags]) (by decide +kernel) (by decide +kernel)) .nil

/-- `Limit` starts with 0 and `Limits` without items. -/
example (L : Lib) (he : L.expo ⟨0, 0⟩ = false) : Represents (start L "Limit".toList) (.int 0) ∧
    Represents (start L "Limits".toList) (.list []) := by
  have e1 : (naming A starts).type "tns:Limit".toList = "Limit".toList := by decide +kernel
  have e2 : (naming A starts).type "tns:Limits".toList = "Limits".toList := by decide +kernel
  have h1 : InitialOf A starts startsUri "tns:Limit".toList (.int 0) :=
    .restriction (den_own "Limit".toList) limit_decl rfl (by decide +kernel) limit_facets (.inl rfl)
      (.builtin den_int (.int (by decide +kernel)))
  have h2 : InitialOf A starts startsUri "tns:Limits".toList (.list []) :=
    .list (den_own "Limits".toList) limits_decl rfl (by decide +kernel)
      (.inr ⟨"Limit".toList, _, den_own "Limit".toList, limit_decl.1, limit_decl.2.2.1⟩)
  have k := fun {ref x} => @C93_default_partial A starts startsUri startsText starts_grammatical starts_copySafe starts_ok startsItems
    starts_has starts_plain starts_unshadowed L he (start L) (starts_defaults L) ref x
  exact ⟨e1 ▸ (k h1).1, e2 ▸ (k h2).1⟩

/-- The operations of a library type. -/
private def operations (L : Lib) (ty : Str) : Values RVal where
  lt
    | .lib a, .lib b => opLt ((libPartialCmp ty a b).getD none)
    | _, _ => false
  le
    | .lib a, .lib b => opLe ((libPartialCmp ty a b).getD none)
    | _, _ => false
  parse s := match libFromStr L ty with
    | none => none
    | some f => match f s with
      | .ok v => some (.lib v)
      | _ => none
  len
    | .text s => Str.byteLen s
    | .many vs => vs.length
    | _ => 0

private theorem operations_of (L : Lib) (ty : Str) : OperationsOf (operations L ty) L ty where
  order a b o h := by
    show opLt ((libPartialCmp ty a b).getD none) = _ ∧ opLe ((libPartialCmp ty a b).getD none) = _
    rw [h]; exact ⟨rfl, rfl⟩
  parse f s h := by
    show (match libFromStr L ty with | none => none | some f => _) = _
    rw [h]
    dsimp only
    cases f s <;> rfl
  text s := rfl
  vec vs := rfl

private theorem one_kept (L : Lib) : Kept L "int" "1".toList (.int 1) := by
  refine ⟨.int (lo := some (-2147483648)) (hi := some 2147483647) (sg := .none) (by decide +kernel)
    ⟨[1], by unfold Digits1 Digits; decide, by decide, by decide⟩ (by rintro c ⟨⟩; decide) (by rintro c ⟨⟩; decide), ?_, ?_⟩
  · rintro (⟨h, -⟩ | ⟨h, -⟩) <;> exact absurd h (by decide)
  · exact fun h => absurd (lost_none h) (by decide)

private theorem zero_admitted (L : Lib) : ∀ f ∈ [(⟨.maxInclusive "1".toList, none⟩ : Facet)], Admits (Kept L) "int" (.int 0) f.facetType := by
  rintro f hf
  obtain rfl := List.mem_singleton.1 hf
  exact ⟨_, _, _, one_kept L, .int, .int, by norm_num⟩

private theorem zero_refused (L : Lib) : ¬ Admits (Kept L) "int" (.int 0) (.minInclusive "1".toList) := by
  rintro ⟨y, p, q, hy, hp, hq, h⟩
  have hrow : ("int", "i32") ∈ readmeTable ++ undocumentedTable := by decide +kernel
  rw [← parsed_unique hrow (by decide +kernel) (one_kept L) hy .int hq] at h
  cases hp
  norm_num at h

/-- The default of `Level` (at most 1) is accepted by its checks. -/
example (L : Lib) : ∃ j ∈ startsItems, j.path = [] ∧ ∃ cs, ValidateItem "Level".toList cs j ∧
    runChecks (operations L "i32".toList) (start L "Level".toList).field cs = .ok () := by
  obtain ⟨j, hj, h1, cs, h2, h3⟩ := C93_facets_partial A starts startsUri startsText starts_grammatical starts_copySafe
    starts_ok startsItems starts_has starts_plain starts_unshadowed L (start L) (starts_defaults L) level_decl rfl
    (b := "xs:int".toList) (by decide +kernel) level_facets (.inl rfl) den_int
    (fun f hf => by obtain rfl := List.mem_singleton.1 hf; exact ⟨by decide +kernel, _, one_kept L⟩)
    (.int (by decide +kernel)) (by decide +kernel) (by decide)
  rw [show (naming A starts).type "Level".toList = "Level".toList by decide +kernel] at h2 h3
  rw [show (naming A starts).type "xs:int".toList = "i32".toList by decide +kernel] at h3
  exact ⟨j, hj, h1, cs, h2, (h3 _ (operations_of L _)).1 (zero_admitted L)⟩

/-- **C93** (finding) The default of a wrapper need not satisfy its own checks: `Limit` is at least 1 and starts with 0. -/
theorem C93_facets_violated (L : Lib) : ∃ root uri t is D, Grammatical root ∧ CopySafe root ∧ convertXsd A root = .ok t ∧
    HasItems t is ∧ PlainNames root uri ∧ Unshadowed A root is ∧ Defaults D L is ∧ ∃ S, OperationsOf S L "i32".toList ∧
    D "Limit".toList = .one (.lib (.int 0)) ∧
    ∃ j ∈ is, j.path = [] ∧ ∃ cs, ValidateItem "Limit".toList cs j ∧ runChecks S (D "Limit".toList).field cs = .err := by
  obtain ⟨j, hj, h1, cs, h2, h3⟩ := C93_facets_partial A starts startsUri startsText starts_grammatical starts_copySafe
    starts_ok startsItems starts_has starts_plain starts_unshadowed L (start L) (starts_defaults L) limit_decl rfl
    (b := "xs:int".toList) (by decide +kernel) limit_facets (.inl rfl) den_int
    (fun f hf => by obtain rfl := List.mem_singleton.1 hf; exact ⟨by decide +kernel, _, one_kept L⟩)
    (.int (by decide +kernel)) (by decide +kernel) (by decide)
  rw [show (naming A starts).type "Limit".toList = "Limit".toList by decide +kernel] at h2 h3
  rw [show (naming A starts).type "xs:int".toList = "i32".toList by decide +kernel] at h3
  refine ⟨starts, startsUri, startsText, startsItems, start L, starts_grammatical, starts_copySafe, starts_ok, starts_has,
    starts_plain, starts_unshadowed, starts_defaults L, _, operations_of L _, ?_, j, hj, h1, cs, h2,
    (h3 _ (operations_of L _)).2 fun h => zero_refused L (h _ List.mem_cons_self)⟩
  rw [start_own L (by decide)]; rfl

/-- **C93** (finding) The default of `xs::PositiveInteger` is 0: it is no value of the type, and its text is not read. -/
theorem C93_bounds_violated (L : Lib) (hsh : Shows L.sh) (he : L.expo ⟨0, 0⟩ = false) :
    libDefault L "xs::PositiveInteger".toList = some (.ok (.int 0)) ∧ ¬ IsValue "positiveInteger" (.int 0) ∧
      ¬ ReadsBack L "positiveInteger" "xs::PositiveInteger" (.int 0) := by
  have hx : Initial "positiveInteger" (.int 0) := .int (by decide +kernel)
  obtain ⟨v, h1, -, h3, -, h5⟩ := C93_library_iff L hsh he (n := "positiveInteger") (r := "xs::PositiveInteger") (by decide +kernel)
    (by decide) hx
  cases h3
  exact ⟨h1, fun h => (C93_value_iff hx).1 h (by decide), fun h => h5.1 h (by decide)⟩

/-- **C93** (finding) The code for an enumeration which restricts a type of the schema does not compile: `default()` of `Warm`
makes a `Colour` from a text literal. -/
theorem C93_enumeration_violated : ∃ root t is, Grammatical root ∧ CopySafe root ∧ convertXsd A root = .ok t ∧ HasItems t is ∧
    (∃ i ∈ is, i.path = [] ∧ i.head = "impl Default for Warm {".toList ∧
      "Self::__Unknown__(\"No valid variants\".into())".toList ∈ i.body) ∧
    (∃ i ∈ is, i.path = [] ∧ i.head = "pub enum Warm {".toList ∧
      ∃ ms, readCaseLines none i.body = ms ++ [⟨none, "__Unknown__".toList, some "Colour".toList⟩]) ∧
    ¬ FromText is [] "Colour".toList := by
  obtain ⟨⟨i, hi, h1, -, h2, h3⟩, j, hj, k1, k2, k3⟩ := C93_enumeration A starts startsText starts_grammatical starts_copySafe
    starts_ok startsItems starts_has _ _ _ "tns:Colour".toList _ warm_decl rfl (by decide +kernel) warm_facets (by decide)
    (by unfold SimpleValue; decide +kernel)
  have e1 : (naming A starts).type "Warm".toList = "Warm".toList := by decide +kernel
  have e2 : (naming A starts).type "tns:Colour".toList = "Colour".toList := by decide +kernel
  rw [e1] at h2 k2
  rw [e2] at k3
  refine ⟨starts, startsText, startsItems, starts_grammatical, starts_copySafe, starts_ok, starts_has,
    ⟨i, hi, h1, h2, by rw [h3]; simp⟩, ⟨j, hj, k1, k2, k3⟩, ?_⟩
  have := C93_declared_base A starts startsUri startsText starts_grammatical starts_copySafe starts_ok startsItems starts_has
    starts_plain starts_unshadowed (c := simple "Colour" colour) (nm := "Colour".toList) (base := "tns:Colour".toList)
    (List.mem_cons_of_mem _ (List.mem_cons_of_mem _ (List.mem_cons_of_mem _ List.mem_cons_self))) (by decide +kernel) (den_own "Colour".toList) (by
      have : ∀ i ∈ startsItems, readAlias i.head = none := by decide +kernel
      intro i hi _ b
      rw [this i hi]; simp)
  rwa [e2] at this

/-- With `xs:string` it is fine, with `xs:int` it is not. -/
example : FromText startsItems [] "String".toList ∧ ¬ FromText startsItems [] "i32".toList := by
  have k := fun {n r base} => @C93_builtin_base_iff A starts startsUri startsText starts_grammatical starts_copySafe starts_ok
    startsItems starts_has starts_plain starts_unshadowed n r base
  refine ⟨?_, ?_⟩
  · have := (k (n := "string") (r := "String") (base := "xs:string".toList) (by decide +kernel) ⟨⟨some "xs".toList, Model.xsdUri⟩,
      List.mem_cons_self, rfl, .prefixed (p := "xs".toList) (n := "string".toList) (by decide)⟩ (by decide)).2 (by decide)
    rwa [show (naming A starts).type "xs:string".toList = "String".toList by decide +kernel] at this
  · have := mt (k (n := "int") (r := "i32") (base := "xs:int".toList) (by decide +kernel) den_int (by decide)).1 (by decide)
    rwa [show (naming A starts).type "xs:int".toList = "i32".toList by decide +kernel] at this

end Verif.Props
