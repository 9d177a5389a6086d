import Verif.Lemmas.Prim
import Verif.Spec.GenNames
import Verif.Props.Integers
import Verif.Props.Decimal
import Verif.Props.DateTime
import Verif.Props.Duration
import Verif.Props.Gregorian
import Verif.Lemmas.GenValidate

/-! # Lemmas: literals of the built-in types -/

namespace Verif.Lemmas.Blt

open Verif Verif.Model Verif.Spec Verif.Props Verif.Lemmas Verif.Lemmas.Dur Verif.Lemmas.Chr Verif.Lemmas.Dec Chrono
open Verif.Lemmas.Prim

theorem reads_of {L : Lib} {rust : String} {s : Str} {x : XVal} {f : Str → Res LibVal}
    (hf : libFromStr L rust.toList = some f) : Reads L rust s x ↔ ∃ v, f s = .ok v ∧ Carries v x := by
  constructor
  · rintro ⟨g, v, hg, h1, h2⟩
    rw [hf] at hg
    cases hg
    exact ⟨v, h1, h2⟩
  · rintro ⟨v, h1, h2⟩; exact ⟨f, v, hf, h1, h2⟩

theorem map_ok {α β : Type} {c : α → β} {r : Res α} {v : β} : r.map c = .ok v ↔ ∃ a, r = .ok a ∧ c a = v := by
  cases r <;> simp

theorem ofOption_ok {α : Type} {o : Option α} {v : α} : Res.ofOption o = .ok v ↔ o = some v := by
  cases o <;> simp

/-! ## The table -/

theorem lib_String (L : Lib) : libFromStr L "String".toList = some (fun s => .ok (.text s)) := by
  unfold libFromStr libTable; simp

theorem lib_bool (L : Lib) : libFromStr L "bool".toList = some (fun s => Res.map .bool (Res.ofOption (parseBool s))) := by
  unfold libFromStr libTable; simp

theorem lib_i64 (L : Lib) : libFromStr L "i64".toList = some (fun s => Res.map .int (Res.ofOption (Str.parseSigned (-9223372036854775808) 9223372036854775807 s))) := by
  unfold libFromStr libTable; simp

theorem lib_i32 (L : Lib) : libFromStr L "i32".toList = some (fun s => Res.map .int (Res.ofOption (Str.parseSigned (-2147483648) 2147483647 s))) := by
  unfold libFromStr libTable; simp

theorem lib_i16 (L : Lib) : libFromStr L "i16".toList = some (fun s => Res.map .int (Res.ofOption (Str.parseSigned (-32768) 32767 s))) := by
  unfold libFromStr libTable; simp

theorem lib_i8 (L : Lib) : libFromStr L "i8".toList = some (fun s => Res.map .int (Res.ofOption (Str.parseSigned (-128) 127 s))) := by
  unfold libFromStr libTable; simp

theorem lib_u64 (L : Lib) : libFromStr L "u64".toList = some (fun s => Res.map (fun n : Nat => .int n) (Res.ofOption (Str.parseUnsigned 18446744073709551615 s))) := by
  unfold libFromStr libTable; simp

theorem lib_u32 (L : Lib) : libFromStr L "u32".toList = some (fun s => Res.map (fun n : Nat => .int n) (Res.ofOption (Str.parseUnsigned 4294967295 s))) := by
  unfold libFromStr libTable; simp

theorem lib_u16 (L : Lib) : libFromStr L "u16".toList = some (fun s => Res.map (fun n : Nat => .int n) (Res.ofOption (Str.parseUnsigned 65535 s))) := by
  unfold libFromStr libTable; simp

theorem lib_u8 (L : Lib) : libFromStr L "u8".toList = some (fun s => Res.map (fun n : Nat => .int n) (Res.ofOption (Str.parseUnsigned 255 s))) := by
  unfold libFromStr libTable; simp

theorem lib_f64 (L : Lib) : libFromStr L "f64".toList = some (fun s => Res.map .float (Res.ofOption (parseF64 s))) := by
  unfold libFromStr libTable; simp

theorem lib_Integer (L : Lib) : libFromStr L "xs::Integer".toList = some (fun s => Res.map (fun i : Integer => .int i.val) (Integer.fromStr s)) := by
  unfold libFromStr libTable; simp

theorem lib_NonNegativeInteger (L : Lib) : libFromStr L "xs::NonNegativeInteger".toList = some (fun s => Res.map (fun i : NonNegativeInteger => .int i.val) (NonNegativeInteger.fromStr s)) := by
  unfold libFromStr libTable; simp

theorem lib_PositiveInteger (L : Lib) : libFromStr L "xs::PositiveInteger".toList = some (fun s => Res.map (fun i : PositiveInteger => .int i.val) (PositiveInteger.fromStr s)) := by
  unfold libFromStr libTable; simp

theorem lib_NonPositiveInteger (L : Lib) : libFromStr L "xs::NonPositiveInteger".toList = some (fun s => Res.map (fun i : NonPositiveInteger => .int i.val) (NonPositiveInteger.fromStr s)) := by
  unfold libFromStr libTable; simp

theorem lib_NegativeInteger (L : Lib) : libFromStr L "xs::NegativeInteger".toList = some (fun s => Res.map (fun i : NegativeInteger => .int i.val) (NegativeInteger.fromStr s)) := by
  unfold libFromStr libTable; simp

theorem lib_Decimal (L : Lib) : libFromStr L "xs::Decimal".toList = some (fun s => Res.map .dec (Decimal.fromStr s)) := by
  unfold libFromStr libTable; simp

theorem lib_Date (L : Lib) : libFromStr L "xs::Date".toList = some (fun s => Res.map .date (Date.fromStr L.years s)) := by
  unfold libFromStr libTable; simp

theorem lib_Time (L : Lib) : libFromStr L "xs::Time".toList = some (fun s => Res.map .time (Time.fromStr s)) := by
  unfold libFromStr libTable; simp

theorem lib_DateTime (L : Lib) : libFromStr L "xs::DateTime".toList = some (fun s => Res.map .dateTime (DateTime.fromStr L.years s)) := by
  unfold libFromStr libTable; simp

theorem lib_DateTimeStamp (L : Lib) : libFromStr L "xs::DateTimeStamp".toList = some (fun s => Res.map .stamp (DateTimeStamp.fromStr L.years s)) := by
  unfold libFromStr libTable; simp

theorem lib_Duration (L : Lib) : libFromStr L "xs::Duration".toList = some (fun s => Res.map .duration (Duration.fromStr (Ieee.ops L.sh) L.profile s)) := by
  unfold libFromStr libTable; simp

theorem lib_GDay (L : Lib) : libFromStr L "xs::GDay".toList = some (fun s => Res.map .gDay (GDay.fromStr s)) := by
  unfold libFromStr libTable; simp

theorem lib_GMonth (L : Lib) : libFromStr L "xs::GMonth".toList = some (fun s => Res.map .gMonth (GMonth.fromStr s)) := by
  unfold libFromStr libTable; simp

theorem lib_GMonthDay (L : Lib) : libFromStr L "xs::GMonthDay".toList = some (fun s => Res.map .gMonthDay (GMonthDay.fromStr s)) := by
  unfold libFromStr libTable; simp

theorem lib_GYear (L : Lib) : libFromStr L "xs::GYear".toList = some (fun s => Res.map .gYear (GYear.fromStr s)) := by
  unfold libFromStr libTable; simp

theorem lib_GYearMonth (L : Lib) : libFromStr L "xs::GYearMonth".toList = some (fun s => Res.map .gYearMonth (GYearMonth.fromStr s)) := by
  unfold libFromStr libTable; simp

/-! ## Texts and truth values -/

theorem text_reads (L : Lib) (s : Str) : Reads L "String" s (.text s) := ⟨_, _, lib_String L, rfl, .text⟩

theorem bool_reads {L : Lib} {s : Str} {x : XVal} : Reads L "bool" s x ↔
    (s = "true".toList ∧ x = .bool true) ∨ (s = "false".toList ∧ x = .bool false) := by
  rw [reads_of (lib_bool L)]
  simp only [map_ok, ofOption_ok]
  have hb : ∀ b, parseBool s = some b ↔ (s = "true".toList ∧ b = true) ∨ (s = "false".toList ∧ b = false) := by
    intro b
    unfold parseBool
    by_cases h1 : s = "true".toList
    · rw [if_pos h1]
      constructor
      · intro h; exact .inl ⟨h1, (Option.some.inj h).symm⟩
      · rintro (⟨-, rfl⟩ | ⟨h2, -⟩)
        · rfl
        · rw [h1] at h2; exact absurd h2 (by decide)
    · rw [if_neg h1]
      by_cases h2 : s = "false".toList
      · rw [if_pos h2]
        constructor
        · intro h; exact .inr ⟨h2, (Option.some.inj h).symm⟩
        · rintro (⟨h, -⟩ | ⟨-, rfl⟩)
          · exact absurd h h1
          · rfl
      · rw [if_neg h2]
        constructor
        · intro h; cases h
        · rintro (⟨h, -⟩ | ⟨h, -⟩)
          · exact absurd h h1
          · exact absurd h h2
  constructor
  · rintro ⟨v, ⟨b, hp, rfl⟩, hc⟩
    cases hc
    rcases (hb b).1 hp with ⟨h, rfl⟩ | ⟨h, rfl⟩
    · exact .inl ⟨h, rfl⟩
    · exact .inr ⟨h, rfl⟩
  · rintro (⟨h, rfl⟩ | ⟨h, rfl⟩)
    · exact ⟨_, ⟨true, (hb true).2 (.inl ⟨h, rfl⟩), rfl⟩, .bool⟩
    · exact ⟨_, ⟨false, (hb false).2 (.inr ⟨h, rfl⟩), rfl⟩, .bool⟩

/-! ## Integers -/

theorem signed_iff {lo hi : Int} {s : Str} {x : XVal} :
    (∃ v, Res.map LibVal.int (Res.ofOption (Str.parseSigned lo hi s)) = .ok v ∧ Carries v x) ↔
      ∃ sg v, XsdInt s sg v ∧ lo ≤ v ∧ v ≤ hi ∧ x = .int v := by
  simp only [map_ok, ofOption_ok, parseSigned_text]
  constructor
  · rintro ⟨_, ⟨v, ⟨⟨sg, h⟩, h1, h2⟩, rfl⟩, hc⟩
    cases hc
    exact ⟨sg, v, h, h1, h2, rfl⟩
  · rintro ⟨sg, v, h, h1, h2, rfl⟩
    exact ⟨_, ⟨v, ⟨⟨sg, h⟩, h1, h2⟩, rfl⟩, .int⟩

theorem unsigned_iff {hi : Nat} {s : Str} {x : XVal} :
    (∃ v, Res.map (fun n : Nat => LibVal.int n) (Res.ofOption (Str.parseUnsigned hi s)) = .ok v ∧ Carries v x) ↔
      ∃ (sg : Sign) (v : Int), sg ≠ .minus ∧ XsdInt s sg v ∧ 0 ≤ v ∧ v ≤ hi ∧ x = .int v := by
  simp only [map_ok, ofOption_ok, Gen.parseUnsigned_iff]
  constructor
  · rintro ⟨_, ⟨n, ⟨sg, hsg, h, h2⟩, rfl⟩, hc⟩
    cases hc
    exact ⟨sg, n, hsg, h, by omega, by omega, rfl⟩
  · rintro ⟨sg, v, hsg, h, h1, h2, rfl⟩
    obtain ⟨n, rfl⟩ := Int.eq_ofNat_of_zero_le h1
    exact ⟨_, ⟨n, ⟨sg, hsg, h, by omega⟩, rfl⟩, .int⟩

/-- A minus is the first character. -/
theorem xsdInt_head {s : Str} {sg : Sign} {v : Int} (h : XsdInt s sg v) : sg = .minus ↔ s.head? = some '-' := by
  obtain ⟨ds, hd, rfl, -⟩ := h
  obtain ⟨x, xs, rfl⟩ := List.exists_cons_of_ne_nil hd.1
  have hx := digit_ne_of (hd.2 x (by simp)) (by decide : Str.isAsciiDigit '-' = false)
  cases sg with
  | minus => simp [Sign.text]
  | plus => simp [Sign.text]
  | none => simp [Sign.text, dtext, hx]

theorem big_iff {α : Type} {f : Str → Res α} {val : α → Int} {mk : Int → α} (hmk : ∀ v, val (mk v) = v) {s : Str}
    {p : Sign → Int → Prop} (hf : ∀ a, f s = .ok a ↔ ∃ sg, UIntText s sg (val a) ∧ p sg (val a)) {sg : Sign} {v : Int}
    (h : XsdInt s sg v) (hp : p sg v) :
    ∃ w, Res.map (fun a => LibVal.int (val a)) (f s) = .ok w ∧ Carries w (.int v) := by
  simp only [map_ok]
  refine ⟨_, ⟨mk v, (hf _).2 ⟨sg, ?_, ?_⟩, rfl⟩, ?_⟩
  · rw [hmk]; exact Int'.xsdInt_uint h
  · rw [hmk]; exact hp
  · rw [hmk]; exact .int

/-! ## Decimals and floating point numbers -/

theorem float_nearest {s : Str} {x : XFloat} (h : FloatText s x) : ∃ f, parseF64 s = some f ∧ Nearest f x := by
  cases h with
  | nan => exact ⟨.nan, parseF64_iff.2 ⟨.none, _, rfl, .inr (.nan (by decide +kernel))⟩, .nan⟩
  | @inf sg => exact ⟨_, parseF64_iff.2 ⟨sg, _, rfl, .inr (.inf (.inl (by decide +kernel)))⟩, .inf⟩
  | @num a t sg ds fs e hx ht =>
    have : ∃ r, a = sg.text ++ r ∧ XsdDec r .none ds fs := by
      cases hx with
      | whole h1 => exact ⟨dtext ds, rfl, .whole (sg := .none) h1⟩
      | point h1 h2 h3 => exact ⟨dtext ds ++ '.' :: dtext fs, by simp, .point (sg := .none) h1 h2 h3⟩
    obtain ⟨r, rfl, hr⟩ := this
    refine ⟨_, parseF64_iff.2 ⟨sg, r ++ t, by simp, .inl ⟨ds, fs, e, ⟨r, t, rfl, hr, ht⟩, rfl⟩⟩, .num (congrArg Ieee.rnd ?_)⟩
    unfold decQ
    rw [zpow_sub₀ (by norm_num), zpow_neg, zpow_natCast]
    push_cast
    ring

/-! ## Dates -/

theorem decVal_ge {ds : List Nat} (hl : 4 < ds.length) (hh : ds.head? ≠ some 0) : 9999 < decVal ds := by
  cases ds with
  | nil => simp at hl
  | cons d ds =>
    rw [decVal_cons]
    have hd : d ≠ 0 := by simpa using hh
    have : 10 ^ 4 ≤ 10 ^ ds.length := Nat.pow_le_pow_right (by omega) (by simp at hl; omega)
    have h2 : 10 ^ ds.length ≤ d * 10 ^ ds.length := Nat.le_mul_of_pos_left _ (by omega)
    omega

theorem year_four {ds : List Nat} (h4 : 4 ≤ ds.length) (hh : 4 < ds.length → ds.head? ≠ some 0) :
    decVal ds ≤ 9999 → ds.length = 4 := by
  intro h
  by_contra hc
  have := decVal_ge (ds := ds) (by omega) (hh (by omega))
  omega

theorem four_digits {ds : List Nat} (hd : Digits ds) (hl : ds.length = 4) : dtext ds = four (decVal ds) := by
  match ds, hl with
  | [a, b, c, d], _ =>
    have ha := hd a (by simp); have hb := hd b (by simp); have hc := hd c (by simp); have hd' := hd d (by simp)
    simp only [dtext, four, two, decVal, List.map_cons, List.map_nil, List.foldl_cons, List.foldl_nil, List.cons_append,
      List.nil_append, List.cons.injEq, and_true]
    refine ⟨?_, ?_, ?_, ?_⟩ <;> congr 1 <;> omega

/-- The characters of the body of a date literal. -/
theorem day_chars {neg : Bool} {s : Str} {y : Int} {m d : Nat} (h : XsdDay neg s y m d) :
    'Z' ∉ s ∧ '+' ∉ s ∧ ∃ c r, s = c :: r ∧ (c = '-' ↔ neg = true) ∧ (neg = false → Str.isAsciiDigit c = true) := by
  obtain ⟨ys, ⟨ds, h1, h2, -, rfl, -⟩, hv, rfl⟩ := h
  obtain ⟨hm, hd⟩ := validDate_lt hv
  have hcs : ∀ c ∈ durSign neg ++ dtext ds ++ ['-'] ++ two m ++ ['-'] ++ two d, c = '-' ∨ ∃ n < 10, c = digit n := by
    intro c hc
    simp only [List.mem_append, List.mem_singleton] at hc
    rcases hc with ((((hc | hc) | hc) | hc) | hc) | hc
    · cases neg <;> simp [durSign] at hc; exact .inl hc
    · obtain ⟨n, hn, rfl⟩ := List.mem_map.1 hc
      exact .inr ⟨n, h1 n hn, rfl⟩
    · exact .inl hc
    · simp only [two, List.mem_cons, List.not_mem_nil, or_false] at hc
      rcases hc with rfl | rfl
      · exact .inr ⟨m / 10, by omega, rfl⟩
      · exact .inr ⟨m % 10, by omega, rfl⟩
    · exact .inl hc
    · simp only [two, List.mem_cons, List.not_mem_nil, or_false] at hc
      rcases hc with rfl | rfl
      · exact .inr ⟨d / 10, by omega, rfl⟩
      · exact .inr ⟨d % 10, by omega, rfl⟩
  have hno : ∀ c, c ≠ '-' → Str.isAsciiDigit c = false → c ∉ durSign neg ++ dtext ds ++ ['-'] ++ two m ++ ['-'] ++ two d := by
    intro c h1 h2 h3
    rcases hcs c h3 with h | ⟨n, hn, h⟩
    · exact h1 h
    · rw [h, isAsciiDigit_spec hn] at h2; cases h2
  refine ⟨hno _ (by decide) (by decide), hno _ (by decide) (by decide), ?_⟩
  cases ds with
  | nil => simp at h2
  | cons x xs =>
    have hx := isAsciiDigit_spec (h1 x (by simp))
    cases neg with
    | true => exact ⟨'-', _, rfl, by simp, by simp⟩
    | false =>
      refine ⟨digit x, _, rfl, ?_, fun _ => hx⟩
      constructor
      · intro e; rw [e] at hx; exact absurd hx (by decide)
      · intro e; cases e

theorem tz_east {t : Str} {tz : Option Int} (h : OptTz t tz) (hc : 'Z' ∈ t ∨ '+' ∈ t) : SignOk .minus t := by
  have hd : ∀ n, n < 10 → digit n ≠ 'Z' ∧ digit n ≠ '+' := fun n hn =>
    ⟨digit_ne_of hn (by decide), digit_ne_of hn (by decide)⟩
  cases h with
  | none => simp at hc
  | some h =>
    cases h with
    | zulu => exact .inl rfl
    | east a b h1 h2 => exact .inr ⟨_, rfl⟩
    | west a b h1 h2 =>
      exfalso
      have e1 := hd (a / 10) (by omega); have e2 := hd (a % 10) (by omega)
      have e3 := hd (b / 10) (by omega); have e4 := hd (b % 10) (by omega)
      rcases hc with hc | hc
      · simp only [two, List.mem_cons, List.mem_append, List.not_mem_nil, or_false] at hc
        rcases hc with hc | (hc | hc) | hc | hc | hc
        · exact absurd hc (by decide)
        · exact e1.1 hc.symm
        · exact e2.1 hc.symm
        · exact absurd hc (by decide)
        · exact e3.1 hc.symm
        · exact e4.1 hc.symm
      · simp only [two, List.mem_cons, List.mem_append, List.not_mem_nil, or_false] at hc
        rcases hc with hc | (hc | hc) | hc | hc | hc
        · exact absurd hc (by decide)
        · exact e1.2 hc.symm
        · exact e2.2 hc.symm
        · exact absurd hc (by decide)
        · exact e3.2 hc.symm
        · exact e4.2 hc.symm

theorem date_reads {L : Lib} {s t : Str} {neg : Bool} {y : Int} {m d : Nat} {tz : Option Int} (h : XsdDay neg s y m d)
    (ht : OptTz t tz) (hl : ¬ (y < L.years.lo ∨ 9999 < y ∨ (s ++ t).head? = some '-' ∧ 'Z' ∉ s ++ t ∧ '+' ∉ s ++ t)) :
    Reads L "xs::Date" (s ++ t) (.date y m d tz) := by
  obtain ⟨hz, hp, c, r, hcr, hcn, -⟩ := day_chars h
  have hlate : y ≤ 9999 := by
    by_contra hc; exact hl (.inr (.inl (by omega)))
  have hearly : L.years.lo ≤ y := by
    by_contra hc; exact hl (.inl (by omega))
  have hsign : neg = true → SignOk .minus t := by
    intro hn
    apply tz_east ht
    by_contra hc
    rw [not_or] at hc
    refine hl (.inr (.inr ⟨?_, ?_, ?_⟩))
    · rw [hcr, hcn.2 hn]; rfl
    · rw [List.mem_append, not_or]; exact ⟨hz, hc.1⟩
    · rw [List.mem_append, not_or]; exact ⟨hp, hc.2⟩
  obtain ⟨ys, ⟨ds, h1, h2, h3, rfl, hy⟩, hv, rfl⟩ := h
  obtain ⟨hm, hd⟩ := validDate_lt hv
  have hds : ds ≠ [] := by rintro rfl; simp at h2
  have hle := L.years.le_hi
  rw [reads_of (lib_Date L)]
  refine ⟨_, map_ok.2 ⟨⟨⟨y, m, d⟩, tz⟩, (C20_accepts_iff _ _ _ _).2 ⟨hearly, (by omega : y ≤ L.years.hi), hv, ?_⟩, rfl⟩, .date⟩
  cases neg with
  | false =>
    have hy' : y = decVal ds := hy
    refine ⟨.none, _, t, rfl, ⟨[], dtext ds, [], [m / 10, m % 10], [], [d / 10, d % 10], by simp [Spaces], ?_, by simp [Spaces],
      digits12_two hm, by simp [Spaces], digits12_two hd, ?_, ?_, ?_⟩, ht, trivial⟩
    · rw [hy']; exact .none ds ⟨hds, h1⟩ (by rw [year_four h2 h3 (by omega)])
    · simp [decVal]; omega
    · simp [decVal]; omega
    · simp [durSign, dtext, two]
  | true =>
    have hy' : y = -(decVal ds : Int) := hy
    refine ⟨.minus, _, t, rfl, ⟨[], '-' :: dtext ds, [], [m / 10, m % 10], [], [d / 10, d % 10], by simp [Spaces], ?_, by simp [Spaces],
      digits12_two hm, by simp [Spaces], digits12_two hd, ?_, ?_, ?_⟩, ht, hsign rfl⟩
    · rw [hy']; exact .minus ds ⟨hds, h1⟩
    · simp [decVal]; omega
    · simp [decVal]; omega
    · simp [durSign, dtext, two]

theorem date_lost {L : Lib} {s t : Str} {neg : Bool} {y : Int} {m d : Nat} {tz : Option Int} (h : XsdDay neg s y m d)
    (hl : y < L.years.lo ∨ 9999 < y ∨ (s ++ t).head? = some '-' ∧ 'Z' ∉ s ++ t ∧ '+' ∉ s ++ t) :
    ¬ Reads L "xs::Date" (s ++ t) (.date y m d tz) := by
  rw [reads_of (lib_Date L)]
  rintro ⟨v, hv, hc⟩
  obtain ⟨a, ha, rfl⟩ := map_ok.1 hv
  cases hc
  obtain ⟨h1, h2, -, sg, b, u, hbu, hb, hu, hs⟩ := (C20_accepts_iff _ _ _ _).1 ha
  obtain ⟨w1, yt, w2, ms, w3, ds, g1, g2, g3, g4, g5, g6, g7, g8, rfl⟩ := hb
  obtain ⟨-, -, c, r, hcr, hcn, hcd⟩ := day_chars h
  have hc0 : ¬ Space c := by
    cases neg with
    | true => rw [hcn.2 rfl]; unfold Space; decide
    | false =>
      obtain ⟨n, hn, rfl⟩ := isDigit_of_ascii (hcd rfl)
      have : ∀ n < 10, ¬ Space (digit n) := by unfold Space; decide
      exact this n hn
  have hw : w1 = [] := by
    cases w1 with
    | nil => rfl
    | cons w ws =>
      rw [hcr] at hbu
      have : c = w := (List.cons.inj hbu).1
      exact absurd (this ▸ g1 w (by simp)) hc0
  subst hw
  rcases hl with h | hlate | ⟨hh, hz, hp⟩
  · exact absurd h1 (not_le.2 h)
  · cases g2 with
    | none ds h3 h4 =>
      have e1 := decVal_lt h3.2
      have e2 : 10 ^ ds.length ≤ 10 ^ 4 := Nat.pow_le_pow_right (by omega) h4
      have e3 : (9999 : Int) < decVal ds := hlate
      omega
    | plus ds h3 =>
      rw [hcr] at hbu
      have hcp : c = '+' := (List.cons.inj hbu).1
      cases neg with
      | true => rw [hcn.2 rfl] at hcp; exact absurd hcp (by decide)
      | false => have := hcd rfl; rw [hcp] at this; exact absurd this (by decide)
    | minus ds h3 =>
      have e3 : (9999 : Int) < -(decVal ds : Int) := hlate
      omega
  · rw [hcr] at hh
    have hcm : c = '-' := Option.some.inj hh
    cases g2 with
    | none ds h3 h4 =>
      obtain ⟨x, xs, rfl⟩ := List.exists_cons_of_ne_nil h3.1
      rw [hcr] at hbu
      have : c = digit x := (List.cons.inj hbu).1
      exact digit_ne_of (h3.2 x (by simp)) (by decide : Str.isAsciiDigit '-' = false) (this.symm.trans hcm)
    | plus ds h3 =>
      rw [hcr] at hbu
      have : c = '+' := (List.cons.inj hbu).1
      rw [hcm] at this
      exact absurd this (by decide)
    | minus ds h3 =>
      rcases hs with rfl | ⟨v, rfl⟩
      · apply hz; rw [hbu]; simp
      · apply hp; rw [hbu]; simp

end Verif.Lemmas.Blt
