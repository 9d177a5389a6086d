import Verif.Lemmas.Builtin2
import Verif.Props.Serde
import Verif.Lemmas.Float2

/-! # C78: the built-in types are read as XML Schema says -/

namespace Verif.Props

open Verif Verif.Model Verif.Spec Verif.Lemmas Verif.Lemmas.Blt Verif.Lemmas.Prim

theorem lost_bool {lo : Int} {s : Str} {x : XVal} : Lost lo "boolean" s x ↔ s = "1".toList ∨ s = "0".toList := by
  constructor
  · intro h
    generalize hn : "boolean" = n at h
    cases h with
    | digit h => exact h
    | minus h => rw [← hn] at h; exact absurd h (by decide)
    | minusYear h => rw [← hn] at h; exact absurd h (by decide)
    | lateYear h => rw [← hn] at h; exact absurd h (by decide)
    | endOfDay h => rw [← hn] at h; exact absurd h (by decide)
    | precise h => rw [← hn] at h; exact absurd h (by decide)
    | _ => exact absurd hn (by decide)
  · exact .digit

theorem lost_int {lo v : Int} {n : String} {s : Str}
    (h5 : n ∈ ["integer", "nonNegativeInteger", "positiveInteger", "nonPositiveInteger", "negativeInteger", "long", "int",
      "short", "byte", "unsignedLong", "unsignedInt", "unsignedShort", "unsignedByte"]) :
    Lost lo n s (.int v) ↔
      n ∈ ["nonNegativeInteger", "unsignedLong", "unsignedInt", "unsignedShort", "unsignedByte"] ∧ s.head? = some '-' := by
  constructor
  · intro h
    cases h with
    | minus h1 h2 => exact ⟨h1, h2⟩
    | digit _ => exact absurd h5 (by decide)
    | west _ _ _ => exact absurd h5 (by decide)
    | fraction _ => exact absurd h5 (by decide)
    | minusYear h _ => rcases h with rfl | rfl <;> exact absurd h5 (by decide)
  · rintro ⟨h1, h2⟩; exact .minus h1 h2

theorem lost_float {lo : Int} {s : Str} {x : XFloat} :
    Lost lo "float" s (.single x) ↔ ∃ b q, x = .num b q ∧ ¬ Single (Ieee.rnd q) := by
  constructor
  · intro h
    generalize hn : "float" = n at h
    cases h with
    | double h => exact ⟨_, _, rfl, h⟩
    | minus h => rw [← hn] at h; exact absurd h (by decide)
    | minusYear h => rw [← hn] at h; exact absurd h (by decide)
    | _ => exact absurd hn (by decide)
  · rintro ⟨b, q, rfl, h⟩; exact .double h

theorem lost_date {lo : Int} {s : Str} {y : Int} {m d : Nat} {tz : Option Int} :
    Lost lo "date" s (.date y m d tz) ↔ y < lo ∨ 9999 < y ∨ s.head? = some '-' ∧ 'Z' ∉ s ∧ '+' ∉ s := by
  constructor
  · intro h
    generalize hn : "date" = n at h
    cases h with
    | late h => exact .inr (.inl h)
    | early h => exact .inl h
    | west h1 h2 h3 => exact .inr (.inr ⟨h1, h2, h3⟩)
    | minus h => rw [← hn] at h; exact absurd h (by decide)
    | minusYear h => rw [← hn] at h; exact absurd h (by decide)
    | _ => exact absurd hn (by decide)
  · rintro (h | h | ⟨h1, h2, h3⟩)
    · exact .early h
    · exact .late h
    · exact .west h1 h2 h3

theorem lost_time {lo : Int} {s : Str} {h m : Nat} {q : ℚ} {tz : Option Int} :
    Lost lo "time" s (.time h m q tz) ↔ '.' ∈ s ∨ h = 24 := by
  constructor
  · intro h
    generalize hn : "time" = n at h
    cases h with
    | fraction h => exact .inl h
    | midnight => exact .inr rfl
    | minus h => rw [← hn] at h; exact absurd h (by decide)
    | minusYear h => rw [← hn] at h; exact absurd h (by decide)
    | _ => exact absurd hn (by decide)
  · rintro (h | rfl)
    · exact .fraction h
    · exact .midnight

theorem lost_dt {lo : Int} {n : String} {s : Str} {y : Int} {m d h mi : Nat} {q : ℚ} {tz : Option Int}
    (hk : n = "dateTime" ∨ n = "dateTimeStamp") :
    Lost lo n s (.dateTime y m d h mi q tz) ↔ (n = "dateTime" ∧ tz = none) ∨ DtLost s y h q := by
  constructor
  · intro h
    cases h with
    | minusYear _ h => exact .inr (.inl h)
    | lateYear _ h => exact .inr (.inr (.inl h))
    | endOfDay _ => exact .inr (.inr (.inr (.inl rfl)))
    | precise _ h => exact .inr (.inr (.inr (.inr h)))
    | zoneless => exact .inl ⟨rfl, rfl⟩
    | minus h => rcases hk with rfl | rfl <;> exact absurd h (by decide)
    | digit _ => exact absurd hk (by decide)
    | west _ _ _ => exact absurd hk (by decide)
    | fraction _ => exact absurd hk (by decide)
  · rintro (⟨rfl, rfl⟩ | h | h | rfl | h)
    · exact .zoneless
    · exact .minusYear hk h
    · exact .lateYear hk h
    · exact .endOfDay hk
    · exact .precise hk h

theorem lost_gYear {lo : Int} {s : Str} {y : Int} {tz : Option Int} :
    Lost lo "gYear" s (.gYear y tz) ↔ y = 0 ∨ 2147483647 < |y| := by
  constructor
  · intro h
    generalize hn : "gYear" = n at h
    cases h with
    | gYear h => exact h
    | minus h => rw [← hn] at h; exact absurd h (by decide)
    | minusYear h => rw [← hn] at h; exact absurd h (by decide)
    | _ => exact absurd hn (by decide)
  · exact .gYear

theorem lost_gYearMonth {lo : Int} {s : Str} {y m : Int} {tz : Option Int} :
    Lost lo "gYearMonth" s (.gYearMonth y m tz) ↔ y = 0 ∨ 2147483647 < |y| := by
  constructor
  · intro h
    generalize hn : "gYearMonth" = n at h
    cases h with
    | gYearMonth h => exact h
    | minus h => rw [← hn] at h; exact absurd h (by decide)
    | minusYear h => rw [← hn] at h; exact absurd h (by decide)
    | _ => exact absurd hn (by decide)
  · exact .gYearMonth

/-- Nothing is lost of the other types. -/
theorem lost_none {lo : Int} {n : String} {s : Str} {x : XVal} (h : Lost lo n s x) :
    n ∈ ["boolean", "nonNegativeInteger", "unsignedLong", "unsignedInt", "unsignedShort", "unsignedByte", "float", "date",
      "time", "dateTime", "dateTimeStamp", "gYear", "gYearMonth"] := by
  cases h with
  | minus h =>
    have : ∀ n ∈ ["nonNegativeInteger", "unsignedLong", "unsignedInt", "unsignedShort", "unsignedByte"],
      n ∈ ["boolean", "nonNegativeInteger", "unsignedLong", "unsignedInt", "unsignedShort", "unsignedByte", "float", "date",
      "time", "dateTime", "dateTimeStamp", "gYear", "gYearMonth"] := by decide
    exact this _ h
  | minusYear h => rcases h with rfl | rfl <;> decide
  | lateYear h => rcases h with rfl | rfl <;> decide
  | endOfDay h => rcases h with rfl | rfl <;> decide
  | precise h => rcases h with rfl | rfl <;> decide
  | _ => decide

/-- The row of a name. -/
private theorem row {n r q : String} (hrow : (n, r) ∈ readmeTable ++ undocumentedTable)
    (h : ∀ p ∈ readmeTable ++ undocumentedTable, p.1 = n → p.2 = q) : r = q := h _ hrow rfl

/-- **C78** For every type of the table which is no list, every literal of it (written from XML Schema, independently of
the program) and the value it denotes: the `from_str` of the Rust type reads the literal as that value exactly if the
literal is none of those listed in `Lost`.  (Partial: literals with more than 2^63 fraction digits and durations with
numbers beyond 64 bits are left out.) -/
theorem C78_reads_iff_partial (L : Lib) {n r : String} {s : Str} {x : XVal}
    (hrow : (n, r) ∈ readmeTable ++ undocumentedTable) (hlit : Literal n s x)
    (hlist : n ∉ ["ENTITIES", "IDREFS", "NMTOKENS"]) (hh : ¬ Huge n s) :
    Reads L r s x ↔ ¬ Lost L.years.lo n s x := by
  cases hlit with
  | text h =>
    have key : ∀ n ∈ textTypes, (∀ p ∈ readmeTable ++ undocumentedTable, p.1 = n → p.2 = "String") ∧
      n ∉ ["boolean", "nonNegativeInteger", "unsignedLong", "unsignedInt", "unsignedShort", "unsignedByte", "float", "date",
      "time", "dateTime", "dateTimeStamp", "gYear", "gYearMonth"] := by decide +kernel
    obtain ⟨k1, k2⟩ := key _ h
    obtain rfl := row hrow k1
    exact ⟨fun _ hl => k2 (lost_none hl), fun _ => text_reads L s⟩
  | yes h =>
    obtain rfl := row hrow (q := "bool") (by decide +kernel)
    rw [bool_reads, lost_bool]
    rcases h with rfl | rfl
    · simp
    · simp
  | no h =>
    obtain rfl := row hrow (q := "bool") (by decide +kernel)
    rw [bool_reads, lost_bool]
    rcases h with rfl | rfl
    · simp
    · simp
  | @int _ lo hi _ sg v hm hx hlo hhi =>
    have hn : n ∈ ["integer", "nonNegativeInteger", "positiveInteger", "nonPositiveInteger", "negativeInteger", "long",
        "int", "short", "byte", "unsignedLong", "unsignedInt", "unsignedShort", "unsignedByte"] := by
      have : ∀ p ∈ intTypes, p.1 ∈ ["integer", "nonNegativeInteger", "positiveInteger", "nonPositiveInteger",
        "negativeInteger", "long", "int", "short", "byte", "unsignedLong", "unsignedInt", "unsignedShort",
        "unsignedByte"] := by decide +kernel
      exact this _ hm
    rw [lost_int hn]
    have hmin := xsdInt_head hx
    simp only [intTypes, List.mem_cons, Prod.mk.injEq, List.not_mem_nil, or_false] at hm
    have signed : ∀ {lo' hi' : Int}, lo' ≤ v → v ≤ hi' →
        ∃ w, Res.map LibVal.int (Res.ofOption (Str.parseSigned lo' hi' s)) = .ok w ∧ Carries w (.int v) :=
      fun h1 h2 => signed_iff.2 ⟨sg, v, hx, h1, h2, rfl⟩
    have unsigned : ∀ {hi' : Nat}, 0 ≤ v → v ≤ hi' →
        ((∃ w, Res.map (fun n : Nat => LibVal.int n) (Res.ofOption (Str.parseUnsigned hi' s)) = .ok w ∧ Carries w (.int v)) ↔
          ¬ s.head? = some '-') := by
      intro hi' h1 h2
      rw [Blt.unsigned_iff]
      constructor
      · rintro ⟨sg', v', h3, h4, -⟩ hc
        exact h3 ((xsdInt_head h4).2 hc)
      · intro hc
        exact ⟨sg, v, fun e => hc (hmin.1 e), hx, h1, h2, rfl⟩
    rcases hm with ⟨rfl, rfl, rfl⟩ | ⟨rfl, rfl, rfl⟩ | ⟨rfl, rfl, rfl⟩ | ⟨rfl, rfl, rfl⟩ | ⟨rfl, rfl, rfl⟩ |
      ⟨rfl, rfl, rfl⟩ | ⟨rfl, rfl, rfl⟩ | ⟨rfl, rfl, rfl⟩ | ⟨rfl, rfl, rfl⟩ | ⟨rfl, rfl, rfl⟩ | ⟨rfl, rfl, rfl⟩ |
      ⟨rfl, rfl, rfl⟩ | ⟨rfl, rfl, rfl⟩
    · obtain rfl := row hrow (q := "xs::Integer") (by decide +kernel)
      rw [reads_of (lib_Integer L)]
      refine ⟨fun _ hl => absurd hl.1 (by decide), fun _ => ?_⟩
      exact ⟨_, map_ok.2 ⟨⟨v⟩, (C16_integer_iff _ _).2 ⟨sg, Int'.xsdInt_uint hx⟩, rfl⟩, .int⟩
    · obtain rfl := row hrow (q := "xs::NonNegativeInteger") (by decide +kernel)
      have h0 : 0 ≤ v := hlo 0 rfl
      rw [reads_of (lib_NonNegativeInteger L)]
      constructor
      · rintro ⟨w, hw, -⟩ ⟨-, hc⟩
        obtain ⟨a, ha, -⟩ := map_ok.1 hw
        have key : ∀ {sg' : Sign}, sg' ≠ .minus → ∀ {z}, ¬ UIntText s sg' z := by
          rintro sg' hsg z ⟨d, us, h1, -, rfl, -⟩
          cases sg' with
          | minus => exact hsg rfl
          | plus => simp [Sign.text] at hc
          | none =>
            simp only [Sign.text, List.nil_append, List.head?_cons, Option.some.injEq] at hc
            exact digit_ne_of h1 (by decide : Str.isAsciiDigit '-' = false) hc
        rcases (C16_nonNegative_iff _ _).1 ha with h | h
        · exact key (by simp) h
        · exact key (by simp) h
      · intro hc
        have hsg : sg ≠ .minus := fun e => hc ⟨by decide, hmin.1 e⟩
        obtain ⟨k, rfl⟩ := Int.eq_ofNat_of_zero_le h0
        refine ⟨_, map_ok.2 ⟨⟨k⟩, (C16_nonNegative_iff _ _).2 ?_, rfl⟩, .int⟩
        have := Int'.xsdInt_uint hx
        cases sg with
        | none => exact .inl this
        | plus => exact .inr this
        | minus => exact absurd rfl hsg
    · obtain rfl := row hrow (q := "xs::PositiveInteger") (by decide +kernel)
      have h0 : 1 ≤ v := hlo 1 rfl
      rw [reads_of (lib_PositiveInteger L)]
      refine ⟨fun _ hl => absurd hl.1 (by decide), fun _ => ?_⟩
      obtain ⟨k, rfl⟩ := Int.eq_ofNat_of_zero_le (show 0 ≤ v by omega)
      exact ⟨_, map_ok.2 ⟨⟨k⟩, (C16_positive_iff _ _).2 ⟨⟨sg, Int'.xsdInt_uint hx⟩, (by omega : 0 < k)⟩, rfl⟩, .int⟩
    · obtain rfl := row hrow (q := "xs::NonPositiveInteger") (by decide +kernel)
      have h0 : v ≤ 0 := hhi 0 rfl
      rw [reads_of (lib_NonPositiveInteger L)]
      refine ⟨fun _ hl => absurd hl.1 (by decide), fun _ => ?_⟩
      exact ⟨_, map_ok.2 ⟨⟨v⟩, (C16_nonPositive_iff _ _).2 ⟨⟨sg, Int'.xsdInt_uint hx⟩, h0⟩, rfl⟩, .int⟩
    · obtain rfl := row hrow (q := "xs::NegativeInteger") (by decide +kernel)
      have h0 : v ≤ -1 := hhi (-1) rfl
      rw [reads_of (lib_NegativeInteger L)]
      refine ⟨fun _ hl => absurd hl.1 (by decide), fun _ => ?_⟩
      exact ⟨_, map_ok.2 ⟨⟨v⟩, (C16_negative_iff _ _).2 ⟨⟨sg, Int'.xsdInt_uint hx⟩, (by omega : v < 0)⟩, rfl⟩, .int⟩
    · obtain rfl := row hrow (q := "i64") (by decide +kernel)
      rw [reads_of (lib_i64 L)]
      exact ⟨fun _ hl => absurd hl.1 (by decide), fun _ => signed (hlo _ rfl) (hhi _ rfl)⟩
    · obtain rfl := row hrow (q := "i32") (by decide +kernel)
      rw [reads_of (lib_i32 L)]
      exact ⟨fun _ hl => absurd hl.1 (by decide), fun _ => signed (hlo _ rfl) (hhi _ rfl)⟩
    · obtain rfl := row hrow (q := "i16") (by decide +kernel)
      rw [reads_of (lib_i16 L)]
      exact ⟨fun _ hl => absurd hl.1 (by decide), fun _ => signed (hlo _ rfl) (hhi _ rfl)⟩
    · obtain rfl := row hrow (q := "i8") (by decide +kernel)
      rw [reads_of (lib_i8 L)]
      exact ⟨fun _ hl => absurd hl.1 (by decide), fun _ => signed (hlo _ rfl) (hhi _ rfl)⟩
    · obtain rfl := row hrow (q := "u64") (by decide +kernel)
      rw [reads_of (lib_u64 L), unsigned (hlo _ rfl) (hhi _ rfl)]
      exact ⟨fun h hl => h hl.2, fun h hl => h ⟨by decide, hl⟩⟩
    · obtain rfl := row hrow (q := "u32") (by decide +kernel)
      rw [reads_of (lib_u32 L), unsigned (hlo _ rfl) (hhi _ rfl)]
      exact ⟨fun h hl => h hl.2, fun h hl => h ⟨by decide, hl⟩⟩
    · obtain rfl := row hrow (q := "u16") (by decide +kernel)
      rw [reads_of (lib_u16 L), unsigned (hlo _ rfl) (hhi _ rfl)]
      exact ⟨fun h hl => h hl.2, fun h hl => h ⟨by decide, hl⟩⟩
    · obtain rfl := row hrow (q := "u8") (by decide +kernel)
      rw [reads_of (lib_u8 L), unsigned (hlo _ rfl) (hhi _ rfl)]
      exact ⟨fun h hl => h hl.2, fun h hl => h ⟨by decide, hl⟩⟩
  | @dec _ sg ds fs h =>
    obtain rfl := row hrow (q := "xs::Decimal") (by decide +kernel)
    rw [reads_of (lib_Decimal L)]
    refine ⟨fun _ hl => absurd (lost_none hl) (by decide), fun _ => ?_⟩
    have hl : fs.length < 2 ^ 63 := by
      by_contra hc
      exact hh (.inl ⟨rfl, sg, ds, fs, h, not_lt.1 hc⟩)
    obtain ⟨d, hd, hv⟩ := C62_complete h hl
    exact ⟨_, map_ok.2 ⟨d, hd, rfl⟩, .dec hv⟩
  | double h =>
    obtain rfl := row hrow (q := "f64") (by decide +kernel)
    rw [reads_of (lib_f64 L)]
    refine ⟨fun _ hl => absurd (lost_none hl) (by decide), fun _ => ?_⟩
    obtain ⟨f, hf, hn⟩ := float_nearest h
    exact ⟨_, map_ok.2 ⟨f, ofOption_ok.2 hf, rfl⟩, .double hn⟩
  | float h =>
    obtain rfl := row hrow (q := "f64") (by decide +kernel)
    rw [reads_of (lib_f64 L), lost_float]
    constructor
    · rintro ⟨v, hv, hc⟩ ⟨b, q, rfl, hl⟩
      cases hc with
      | single _ h2 => exact hl (h2 b q rfl)
    · intro hl
      obtain ⟨f, hf, hn⟩ := float_nearest h
      refine ⟨_, map_ok.2 ⟨f, ofOption_ok.2 hf, rfl⟩, .single hn ?_⟩
      rintro b q rfl
      by_contra hc
      exact hl ⟨b, q, rfl, hc⟩
  | date h ht =>
    obtain rfl := row hrow (q := "xs::Date") (by decide +kernel)
    rw [lost_date]
    exact ⟨fun hr hl => date_lost h hl hr, fun hl => date_reads h ht hl⟩
  | time h ht =>
    obtain rfl := row hrow (q := "xs::Time") (by decide +kernel)
    rw [lost_time]
    exact time_iff h ht
  | dateTime hd hu ht =>
    obtain rfl := row hrow (q := "xs::DateTime") (by decide +kernel)
    rw [lost_dt (.inl rfl), dateTime_iff hd hu ht, not_or]
    simp
  | stamp hd hu ht =>
    obtain rfl := row hrow (q := "xs::DateTimeStamp") (by decide +kernel)
    rw [lost_dt (.inr rfl), stamp_iff hd hu ht, not_or]
    simp
  | @duration _ y h =>
    obtain rfl := row hrow (q := "xs::Duration") (by decide +kernel)
    rw [reads_of (lib_Duration L)]
    refine ⟨fun _ hl => absurd (lost_none hl) (by decide), fun _ => ?_⟩
    have hf : y.Fits := by
      by_contra hc
      exact hh (.inr ⟨rfl, y, h, hc⟩)
    obtain ⟨d, hd, he⟩ := C11_ieee_seconds L.sh L.profile s y h hf
    have hd' := C11_complete (Ieee.ops L.sh) L.profile s y h hf
    rw [hd'] at hd
    have hd := Res.ok.inj hd
    refine ⟨_, map_ok.2 ⟨_, hd', rfl⟩, .duration ?_⟩
    rw [← hd] at he
    refine le_of_eq_of_le ?_ (le_of_le_of_eq he ?_)
    · congr 2
      unfold DurParts.sec denotedSeconds secondQ
      cases y.s with
      | none => rfl
      | some p => obtain ⟨a, b⟩ := p; cases b <;> simp [decVal]
    · congr 1
      unfold DurParts.sec denotedSeconds secondQ
      cases y.s with
      | none => rfl
      | some p => obtain ⟨a, b⟩ := p; cases b <;> simp [decVal]
  | gDay h =>
    obtain rfl := row hrow (q := "xs::GDay") (by decide +kernel)
    rw [reads_of (lib_GDay L)]
    refine ⟨fun _ hl => absurd (lost_none hl) (by decide), fun _ => ?_⟩
    exact ⟨_, map_ok.2 ⟨⟨_, _⟩, (C03_gday_iff _ _).2 h, rfl⟩, .gDay⟩
  | gMonth h =>
    obtain rfl := row hrow (q := "xs::GMonth") (by decide +kernel)
    rw [reads_of (lib_GMonth L)]
    refine ⟨fun _ hl => absurd (lost_none hl) (by decide), fun _ => ?_⟩
    exact ⟨_, map_ok.2 ⟨⟨_, _⟩, (C04_gmonth_iff _ _).2 h, rfl⟩, .gMonth⟩
  | gMonthDay h =>
    obtain rfl := row hrow (q := "xs::GMonthDay") (by decide +kernel)
    rw [reads_of (lib_GMonthDay L)]
    refine ⟨fun _ hl => absurd (lost_none hl) (by decide), fun _ => ?_⟩
    exact ⟨_, map_ok.2 ⟨⟨_, _, _⟩, (C05_gmonthday_iff _ _).2 h, rfl⟩, .gMonthDay⟩
  | gYear h ht =>
    obtain rfl := row hrow (q := "xs::GYear") (by decide +kernel)
    rw [lost_gYear]
    exact gYear_iff h ht
  | gYearMonth h h1 h2 ht =>
    obtain rfl := row hrow (q := "xs::GYearMonth") (by decide +kernel)
    rw [lost_gYearMonth]
    exact gYearMonth_iff h ⟨h1, h2⟩ ht
  | list h => exact absurd h hlist

/-! ## Concrete literals of every kind -/

private theorem digits1_of {ds : List Nat} (h1 : ds ≠ []) (h2 : ∀ d ∈ ds, d < 10) : Digits1 ds := ⟨h1, h2⟩

private theorem dec_text {sg : Sign} {ds : List Nat} (h1 : ds ≠ []) (h2 : ∀ d ∈ ds, d < 10) :
    XsdDec (sg.text ++ dtext ds) sg ds [] := .whole (digits1_of h1 h2)

private theorem int_text {sg : Sign} {ds : List Nat} (h1 : ds ≠ []) (h2 : ∀ d ∈ ds, d < 10) :
    XsdInt (sg.text ++ dtext ds) sg (sg.apply (decVal ds)) := ⟨ds, ⟨h1, h2⟩, rfl, rfl⟩

/-- A library with the years of chrono. -/
private def lib : Lib := ⟨fun _ => [], .release, .chrono, fun _ => false⟩

example : Literal "boolean" "true".toList (.bool true) ∧ ¬ Huge "boolean" "true".toList ∧
    ¬ Lost (-262143) "boolean" "true".toList (.bool true) := by
  refine ⟨.yes (.inl rfl), ?_, ?_⟩
  · rintro (⟨h, -⟩ | ⟨h, -⟩) <;> exact absurd h (by decide)
  · rw [lost_bool]; decide

example : Literal "unsignedByte" "+007".toList (.int 7) :=
  .int (n := "unsignedByte") (lo := some 0) (hi := some 255) (by decide) (int_text (sg := .plus) (ds := [0, 0, 7]) (by decide) (by decide))
    (by rintro b h; cases h; decide) (by rintro b h; cases h; decide)

example : ∃ q, Literal "double" "-12.5e3".toList (.double (.num true q)) :=
  ⟨_, .double (.num (s := "-12.5".toList) (t := "e3".toList) (sg := .minus)
    (.point (sg := .minus) (ds := [1, 2]) (fs := [5]) (by unfold Digits; decide) (by unfold Digits; decide) (by decide))
    (.some (c := 'e') (sg := .none) (ds := [3]) (.inl rfl) (digits1_of (by decide) (by decide))))⟩

private theorem day_text {ds : List Nat} {m d : Nat} (h1 : ∀ x ∈ ds, x < 10) (h2 : ds.length = 4)
    (h3 : ValidDate (decVal ds) m d) : XsdDay false (dtext ds ++ ['-'] ++ two m ++ ['-'] ++ two d) (decVal ds) m d :=
  ⟨_, ⟨ds, h1, by omega, by omega, rfl, rfl⟩, h3, rfl⟩

private theorem instant : Literal "dateTime" "2020-02-29T23:59:59Z".toList (.dateTime 2020 2 29 23 59 (secondQ 59 []) (some 0)) :=
  .dateTime (s := "2020-02-29".toList) (u := "23:59:59".toList) (t := "Z".toList)
    (day_text (ds := [2, 0, 2, 0]) (by decide) rfl (by unfold ValidDate LeapYear; decide))
    ⟨_, .inl (by decide), by decide, by decide, .whole, rfl⟩ (.some .zulu)

/-- A leap day with time and timezone is a literal which is not lost, so it is read. -/
example : Reads lib "xs::DateTime" "2020-02-29T23:59:59Z".toList (.dateTime 2020 2 29 23 59 (secondQ 59 []) (some 0)) := by
  refine (C78_reads_iff_partial lib (n := "dateTime") (by decide +kernel) instant (by decide) ?_).2 ?_
  · rintro (⟨h, -⟩ | ⟨h, -⟩) <;> exact absurd h (by decide)
  · rw [lost_dt (.inl rfl)]
    rintro (⟨-, h⟩ | h | h | h | h)
    · cases h
    · exact absurd h (by decide)
    · exact absurd h (by decide)
    · exact absurd h (by decide)
    · refine h 59000000000 ?_
      norm_num [secondQ, decVal]

/-! ## What is read is a literal -/

/-- The types whose Rust types read literals only. -/
def exactTypes : List String :=
  textTypes ++ ["boolean", "long", "int", "short", "byte", "unsignedLong", "unsignedInt", "unsignedShort", "unsignedByte",
    "gDay", "gMonth", "gMonthDay"]

/-- **C78** Texts, truth values, integers of bounded size and the gregorian days and months: whatever is read is a
literal of the type, and the value is the one it denotes. -/
theorem C78_sound (L : Lib) {n r : String} {s : Str} {v : LibVal} {f : Str → Res LibVal}
    (hrow : (n, r) ∈ readmeTable ++ undocumentedTable) (hn : n ∈ exactTypes) (hf : libFromStr L r.toList = some f)
    (h : f s = .ok v) : ∃ x, Literal n s x ∧ Carries v x := by
  have signed : ∀ {n : String} {lo hi : Int}, (n, some lo, some hi) ∈ intTypes →
      Res.map LibVal.int (Res.ofOption (Str.parseSigned lo hi s)) = .ok v → ∃ x, Literal n s x ∧ Carries v x := by
    intro n lo hi hm h
    obtain ⟨w, hw, rfl⟩ := map_ok.1 h
    obtain ⟨sg, u, hx, h1, h2, h3⟩ := signed_iff.1 ⟨_, h, .int⟩
    cases h3
    exact ⟨_, .int hm hx (by rintro b hb; cases hb; exact h1) (by rintro b hb; cases hb; exact h2), .int⟩
  have unsigned : ∀ {n : String} {hi : Nat}, (n, some 0, some (hi : Int)) ∈ intTypes →
      Res.map (fun n : Nat => LibVal.int n) (Res.ofOption (Str.parseUnsigned hi s)) = .ok v →
      ∃ x, Literal n s x ∧ Carries v x := by
    intro n hi hm h
    obtain ⟨w, hw, rfl⟩ := map_ok.1 h
    obtain ⟨sg, u, -, hx, h1, h2, h3⟩ := Blt.unsigned_iff.1 ⟨_, h, .int⟩
    cases h3
    exact ⟨_, .int hm hx (by rintro b hb; cases hb; exact h1) (by rintro b hb; cases hb; exact h2), .int⟩
  unfold exactTypes at hn
  rcases List.mem_append.1 hn with hn | hn
  · have key : ∀ n ∈ textTypes, ∀ p ∈ readmeTable ++ undocumentedTable, p.1 = n → p.2 = "String" := by decide +kernel
    obtain rfl := row hrow (key _ hn)
    rw [lib_String] at hf
    cases hf
    cases h
    exact ⟨_, .text hn, .text⟩
  · simp only [List.mem_cons, List.not_mem_nil, or_false] at hn
    rcases hn with rfl | rfl | rfl | rfl | rfl | rfl | rfl | rfl | rfl | rfl | rfl | rfl
    · obtain rfl := row hrow (q := "bool") (by decide +kernel)
      have hr : Reads L "bool" s (match v with | .bool b => .bool b | _ => .int 0) := by
        refine ⟨f, v, hf, h, ?_⟩
        rw [lib_bool] at hf
        cases hf
        obtain ⟨b, -, rfl⟩ := map_ok.1 h
        exact .bool
      rw [lib_bool] at hf
      cases hf
      obtain ⟨b, -, rfl⟩ := map_ok.1 h
      rcases bool_reads.1 hr with ⟨h1, h2⟩ | ⟨h1, h2⟩
      · cases h2; exact ⟨_, .yes (.inl h1), .bool⟩
      · cases h2; exact ⟨_, .no (.inl h1), .bool⟩
    · obtain rfl := row hrow (q := "i64") (by decide +kernel)
      rw [lib_i64] at hf; cases hf
      exact signed (by decide +kernel) h
    · obtain rfl := row hrow (q := "i32") (by decide +kernel)
      rw [lib_i32] at hf; cases hf
      exact signed (by decide +kernel) h
    · obtain rfl := row hrow (q := "i16") (by decide +kernel)
      rw [lib_i16] at hf; cases hf
      exact signed (by decide +kernel) h
    · obtain rfl := row hrow (q := "i8") (by decide +kernel)
      rw [lib_i8] at hf; cases hf
      exact signed (by decide +kernel) h
    · obtain rfl := row hrow (q := "u64") (by decide +kernel)
      rw [lib_u64] at hf; cases hf
      exact unsigned (by decide +kernel) h
    · obtain rfl := row hrow (q := "u32") (by decide +kernel)
      rw [lib_u32] at hf; cases hf
      exact unsigned (by decide +kernel) h
    · obtain rfl := row hrow (q := "u16") (by decide +kernel)
      rw [lib_u16] at hf; cases hf
      exact unsigned (by decide +kernel) h
    · obtain rfl := row hrow (q := "u8") (by decide +kernel)
      rw [lib_u8] at hf; cases hf
      exact unsigned (by decide +kernel) h
    · obtain rfl := row hrow (q := "xs::GDay") (by decide +kernel)
      rw [lib_GDay] at hf; cases hf
      obtain ⟨g, hg, rfl⟩ := map_ok.1 h
      exact ⟨_, .gDay ((C03_gday_iff _ _).1 hg), .gDay⟩
    · obtain rfl := row hrow (q := "xs::GMonth") (by decide +kernel)
      rw [lib_GMonth] at hf; cases hf
      obtain ⟨g, hg, rfl⟩ := map_ok.1 h
      exact ⟨_, .gMonth ((C04_gmonth_iff _ _).1 hg), .gMonth⟩
    · obtain rfl := row hrow (q := "xs::GMonthDay") (by decide +kernel)
      rw [lib_GMonthDay] at hf; cases hf
      obtain ⟨g, hg, rfl⟩ := map_ok.1 h
      exact ⟨_, .gMonthDay ((C05_gmonthday_iff _ _).1 hg), .gMonthDay⟩

example : "unsignedByte" ∈ exactTypes ∧ ("unsignedByte", "u8") ∈ readmeTable ++ undocumentedTable ∧
    Str.parseUnsigned 255 "+007".toList = some 7 := by decide +kernel

private theorem float_chars {s : Str} {x : XFloat} (h : FloatText s x) : s.head? ≠ some 'i' := by
  cases h with
  | nan => decide
  | @inf sg => cases sg <;> decide
  | @num s t sg ds fs e h1 h2 =>
    have hd : ∀ {ds : List Nat} {u : Str}, (∀ d ∈ ds, d < 10) → ds ≠ [] → (dtext ds ++ u).head? ≠ some 'i' := by
      intro ds u h1 h2
      obtain ⟨x, xs, rfl⟩ := List.exists_cons_of_ne_nil h2
      simp only [dtext, List.map_cons, List.cons_append, List.head?_cons, ne_eq, Option.some.injEq]
      exact digit_ne_of (h1 x (by simp)) (by decide : Str.isAsciiDigit 'i' = false)
    cases h1 with
    | whole h =>
      cases sg with
      | plus => exact fun e => absurd e (by simp [Sign.text])
      | minus => exact fun e => absurd e (by simp [Sign.text])
      | none => exact hd h.2 h.1
    | point h1 h2 h3 =>
      cases sg with
      | plus => exact fun e => absurd e (by simp [Sign.text])
      | minus => exact fun e => absurd e (by simp [Sign.text])
      | none =>
        by_cases hds : ds = []
        · subst hds; exact fun e => absurd e (by simp [Sign.text, dtext])
        · simp only [Sign.text, List.nil_append, List.append_assoc]
          exact hd h1 hds

/-- **C78, violated**: other types read more than the literals: `infinity` as a double, `1_0` as an integer. -/
theorem C78_sound_violated (L : Lib) :
    (∃ f, libFromStr L "f64".toList = some f ∧ f "infinity".toList = .ok (.float (.inf false)) ∧
      ∀ x, ¬ Literal "double" "infinity".toList x) ∧
    (∃ f, libFromStr L "xs::Integer".toList = some f ∧ f "1_0".toList = .ok (.int 10) ∧
      ∀ x, ¬ Literal "integer" "1_0".toList x) := by
  refine ⟨⟨_, lib_f64 L, rfl, ?_⟩, ⟨_, lib_Integer L, map_ok.2 ⟨⟨10⟩, (by decide +kernel), rfl⟩, ?_⟩⟩
  · intro x h
    generalize hn : "double" = n at h
    generalize hs : "infinity".toList = s at h
    cases h with
    | double h => rw [← hs] at h; exact float_chars h (by decide)
    | text h => rw [← hn] at h; exact absurd h (by decide)
    | int h => rw [← hn] at h; simp [intTypes] at h
    | list h => rw [← hn] at h; exact absurd h (by decide)
    | _ => exact absurd hn (by decide)
  · intro x h
    generalize hn : "integer" = n at h
    generalize hs : "1_0".toList = s at h
    cases h with
    | @int _ _ _ _ sg _ h hx =>
      obtain ⟨ds, h1, h2, -⟩ := hx
      have hu : '_' ∈ "1_0".toList := by decide
      rw [hs, h2] at hu
      rcases List.mem_append.1 hu with hu | hu
      · revert hu
        cases sg <;> simp [Sign.text]
      · obtain ⟨d, hd, e⟩ := List.mem_map.1 hu
        exact digit_ne_of (h1.2 d hd) (by decide : Str.isAsciiDigit '_' = false) e
    | text h => rw [← hn] at h; exact absurd h (by decide)
    | list h => rw [← hn] at h; exact absurd h (by decide)
    | _ => exact absurd hn (by decide)

/-! ## Literals which are lost -/

/-- **C78, violated**: literals of the types which are not read as XML Schema says: `1` for true, a zero with a minus, a
date-time without timezone, a time with a fraction, the end of the day, the year after 9999. -/
theorem C78_reads_violated (L : Lib) :
    (Literal "boolean" "1".toList (.bool true) ∧ ¬ Reads L "bool" "1".toList (.bool true)) ∧
    (Literal "unsignedByte" "-0".toList (.int 0) ∧ ¬ Reads L "u8" "-0".toList (.int 0)) ∧
    (∃ x, Literal "dateTime" "2020-02-29T23:59:59".toList x ∧ ¬ Reads L "xs::DateTime" "2020-02-29T23:59:59".toList x) ∧
    (∃ x, Literal "time" "12:00:00.5".toList x ∧ ¬ Reads L "xs::Time" "12:00:00.5".toList x) ∧
    (∃ x, Literal "time" "24:00:00".toList x ∧ ¬ Reads L "xs::Time" "24:00:00".toList x) ∧
    (∃ x, Literal "date" "10000-01-01".toList x ∧ ¬ Reads L "xs::Date" "10000-01-01".toList x) := by
  have nh : ∀ {n : String} {s : Str}, n ≠ "decimal" → n ≠ "duration" → ¬ Huge n s := by
    rintro n s h1 h2 (⟨h, -⟩ | ⟨h, -⟩)
    · exact h1 h
    · exact h2 h
  have hb : Literal "boolean" "1".toList (.bool true) := .yes (.inr rfl)
  have hu : Literal "unsignedByte" "-0".toList (.int 0) :=
    .int (n := "unsignedByte") (lo := some 0) (hi := some 255) (by decide) (int_text (sg := .minus) (ds := [0]) (by decide) (by decide))
      (by rintro b h; cases h; decide) (by rintro b h; cases h; decide)
  have hd : Literal "dateTime" "2020-02-29T23:59:59".toList (.dateTime 2020 2 29 23 59 (secondQ 59 []) none) :=
    .dateTime (s := "2020-02-29".toList) (u := "23:59:59".toList) (t := [])
      (day_text (ds := [2, 0, 2, 0]) (by decide) rfl (by unfold ValidDate LeapYear; decide))
      ⟨_, .inl (by decide), by decide, by decide, .whole, rfl⟩ .none
  have ht : Literal "time" "12:00:00.5".toList (.time 12 0 (secondQ 0 [5]) none) :=
    .time (s := "12:00:00.5".toList) (t := [])
      ⟨_, .inl (by decide), by decide, by decide, .fraction (digits1_of (by decide) (by decide)), rfl⟩ .none
  have hm : Literal "time" "24:00:00".toList (.time 24 0 (secondQ 0 []) none) :=
    .time (s := "24:00:00".toList) (t := [])
      ⟨_, .inr ⟨rfl, rfl, rfl, rfl⟩, by decide, by decide, .whole, rfl⟩ .none
  have hy : Literal "date" "10000-01-01".toList (.date 10000 1 1 none) :=
    .date (s := "10000-01-01".toList) (t := []) (neg := false)
      ⟨_, ⟨[1, 0, 0, 0, 0], by unfold Digits; decide, by decide, by decide, rfl, rfl⟩, by unfold ValidDate LeapYear; decide, rfl⟩ .none
  refine ⟨⟨hb, ?_⟩, ⟨hu, ?_⟩, ⟨_, hd, ?_⟩, ⟨_, ht, ?_⟩, ⟨_, hm, ?_⟩, ⟨_, hy, ?_⟩⟩
  · rw [C78_reads_iff_partial L (by decide +kernel) hb (by decide) (nh (by decide) (by decide)), not_not]
    exact .digit (.inl rfl)
  · rw [C78_reads_iff_partial L (by decide +kernel) hu (by decide) (nh (by decide) (by decide)), not_not]
    exact .minus (by decide) (by decide)
  · rw [C78_reads_iff_partial L (by decide +kernel) hd (by decide) (nh (by decide) (by decide)), not_not]
    exact .zoneless
  · rw [C78_reads_iff_partial L (by decide +kernel) ht (by decide) (nh (by decide) (by decide)), not_not]
    exact .fraction (by decide)
  · rw [C78_reads_iff_partial L (by decide +kernel) hm (by decide) (nh (by decide) (by decide)), not_not]
    exact .midnight
  · rw [C78_reads_iff_partial L (by decide +kernel) hy (by decide) (nh (by decide) (by decide)), not_not]
    exact .late (by decide)

private theorem not_single : ¬ Single 16777217 := by
  rintro ⟨m, e, hm, -, -, h⟩
  have hm' : (m : ℚ) < 16777217 := by exact_mod_cast (show m < 16777217 by omega)
  rcases le_or_gt e 0 with he | he
  · have : (2 : ℚ) ^ e ≤ 1 := zpow_le_one_of_nonpos₀ (by norm_num) he
    have : (m : ℚ) * 2 ^ e ≤ m * 1 := mul_le_mul_of_nonneg_left this (Nat.cast_nonneg m)
    rw [← h] at this
    linarith
  · obtain ⟨k, hk⟩ := Int.eq_ofNat_of_zero_le (show 0 ≤ e - 1 by omega)
    obtain rfl : e = (k : Int) + 1 := by omega
    have hc : (16777217 : ℚ) = ((m * 2 ^ k * 2 : Nat) : ℚ) := by
      rw [h, zpow_add₀ (by norm_num), zpow_natCast]
      push_cast
      ring
    have hn : 16777217 = m * 2 ^ k * 2 := by exact_mod_cast hc
    omega

/-- **C78, violated**: the single precision type is read as a double: 16777217 is no number of single precision and is
not rounded to one. -/
theorem C78_single_violated (L : Lib) : ∃ x, Literal "float" "16777217".toList x ∧ ¬ Reads L "f64" "16777217".toList x := by
  have h : Literal "float" "16777217".toList (.single (.num false (decQ (decVal ([1, 6, 7, 7, 7, 2, 1, 7] ++ [])) 0 * 10 ^ (0 : Int)))) :=
    .float (.num (s := "16777217".toList) (t := []) (sg := .none)
      (dec_text (sg := .none) (ds := [1, 6, 7, 7, 7, 2, 1, 7]) (by decide) (by decide)) .none)
  refine ⟨_, h, ?_⟩
  rw [C78_reads_iff_partial L (by decide +kernel) h (by decide), not_not]
  · refine .double ?_
    have hq : decQ (decVal ([1, 6, 7, 7, 7, 2, 1, 7] ++ [])) 0 * 10 ^ (0 : Int) = ((16777217 : Nat) : ℚ) := by
      norm_num [decQ, decVal]
    rw [hq, Flt.rnd_nat (by norm_num)]
    exact_mod_cast not_single
  · rintro (⟨h, -⟩ | ⟨h, -⟩) <;> exact absurd h (by decide)

end Verif.Props
