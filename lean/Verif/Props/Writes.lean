import Verif.Lemmas.Writes
import Verif.Props.Builtin

/-! # C80: values of the built-in types are written as literals which denote them -/

namespace Verif.Props

open Verif Verif.Model Verif.Spec Verif.Lemmas Verif.Lemmas.Dur Verif.Lemmas.Chr Verif.Lemmas.Dec Chrono
open Verif.Lemmas.Blt Verif.Lemmas.Flt Verif.Lemmas.Wrt

private theorem writes_of {L : Lib} {n r : String} {v : LibVal} {s : Str} (h : libToString L r.toList v = some (.ok s)) :
    Writes L n r v ↔ ∃ x, Literal n s x ∧ Carries v x := by
  unfold Writes
  rw [h]
  constructor
  · rintro ⟨s', x, e, h1, h2⟩
    obtain rfl := Res.ok.inj (Option.some.inj e)
    exact ⟨x, h1, h2⟩
  · rintro ⟨x, h1, h2⟩
    exact ⟨s, x, rfl, h1, h2⟩

theorem show_res {L : Lib} {r : String} {v : LibVal} {o : Res Str} (h : libDisplay L v = some (r, o)) :
    libToString L r.toList v = some o := by
  cases v with
  | int => cases h
  | _ => simp only [libToString, h, Option.bind_some, if_true]

theorem show_of {L : Lib} {r : String} {v : LibVal} {o : Res Str} {s : Str} (h : libDisplay L v = some (r, o))
    (ho : o = .ok s) : libToString L r.toList v = some (.ok s) := by
  rw [show_res h, ho]

theorem name_of {n r : String} (hrow : (n, r) ∈ readmeTable ++ undocumentedTable) {q : String}
    (h : ∀ p ∈ readmeTable ++ undocumentedTable, p.2 = r → p.1 = q) : n = q := h _ hrow rfl

/-! ## Literals by the kind of their values -/

theorem inv_dec {n : String} {s : Str} {q : ℚ} (h : Literal n s (.dec q)) : ∃ sg ds fs, XsdDec s sg ds fs := by
  cases h with
  | dec hx => exact ⟨_, _, _, hx⟩

theorem inv_double {n : String} {s : Str} {x : XFloat} (h : Literal n s (.double x)) : n = "double" ∧ FloatText s x := by
  cases h with
  | double hx => exact ⟨rfl, hx⟩

theorem inv_single {n : String} {s : Str} {x : XFloat} (h : Literal n s (.single x)) : n = "float" ∧ FloatText s x := by
  cases h with
  | float hx => exact ⟨rfl, hx⟩

theorem inv_date {n : String} {s : Str} {y : Int} {m d : Nat} {tz : Option Int} (h : Literal n s (.date y m d tz)) :
    ∃ u t neg, XsdDay neg u y m d ∧ OptTz t tz ∧ s = u ++ t := by
  cases h with
  | date h1 h2 => exact ⟨_, _, _, h1, h2, rfl⟩

theorem inv_time {n : String} {s : Str} {h m : Nat} {q : ℚ} {tz : Option Int} (hl : Literal n s (.time h m q tz)) :
    ∃ u t k fs, XsdTime u h m k fs ∧ OptTz t tz ∧ s = u ++ t ∧ q = secondQ k fs := by
  cases hl with
  | time h1 h2 => exact ⟨_, _, _, _, h1, h2, rfl, rfl⟩

theorem inv_dateTime {n : String} {s : Str} {y : Int} {m d hh mm : Nat} {q : ℚ} {o : Int}
    (hl : Literal n s (.dateTime y m d hh mm q (some o))) : ∃ u r neg v k fs, XsdDay neg u y m d ∧ s = u ++ r ∧
      XsdTime v hh mm k fs ∧ q = secondQ k fs ∧ XsdOffset o := by
  cases hl with
  | @dateTime a u t neg y m d h mi n fs tz h1 h2 h3 =>
    exact ⟨_, ['T'] ++ u ++ t, _, _, _, _, h1, by simp, h2, rfl, optTz_xsd h3⟩
  | @stamp a u t neg y m d h mi n fs tz h1 h2 h3 =>
    exact ⟨_, ['T'] ++ u ++ t, _, _, _, _, h1, by simp, h2, rfl, tzText_xsd h3⟩

theorem inv_duration {n : String} {s : Str} {neg : Bool} {y m d h k : Nat} {q : ℚ}
    (hl : Literal n s (.duration neg y m d h k q)) : 0 ≤ q := by
  cases hl with
  | duration hx => exact secVal_nonneg _

theorem inv_gDay {n : String} {s : Str} {d : Int} {tz : Option Int} (h : Literal n s (.gDay d tz)) :
    1 ≤ d ∧ d ≤ 31 ∧ XsdTz tz := by
  cases h with
  | gDay hx => obtain ⟨k, t, h1, h2, rfl, -, h3⟩ := hx; exact ⟨by omega, by omega, optTz_xsd h3⟩

theorem inv_gMonth {n : String} {s : Str} {d : Int} {tz : Option Int} (h : Literal n s (.gMonth d tz)) :
    1 ≤ d ∧ d ≤ 12 ∧ XsdTz tz := by
  cases h with
  | gMonth hx => obtain ⟨k, t, h1, h2, rfl, -, h3⟩ := hx; exact ⟨by omega, by omega, optTz_xsd h3⟩

theorem inv_gMonthDay {n : String} {s : Str} {m d : Int} {tz : Option Int} (h : Literal n s (.gMonthDay m d tz)) :
    ValidMonthDay m d ∧ XsdTz tz := by
  cases h with
  | gMonthDay hx =>
    obtain ⟨a, b, t, h1, h2, h3, h4, e1, e2, -, h5⟩ := hx
    exact ⟨⟨a, b, e1, e2, h1, h2, h3, h4⟩, optTz_xsd h5⟩

theorem inv_gYear {n : String} {s : Str} {y : Int} {tz : Option Int} (h : Literal n s (.gYear y tz)) : XsdTz tz := by
  cases h with
  | gYear h1 h2 => exact optTz_xsd h2

theorem inv_gYearMonth {n : String} {s : Str} {y m : Int} {tz : Option Int} (h : Literal n s (.gYearMonth y m tz)) :
    1 ≤ m ∧ m ≤ 12 ∧ XsdTz tz := by
  cases h with
  | gYearMonth h1 h2 h3 h4 => exact ⟨by omega, by omega, optTz_xsd h4⟩

/-! ## Texts and whole numbers -/

private theorem writes_text {L : Lib} {n : String} {s : Str} (h : n ∈ textTypes) : Writes L n "String" (.text s) := by
  rw [writes_of (s := s) (show_of rfl rfl)]
  exact ⟨_, .text h, .text⟩

private theorem writes_bool {L : Lib} {b : Bool} : Writes L "boolean" "bool" (.bool b) := by
  rw [writes_of (s := showBool b) (show_of rfl rfl)]
  cases b with
  | true => exact ⟨_, .yes (.inl rfl), .bool⟩
  | false => exact ⟨_, .no (.inl rfl), .bool⟩

private theorem writes_int {L : Lib} {n r : String} {v : Int} {s : Str} {sg : Sign} {lo hi : Option Int}
    (h : libToString L r.toList (.int v) = some (.ok s)) (hx : XsdInt s sg v) (hn : (n, lo, hi) ∈ intTypes) :
    Writes L n r (.int v) ↔ Proper L.expo n (.int v) := by
  have one : ∀ p ∈ intTypes, ∀ p' ∈ intTypes, p.1 = p'.1 → p = p' := by decide
  rw [writes_of h]
  constructor
  · rintro ⟨x, h1, h2⟩
    cases h2
    cases h1 with
    | @int n lo' hi' s sg' v hm hx' hl hh =>
      intro lo hi hm2
      cases one _ hm _ hm2 rfl
      exact ⟨hl, hh⟩
  · intro hp
    exact ⟨_, .int hn hx (hp _ _ hn).1 (hp _ _ hn).2, .int⟩

private theorem writes_dec {L : Lib} {d : Decimal} : Writes L "decimal" "xs::Decimal" (.dec d) ↔ L.expo d.val = false := by
  rw [writes_of (s := d.display L.expo) (show_of rfl rfl)]
  constructor
  · rintro ⟨x, h1, h2⟩
    cases h2
    cases he : L.expo d.val with
    | false => rfl
    | true =>
      exact absurd (inv_dec h1) (C63_exponent_violated L.expo d he)
  · intro he
    obtain ⟨sg, ds, fs, hx, hv⟩ := C63_full_partial L.expo d he
    exact ⟨_, .dec hx, .dec hv.symm⟩

/-! ## Floating point numbers -/

private theorem float_text {sh : ℚ → Str} (hsh : Shows sh) (f : F64) :
    (∃ x, FloatText (showF64 sh f) x ∧ Nearest f x) ↔ ∀ b, f ≠ .inf b := by
  cases f with
  | nan => exact ⟨fun _ b => by simp, fun _ => ⟨_, .nan, .nan⟩⟩
  | inf b =>
    refine ⟨?_, fun h => absurd rfl (h b)⟩
    rintro ⟨x, h1, h2⟩
    cases h2
    generalize hs : showF64 sh (.inf b) = s at h1
    generalize hb : XFloat.inf b = y at h1
    cases h1 with
    | nan => cases hb
    | @inf sg => cases b <;> cases sg <;> exact absurd (show _ = _ from hs) (by show ¬ (_ ++ _ = _); decide)
    | num => cases hb
  | num b m e =>
    refine ⟨fun _ b' => by simp, fun _ => ?_⟩
    have h0 : (0 : ℚ) ≤ m * 10 ^ e := mul_nonneg (Nat.cast_nonneg _) (zpow_nonneg (by norm_num) _)
    obtain ⟨ds, hd, h⟩ := hsh (Ieee.rnd (m * 10 ^ e)) (rnd_nonneg h0) (rnd_idem _)
    have hq : ∀ fs, decQ (decVal (ds ++ fs)) fs.length * 10 ^ (0 : Int) = secondQ (decVal ds) fs := by
      intro fs
      rw [zpow_zero, mul_one, decQ, secondQ, decVal_append]
      have h10 : (10 : ℚ) ^ fs.length ≠ 0 := by positivity
      rw [zpow_neg, zpow_natCast, ← div_eq_mul_inv, Int.cast_natCast, Nat.cast_add, Nat.cast_mul, Nat.cast_pow,
        Nat.cast_ofNat, add_div, mul_div_cancel_right₀ _ h10]
    have hsg : ∃ sg : Sign, (if b = true then ['-'] else []) = sg.text ∧ decide (sg = .minus) = b := by
      cases b with
      | true => exact ⟨.minus, rfl, rfl⟩
      | false => exact ⟨.none, rfl, rfl⟩
    obtain ⟨sg, e1, e2⟩ := hsg
    rw [show showF64 sh (.num b m e) = (if b = true then ['-'] else []) ++ sh (Ieee.rnd (scaled m e)) from rfl, scaled_eq, e1]
    rcases h with ⟨h1, h2⟩ | ⟨fs, hf, h1, h2⟩
    · have := FloatText.num (XsdDec.whole (sg := sg) hd) ExpText.none
      rw [List.append_nil, hq, e2] at this
      rw [h1]
      refine ⟨_, this, .num ?_⟩
      rw [secondQ_nil]; exact h2
    · have := FloatText.num (XsdDec.point (sg := sg) (ds := ds) (fs := fs) hd.2 hf.2 (by simp [hd.1])) ExpText.none
      rw [List.append_nil, hq, e2] at this
      rw [h1]
      exact ⟨_, by simpa using this, .num h2⟩

private theorem writes_double {L : Lib} (hsh : Shows L.sh) {f : F64} :
    Writes L "double" "f64" (.float f) ↔ Proper L.expo "double" (.float f) := by
  rw [writes_of (s := showF64 L.sh f) (show_of rfl rfl)]
  have key : (∃ x, Literal "double" (showF64 L.sh f) x ∧ Carries (.float f) x) ↔ ∀ b, f ≠ .inf b := by
    rw [← float_text hsh f]
    constructor
    · rintro ⟨x, h1, h2⟩
      cases h2 with
      | double h3 => exact ⟨_, (inv_double h1).2, h3⟩
      | single h3 => exact ⟨_, (inv_single h1).2, h3⟩
    · rintro ⟨x, h1, h2⟩
      exact ⟨_, .double h1, .double h2⟩
  rw [key]
  cases f <;> simp [Proper]

private theorem writes_single {L : Lib} (hsh : Shows L.sh) {f : F64} :
    Writes L "float" "f64" (.float f) ↔ Proper L.expo "float" (.float f) := by
  rw [writes_of (s := showF64 L.sh f) (show_of rfl rfl)]
  have key := float_text hsh f
  constructor
  · rintro ⟨x, h1, h2⟩
    cases h2 with
    | double h3 => exact absurd (inv_double h1).1 (by decide)
    | single h3 h4 =>
      have h5 := key.1 ⟨_, (inv_single h1).2, h3⟩
      cases h3 with
      | nan => trivial
      | inf => exact absurd rfl (h5 _)
      | num h6 =>
        intro _
        rw [← h6]
        exact h4 _ _ rfl
  · intro hp
    have : ∀ b, f ≠ .inf b := by rintro b rfl; exact hp
    obtain ⟨x, h1, h2⟩ := key.2 this
    refine ⟨_, .float h1, .single h2 ?_⟩
    intro b q hx
    subst hx
    cases h2 with
    | num h6 =>
      rw [h6]
      exact hp rfl

/-! ## Dates and times -/

private theorem writes_date {L : Lib} {v : NaiveDate} {tz : Option Int} (hv : ValidDate v.year v.month v.day) :
    Writes L "date" "xs::Date" (.date ⟨v, tz⟩) ↔ Proper L.expo "date" (.date ⟨v, tz⟩) := by
  rw [writes_of (s := fmtYmd v ++ showTz tz) (show_of rfl rfl), fmtYmd_eq hv]
  constructor
  · rintro ⟨x, h1, h2⟩
    cases h2
    obtain ⟨u, t, neg, h3, h4, h5⟩ := inv_date h1
    refine ⟨?_, optTz_xsd h4⟩
    by_contra hc
    refine day_head h3 t ?_
    rw [← h5]
    simp only [List.append_assoc]
    exact fmtYear_late (by simpa using hc) _
  · rintro ⟨h1, h2⟩
    exact ⟨_, .date (xsdDay_show h1 hv) (showTz_xsd h2), .date⟩

private theorem writes_time {L : Lib} {v : NaiveTime} {tz : Option Int} (hv : DayTime v) :
    Writes L "time" "xs::Time" (.time ⟨v, tz⟩) ↔ Proper L.expo "time" (.time ⟨v, tz⟩) := by
  have hv' := hv
  obtain ⟨h1, h2, h3, h4⟩ := hv'
  have ht : fmtHms v = two v.hour ++ [':'] ++ two v.minute ++ [':'] ++ two (v.second + v.nano / 1000000000) := by
    rw [fmtHms, fmtPadNat_two (by omega), fmtPadNat_two (by omega), fmtPadNat_two (by omega)]
    simp
  rw [writes_of (s := fmtHms v ++ showTz tz) (show_of rfl rfl), ht]
  obtain ⟨hh, mm, ss, nn⟩ := v
  constructor
  · rintro ⟨x, h5, h6⟩
    cases h6 with
    | time hq =>
    obtain ⟨u, t, k, fs, h7, h8, h9, h10⟩ := inv_time h5
    have hlt := second_lt h7
    rw [← h10, hq] at hlt
    refine ⟨?_, nano_lt hlt, optTz_xsd h8⟩
    obtain ⟨w, -, -, -, hw, hu⟩ := h7
    cases hw with
    | whole =>
      rw [secondQ_nil, hq] at h10
      have e : (nn : ℚ) = ((k : Int) - ss : Int) * 1000000000 := by
        rw [Int.cast_sub, Int.cast_natCast, Int.cast_natCast, ← h10, add_sub_cancel_left]
        norm_num
      have e' : (nn : Int) = ((k : Int) - ss) * 1000000000 := by exact_mod_cast e
      show nn % 1000000000 = 0
      omega
    | fraction hf =>
      exfalso
      rw [hu] at h9
      cases tz with
      | none => simp [two, showTz] at h9
      | some o =>
        obtain ⟨r, hr⟩ := showTz_head o
        rw [hr] at h9
        simp [two] at h9
        have := h9.2.2.1
        split at this <;> exact absurd this (by decide)
  · rintro ⟨h5, h6, h7⟩
    simp only at h5 h6 h7
    refine ⟨_, .time (n := ss + nn / 1000000000) (fs := []) ⟨_, .inl h1, h2, h6, .whole, rfl⟩ (showTz_xsd h7), .time ?_⟩
    rw [secondQ_nil, nano_split nn, h5, Nat.cast_add, Nat.cast_zero, zero_div, add_zero]

private theorem instant_iff {n : String} {x : CDateTime} (hv : ValidDate x.date.year x.date.month x.date.day)
    (ht : DayTime x.time) (hn : n = "dateTime" ∨ n = "dateTimeStamp") :
    (∃ q, Literal n (toRfc3339 x) (.dateTime x.date.year x.date.month x.date.day x.time.hour x.time.minute q (some x.offset)) ∧
      q = x.time.second + (x.time.nano : ℚ) / 10 ^ 9) ↔
    x.date.year ≤ 9999 ∧ x.time.second + x.time.nano / 1000000000 < 60 ∧ XsdOffset x.offset := by
  rw [rfc_eq hv ht]
  constructor
  · rintro ⟨q, h1, h2⟩
    obtain ⟨u, r, neg, v, k, fs, h3, h4, h5, h6, h7⟩ := inv_dateTime h1
    refine ⟨?_, ?_, h7⟩
    · by_contra hc
      refine day_head h3 r ?_
      rw [← h4]
      simp only [List.append_assoc]
      exact fmtYear_late (by simpa using hc) _
    · have := second_lt h5
      rw [← h6, h2] at this
      exact nano_lt this
  · rintro ⟨h1, h2, h3⟩
    obtain ⟨t, fs, h4, rfl, h5⟩ := autoSi_digits (s := x.time.second + x.time.nano / 1000000000)
      (k := x.time.nano % 1000000000) (Nat.mod_lt _ (by decide))
    have hx : XsdTime _ x.time.hour x.time.minute _ fs := ⟨_, .inl ht.1, ht.2.1, h2, h4, rfl⟩
    have hq : secondQ (x.time.second + x.time.nano / 1000000000) fs = x.time.second + (x.time.nano : ℚ) / 10 ^ 9 := by
      rw [secondQ, h5, nano_split x.time.nano, Nat.cast_add, add_assoc]
    rcases hn with rfl | rfl
    · exact ⟨_, .dateTime (xsdDay_show h1 hv) hx (.some (offset_show h3)), hq⟩
    · exact ⟨_, .stamp (xsdDay_show h1 hv) hx (offset_show h3), hq⟩

private theorem writes_dateTime {L : Lib} {x : CDateTime} (hv : ValidDate x.date.year x.date.month x.date.day)
    (ht : DayTime x.time) :
    Writes L "dateTime" "xs::DateTime" (.dateTime ⟨x⟩) ↔ Proper L.expo "dateTime" (.dateTime ⟨x⟩) := by
  rw [writes_of (s := toRfc3339 x) (show_of rfl rfl)]
  show _ ↔ x.date.year ≤ 9999 ∧ x.time.second + x.time.nano / 1000000000 < 60 ∧ XsdOffset x.offset
  rw [← instant_iff hv ht (.inl rfl)]
  obtain ⟨⟨y, m, d⟩, ⟨hh, mm, ss, nn⟩, o⟩ := x
  constructor
  · rintro ⟨x, h1, h2⟩
    cases h2 with
    | dateTime hq => exact ⟨_, h1, hq⟩
  · rintro ⟨q, h1, h2⟩
    exact ⟨_, h1, .dateTime h2⟩

private theorem writes_stamp {L : Lib} {x : CDateTime} (hv : ValidDate x.date.year x.date.month x.date.day)
    (ht : DayTime x.time) :
    Writes L "dateTimeStamp" "xs::DateTimeStamp" (.stamp ⟨⟨x⟩⟩) ↔ Proper L.expo "dateTimeStamp" (.stamp ⟨⟨x⟩⟩) := by
  rw [writes_of (s := toRfc3339 x) (show_of rfl rfl)]
  show _ ↔ x.date.year ≤ 9999 ∧ x.time.second + x.time.nano / 1000000000 < 60 ∧ XsdOffset x.offset
  rw [← instant_iff hv ht (.inr rfl)]
  obtain ⟨⟨y, m, d⟩, ⟨hh, mm, ss, nn⟩, o⟩ := x
  constructor
  · rintro ⟨x, h1, h2⟩
    cases h2 with
    | stamp hq => exact ⟨_, h1, hq⟩
  · rintro ⟨q, h1, h2⟩
    exact ⟨_, h1, .stamp h2⟩

private theorem writes_duration {L : Lib} (hsh : Shows L.sh) {d : Duration ℚ}
    (hr : 0 ≤ d.seconds → Ieee.rnd d.seconds = d.seconds) :
    Writes L "duration" "xs::Duration" (.duration d) ↔ 0 ≤ d.seconds := by
  rw [writes_of (s := d.display (Ieee.ops L.sh)) (show_of rfl rfl)]
  constructor
  · rintro ⟨x, h1, h2⟩
    cases h2 with
    | @duration neg y m d h n s q hq =>
      have h0 := inv_duration h1
      have := (abs_le.1 hq).1
      show 0 ≤ s
      linarith
  · intro h0
    obtain ⟨x, hx, e0, e1, e2, e3, e4, e5, e6⟩ := duration_show hsh h0 (hr h0)
    obtain ⟨neg, y, m, dd, h, n, s⟩ := d
    simp only at e0 e1 e2 e3 e4 e5 e6 hr h0
    refine ⟨_, .duration hx, ?_⟩
    rw [e0, e1, e2, e3, e4, e5]
    refine .duration ?_
    show |s - secVal x.s| ≤ secVal x.s / 2 ^ 50
    have hb := rnd_bound (secVal_nonneg x.s)
    rw [e6] at hb
    have := secVal_nonneg x.s
    refine le_trans hb ?_
    linarith

/-! ## Parts of dates -/

private theorem writes_gDay {L : Lib} {d : Int} {tz : Option Int} :
    Writes L "gDay" "xs::GDay" (.gDay ⟨d, tz⟩) ↔ Proper L.expo "gDay" (.gDay ⟨d, tz⟩) := by
  rw [writes_of (s := GDay.display ⟨d, tz⟩) (show_of rfl rfl)]
  constructor
  · rintro ⟨x, h1, h2⟩
    cases h2
    exact inv_gDay h1
  · rintro ⟨h1, h2, h3⟩
    simp only at h1 h2 h3
    obtain ⟨k, rfl⟩ : ∃ k : Nat, d = k := ⟨d.toNat, by omega⟩
    refine ⟨_, .gDay ⟨k, showTz tz, by omega, by omega, rfl, ?_, showTz_xsd h3⟩, .gDay⟩
    unfold GDay.display
    rw [fmtPad_two (by omega)]

private theorem writes_gMonth {L : Lib} {d : Int} {tz : Option Int} :
    Writes L "gMonth" "xs::GMonth" (.gMonth ⟨d, tz⟩) ↔ Proper L.expo "gMonth" (.gMonth ⟨d, tz⟩) := by
  rw [writes_of (s := GMonth.display ⟨d, tz⟩) (show_of rfl rfl)]
  constructor
  · rintro ⟨x, h1, h2⟩
    cases h2
    exact inv_gMonth h1
  · rintro ⟨h1, h2, h3⟩
    simp only at h1 h2 h3
    obtain ⟨k, rfl⟩ : ∃ k : Nat, d = k := ⟨d.toNat, by omega⟩
    refine ⟨_, .gMonth ⟨k, showTz tz, by omega, by omega, rfl, ?_, showTz_xsd h3⟩, .gMonth⟩
    unfold GMonth.display
    rw [fmtPad_two (by omega)]

private theorem writes_gMonthDay {L : Lib} {m d : Int} {tz : Option Int} :
    Writes L "gMonthDay" "xs::GMonthDay" (.gMonthDay ⟨m, d, tz⟩) ↔ Proper L.expo "gMonthDay" (.gMonthDay ⟨m, d, tz⟩) := by
  rw [writes_of (s := GMonthDay.display ⟨m, d, tz⟩) (show_of rfl rfl)]
  constructor
  · rintro ⟨x, h1, h2⟩
    cases h2
    exact inv_gMonthDay h1
  · rintro ⟨⟨a, b, e1, e2, h1, h2, h3, h4⟩, h5⟩
    simp only at e1 e2 h5
    subst e1 e2
    have := maxDay_le a
    refine ⟨_, .gMonthDay ⟨a, b, showTz tz, h1, h2, h3, h4, rfl, rfl, ?_, showTz_xsd h5⟩, .gMonthDay⟩
    unfold GMonthDay.display
    rw [fmtPad_two (by omega), fmtPad_two (by omega)]
    simp

/-- The text of a year. -/
private theorem year_show (y : Int) : XsdYear (decide (y ≤ 0))
    (if y > 0 then Str.fmtPad 4 y else '-' :: Str.fmtPad 4 (-y)) y := by
  obtain ⟨ds, h1, h2, h3, h4, h5⟩ := year_digits y.natAbs
  have hf : ∀ n : Nat, Str.fmtPad 4 (n : Int) = Str.fmtPadNat 4 n := by
    intro n; unfold Str.fmtPad; rw [if_neg (by omega)]; rfl
  refine ⟨ds, h1, h2, h3, ?_, ?_⟩
  · by_cases h0 : y > 0
    · rw [if_pos h0, decide_eq_false (by omega), ← h4, ← hf, show ((y.natAbs : Nat) : Int) = y by omega]; rfl
    · rw [if_neg h0, decide_eq_true (by omega), ← h4, ← hf, show ((y.natAbs : Nat) : Int) = -y by omega]; rfl
  · rw [h5]
    by_cases h0 : y > 0
    · rw [decide_eq_false (by omega), if_neg (by decide)]; omega
    · rw [decide_eq_true (by omega), if_pos rfl]; omega

private theorem writes_gYear {L : Lib} {y : Int} {tz : Option Int} :
    Writes L "gYear" "xs::GYear" (.gYear ⟨y, tz⟩) ↔ Proper L.expo "gYear" (.gYear ⟨y, tz⟩) := by
  by_cases hy : y = -2147483648
  · subst hy
    refine ⟨?_, fun h => absurd rfl h.1⟩
    rintro ⟨s, x, h, -⟩
    rw [show_res (L := L) (v := .gYear ⟨-2147483648, tz⟩) (r := "xs::GYear") rfl] at h
    have := Option.some.inj h
    unfold GYear.display at this
    rw [if_neg (by simp), if_pos rfl] at this
    cases this
  · have hd : GYear.display ⟨y, tz⟩ = .ok ((if y > 0 then Str.fmtPad 4 y else '-' :: Str.fmtPad 4 (-y)) ++ showTz tz) := by
      unfold GYear.display
      simp only
      split
      · rfl
      · rfl
    rw [writes_of (show_of rfl hd)]
    constructor
    · rintro ⟨x, h1, h2⟩
      cases h2
      exact ⟨hy, inv_gYear h1⟩
    · rintro ⟨h1, h2⟩
      exact ⟨_, .gYear (year_show y) (showTz_xsd h2), .gYear⟩

private theorem writes_gYearMonth {L : Lib} {y m : Int} {tz : Option Int} :
    Writes L "gYearMonth" "xs::GYearMonth" (.gYearMonth ⟨y, m, tz⟩) ↔
      Proper L.expo "gYearMonth" (.gYearMonth ⟨y, m, tz⟩) := by
  by_cases hy : y = -2147483648
  · subst hy
    refine ⟨?_, fun h => absurd rfl h.1⟩
    rintro ⟨s, x, h, -⟩
    rw [show_res (L := L) (v := .gYearMonth ⟨-2147483648, m, tz⟩) (r := "xs::GYearMonth") rfl] at h
    have := Option.some.inj h
    unfold GYearMonth.display at this
    rw [if_neg (by simp), if_pos rfl] at this
    cases this
  · have hd : GYearMonth.display ⟨y, m, tz⟩ =
        .ok ((if y > 0 then Str.fmtPad 4 y else '-' :: Str.fmtPad 4 (-y)) ++ '-' :: Str.fmtPad 2 m ++ showTz tz) := by
      unfold GYearMonth.display
      simp only
      split
      · rfl
      · rfl
    rw [writes_of (show_of rfl hd)]
    constructor
    · rintro ⟨x, h1, h2⟩
      cases h2
      exact ⟨hy, inv_gYearMonth h1⟩
    · rintro ⟨h1, h2, h3, h4⟩
      simp only at h2 h3 h4
      obtain ⟨k, rfl⟩ : ∃ k : Nat, m = k := ⟨m.toNat, by omega⟩
      have := Literal.gYearMonth (year_show y) (m := k) (by omega) (by omega) (showTz_xsd h4)
      rw [fmtPad_two (by omega)]
      exact ⟨_, by simpa using this, .gYearMonth⟩

/-! ## All types -/

private theorem int_row {n r : String} (hrow : (n, r) ∈ readmeTable ++ undocumentedTable)
    (hr : r ∈ intDisplays.map (·.1)) : ∃ lo hi, (n, lo, hi) ∈ intTypes := by
  have key : ∀ p ∈ readmeTable ++ undocumentedTable, p.2 ∈ ["i64", "i32", "i16", "i8", "u64", "u32", "u16", "u8",
      "xs::Integer", "xs::NonNegativeInteger", "xs::PositiveInteger", "xs::NonPositiveInteger", "xs::NegativeInteger"] →
      ∃ q ∈ intTypes, q.1 = p.1 := by decide
  obtain ⟨⟨m, lo, hi⟩, h1, rfl⟩ := key _ hrow hr
  exact ⟨lo, hi, h1⟩

theorem show_int {L : Lib} {r : String} {g : Int → Str} (h : (r, g) ∈ intDisplays) (v : Int) :
    libToString L r.toList (.int v) = some (.ok (g v)) := by
  have : intDisplays.find? (fun p => p.1.toList = r.toList) = some (r, g) := by
    unfold intDisplays at h ⊢
    simp only [List.mem_cons, List.not_mem_nil, or_false] at h
    rcases h with h | h | h | h | h | h | h | h | h | h | h | h | h <;> cases h <;> simp
  simp only [libToString, this, Option.map_some]

private theorem writes_signed {L : Lib} {n r : String} {v : Int} (hrow : (n, r) ∈ readmeTable ++ undocumentedTable)
    (h : (r, Str.intStr) ∈ intDisplays) : Writes L n r (.int v) ↔ Proper L.expo n (.int v) := by
  obtain ⟨lo, hi, hn⟩ := int_row hrow (List.mem_map.2 ⟨_, h, rfl⟩)
  obtain ⟨sg, hx⟩ := Int'.xsdInt_intStr v
  exact writes_int (show_int h v) hx hn

private theorem writes_unsigned {L : Lib} {n r : String} {v : Int} (hrow : (n, r) ∈ readmeTable ++ undocumentedTable)
    (h : (r, fun v : Int => Str.natStr v.toNat) ∈ intDisplays) (hv : 0 ≤ v) :
    Writes L n r (.int v) ↔ Proper L.expo n (.int v) := by
  obtain ⟨lo, hi, hn⟩ := int_row hrow (List.mem_map.2 ⟨_, h, rfl⟩)
  have hx := nat_xsd v.toNat
  rw [Int.toNat_of_nonneg hv] at hx
  exact writes_int (show_int h v) hx hn

/-- **C80** For every type of the table and every value of its Rust type: the value is written, and what is written is a
literal of the built-in type which denotes the value, exactly if the value is `Proper`.  (Partial: no lists; doubles have
no bound on their exponents; `-i32::MIN` panics as in debug builds.) -/
theorem C80_writes_iff_partial (L : Lib) (hsh : Shows L.sh) {n r : String} {v : LibVal}
    (hrow : (n, r) ∈ readmeTable ++ undocumentedTable) (hv : HasType r v) : Writes L n r v ↔ Proper L.expo n v := by
  cases hv with
  | text =>
    have key : ∀ p ∈ readmeTable ++ undocumentedTable, p.2 = "String" → p.1 ∈ textTypes := by decide
    exact ⟨fun _ => trivial, fun _ => writes_text (key _ hrow rfl)⟩
  | bool =>
    obtain rfl := name_of hrow (q := "boolean") (by decide)
    exact ⟨fun _ => trivial, fun _ => writes_bool⟩
  | machine hm h1 h2 =>
    unfold machineInts at hm
    simp only [List.mem_cons, List.not_mem_nil, or_false, Prod.mk.injEq] at hm
    rcases hm with ⟨rfl, rfl, rfl⟩ | ⟨rfl, rfl, rfl⟩ | ⟨rfl, rfl, rfl⟩ | ⟨rfl, rfl, rfl⟩ | ⟨rfl, rfl, rfl⟩ |
      ⟨rfl, rfl, rfl⟩ | ⟨rfl, rfl, rfl⟩ | ⟨rfl, rfl, rfl⟩
    · exact writes_signed hrow (by simp [intDisplays])
    · exact writes_signed hrow (by simp [intDisplays])
    · exact writes_signed hrow (by simp [intDisplays])
    · exact writes_signed hrow (by simp [intDisplays])
    · exact writes_unsigned hrow (by simp [intDisplays]) h1
    · exact writes_unsigned hrow (by simp [intDisplays]) h1
    · exact writes_unsigned hrow (by simp [intDisplays]) h1
    · exact writes_unsigned hrow (by simp [intDisplays]) h1
  | big hr =>
    simp only [List.mem_cons, List.not_mem_nil, or_false] at hr
    rcases hr with rfl | rfl | rfl
    · exact writes_signed hrow (.tail _ (.tail _ (.tail _ (.tail _ (.tail _ (.tail _ (.tail _ (.tail _ (.head _)))))))))
    · exact writes_signed hrow (by
        unfold intDisplays
        iterate 11 apply List.Mem.tail
        exact .head _)
    · exact writes_signed hrow (by
        unfold intDisplays
        iterate 12 apply List.Mem.tail
        exact .head _)
  | nat hr h0 =>
    simp only [List.mem_cons, List.not_mem_nil, or_false] at hr
    rcases hr with rfl | rfl
    · exact writes_unsigned hrow (by
        unfold intDisplays
        iterate 9 apply List.Mem.tail
        exact .head _) h0
    · exact writes_unsigned hrow (by
        unfold intDisplays
        iterate 10 apply List.Mem.tail
        exact .head _) h0
  | float =>
    have key : ∀ p ∈ readmeTable ++ undocumentedTable, p.2 = "f64" → p.1 = "double" ∨ p.1 = "float" := by decide
    rcases key _ hrow rfl with h | h
    · obtain rfl : n = "double" := h
      exact writes_double hsh
    · obtain rfl : n = "float" := h
      exact writes_single hsh
  | dec =>
    obtain rfl := name_of hrow (q := "decimal") (by decide)
    exact writes_dec
  | date hd ht =>
    obtain rfl := name_of hrow (q := "date") (by decide)
    exact writes_date hd
  | time hd ht =>
    obtain rfl := name_of hrow (q := "time") (by decide)
    exact writes_time hd
  | dateTime h1 h2 h3 =>
    obtain rfl := name_of hrow (q := "dateTime") (by decide)
    exact writes_dateTime h1 h2
  | stamp h1 h2 h3 =>
    obtain rfl := name_of hrow (q := "dateTimeStamp") (by decide)
    exact writes_stamp h1 h2
  | duration hr =>
    obtain rfl := name_of hrow (q := "duration") (by decide)
    exact writes_duration hsh hr
  | gDay => obtain rfl := name_of hrow (q := "gDay") (by decide); exact writes_gDay
  | gMonth => obtain rfl := name_of hrow (q := "gMonth") (by decide); exact writes_gMonth
  | gMonthDay => obtain rfl := name_of hrow (q := "gMonthDay") (by decide); exact writes_gMonthDay
  | gYear => obtain rfl := name_of hrow (q := "gYear") (by decide); exact writes_gYear
  | gYearMonth => obtain rfl := name_of hrow (q := "gYearMonth") (by decide); exact writes_gYearMonth

/-- There is a way to write the doubles as required: they are binary fractions, which have finitely many digits. -/
theorem shows_exists : ∃ sh, Shows sh := by
  have key : ∀ q : ℚ, 0 ≤ q → Ieee.rnd q = q → ∃ ds fs, Digits1 ds ∧ Digits1 fs ∧ secondQ (decVal ds) fs = q := by
    intro q _ hr
    obtain ⟨m, e, -, hq⟩ := rnd_digits q
    rw [hr] at hq
    obtain ⟨k, j, hk, hj⟩ : ∃ k j : Nat, 0 < k ∧ e + k = j := ⟨(-e).toNat + 1, (e + ((-e).toNat + 1)).toNat, by omega, by omega⟩
    have h10 : (10 : ℚ) ^ k ≠ 0 := by positivity
    have hN : q = ((m * 2 ^ j * 5 ^ k : Nat) : ℚ) / 10 ^ k := by
      rw [eq_div_iff h10, hq, Nat.cast_mul, Nat.cast_mul, Nat.cast_pow, Nat.cast_pow, Nat.cast_ofNat, Nat.cast_ofNat,
        show (10 : ℚ) = 2 * 5 by norm_num, mul_pow, ← zpow_natCast (2 : ℚ) j, ← hj, zpow_add₀ (by norm_num), zpow_natCast]
      ring
    generalize m * 2 ^ j * 5 ^ k = N at hN
    obtain ⟨ds, h1, -, h2⟩ := natStr_dtext (N / 10 ^ k)
    obtain ⟨fs, h3, -, h4, h5⟩ := fmtPadNat_dtext (w := k) (n := N % 10 ^ k)
    have hl : fs.length = k := by
      have := Str.length_fmtPadNat_of_lt hk (Nat.mod_lt N (Nat.pow_pos (by decide) : 0 < 10 ^ k))
      rw [h4] at this; simpa [dtext] using this
    refine ⟨ds, fs, h1, ⟨by rintro rfl; simp at hl; omega, h3⟩, ?_⟩
    rw [secondQ, h2, h5, hl, hN, eq_div_iff h10, add_mul, div_mul_cancel₀ _ h10]
    exact_mod_cast Nat.div_add_mod' N (10 ^ k)
  classical
  refine ⟨fun q => if h : 0 ≤ q ∧ Ieee.rnd q = q then
    dtext (Classical.choose (key q h.1 h.2)) ++ '.' :: dtext (Classical.choose (Classical.choose_spec (key q h.1 h.2))) else [],
    fun q h0 hr => ?_⟩
  have h := Classical.choose_spec (Classical.choose_spec (key q h0 hr))
  refine ⟨_, h.1, .inr ⟨_, h.2.1, dif_pos ⟨h0, hr⟩, ?_⟩⟩
  rw [h.2.2, hr]

/-- Values of several kinds which are written properly. -/
example (L : Lib) (hsh : Shows L.sh) : Writes L "gYear" "xs::GYear" (.gYear ⟨-44, some 3600⟩) ∧
    Writes L "dateTime" "xs::DateTime" (.dateTime ⟨⟨⟨2024, 2, 29⟩, ⟨23, 59, 58, 1500000000⟩, -19800⟩⟩) ∧
    Writes L "duration" "xs::Duration" (.duration ⟨true, 0, 1, 0, 0, 2, 3 / 2⟩) ∧
    Writes L "unsignedByte" "u8" (.int 255) := by
  refine ⟨(C80_writes_iff_partial L hsh (by decide) (.gYear (by unfold Fits32; decide) ?_)).2 ⟨by decide, ?_⟩,
    (C80_writes_iff_partial L hsh (by decide) (.dateTime ?_ ?_ ?_)).2 ⟨by decide, by decide, ?_⟩,
    (C80_writes_iff_partial L hsh (by decide) (.duration fun _ => by decide +kernel)).2 (by show (0 : ℚ) ≤ 3 / 2; norm_num),
    (C80_writes_iff_partial L hsh (by decide) (.machine (lo := 0) (hi := 255) (by decide) (by decide) (by decide))).2 ?_⟩
  · intro o h; cases h; unfold DayOffset; decide
  · show XsdOffset _; unfold XsdOffset; decide
  · unfold ValidDate LeapYear; decide
  · unfold DayTime; decide
  · unfold DayOffset; decide
  · show XsdOffset _; unfold XsdOffset; decide
  · have key : ∀ p ∈ intTypes, p.1 = "unsignedByte" → p.2 = (some 0, some 255) := by decide
    intro lo hi h
    cases key _ h rfl
    exact ⟨fun b e => by cases e; decide, fun b e => by cases e; decide⟩

/-- **C80, violated**: values which programs can build, or get as the default, and which are not written as literals
denoting them: the default of two integer types, infinity, a date after the year 9999, a time with a fraction of a
second, a leap second, an offset with seconds, negative seconds of a duration, the day zero, and a year whose printing
panics. -/
theorem C80_writes_violated (L : Lib) (hsh : Shows L.sh) :
    ∀ t ∈ [("positiveInteger", "xs::PositiveInteger", LibVal.int PositiveInteger.default.val),
      ("negativeInteger", "xs::NegativeInteger", .int NegativeInteger.default.val), ("double", "f64", .float (.inf false)),
      ("date", "xs::Date", .date ⟨⟨10000, 1, 1⟩, none⟩), ("time", "xs::Time", .time ⟨⟨12, 0, 0, 500000000⟩, none⟩),
      ("dateTime", "xs::DateTime", .dateTime ⟨⟨⟨2016, 12, 31⟩, ⟨23, 59, 59, 1000000000⟩, 0⟩⟩),
      ("dateTime", "xs::DateTime", .dateTime ⟨⟨⟨1900, 1, 1⟩, ⟨0, 0, 0, 0⟩, 1172⟩⟩),
      ("duration", "xs::Duration", .duration ⟨false, 0, 0, 0, 0, 0, -1⟩), ("gDay", "xs::GDay", .gDay ⟨0, none⟩),
      ("gYear", "xs::GYear", .gYear ⟨-2147483648, none⟩)],
      HasType t.2.1 t.2.2 ∧ ¬ Writes L t.1 t.2.1 t.2.2 := by
  have hno : ∀ o : Int, (none : Option Int) = some o → DayOffset o := fun o h => by cases h
  have key : ∀ {n r : String} {v : LibVal}, (n, r) ∈ readmeTable ++ undocumentedTable → HasType r v → ¬ Proper L.expo n v →
      HasType r v ∧ ¬ Writes L n r v := fun h1 h2 h3 => ⟨h2, fun h => h3 ((C80_writes_iff_partial L hsh h1 h2).1 h)⟩
  intro t ht
  simp only [List.mem_cons, List.not_mem_nil, or_false] at ht
  rcases ht with rfl | rfl | rfl | rfl | rfl | rfl | rfl | rfl | rfl | rfl
  · refine key (by decide) (.nat (by decide) (by decide)) fun h => ?_
    exact absurd ((h (some 1) none (by decide)).1 1 rfl) (by decide)
  · refine key (by decide) (.big (by decide)) fun h => ?_
    exact absurd ((h none (some (-1)) (by decide)).2 (-1) rfl) (by decide)
  · exact key (by decide) .float id
  · exact key (by decide) (.date (by unfold ValidDate LeapYear; decide) hno) fun h => absurd h.1 (by decide)
  · exact key (by decide) (.time (by unfold DayTime; decide) hno) fun h => absurd h.1 (by decide)
  · exact key (by decide) (.dateTime (by unfold ValidDate LeapYear; decide) (by unfold DayTime; decide) (by unfold DayOffset; decide))
      fun h => absurd h.2.1 (by decide)
  · exact key (by decide) (.dateTime (by unfold ValidDate LeapYear; decide) (by unfold DayTime; decide) (by unfold DayOffset; decide))
      fun h => absurd h.2.2.1 (by decide)
  · exact key (by decide) (.duration fun h => absurd h (by show ¬ (0 : ℚ) ≤ -1; norm_num))
      fun h => absurd h (by show ¬ (0 : ℚ) ≤ -1; norm_num)
  · exact key (by decide) (.gDay (by unfold Fits32; decide) hno) fun h => absurd h.1 (by decide)
  · exact key (by decide) (.gYear (by unfold Fits32; decide) hno) fun h => absurd rfl h.1

/-- **C80** Printing never fails otherwise: every value of a Rust type is written, or it is a year beyond the range
of `-y` and the program panics. -/
theorem C80_total (L : Lib) {r : String} {v : LibVal} (hv : HasType r v) :
    (∃ s, libToString L r.toList v = some (.ok s)) ∨
    (libToString L r.toList v = some .panic ∧
      ((∃ tz, v = .gYear ⟨-2147483648, tz⟩) ∨ ∃ m tz, v = .gYearMonth ⟨-2147483648, m, tz⟩)) := by
  cases hv with
  | machine hm =>
    unfold machineInts at hm
    simp only [List.mem_cons, List.not_mem_nil, or_false, Prod.mk.injEq] at hm
    rcases hm with ⟨rfl, rfl, rfl⟩ | ⟨rfl, rfl, rfl⟩ | ⟨rfl, rfl, rfl⟩ | ⟨rfl, rfl, rfl⟩ | ⟨rfl, rfl, rfl⟩ |
      ⟨rfl, rfl, rfl⟩ | ⟨rfl, rfl, rfl⟩ | ⟨rfl, rfl, rfl⟩ <;>
      exact .inl ⟨_, show_int (by unfold intDisplays; simp only [List.mem_cons, Prod.mk.injEq]; simp; rfl) _⟩
  | big hr =>
    simp only [List.mem_cons, List.not_mem_nil, or_false] at hr
    rcases hr with rfl | rfl | rfl <;>
      exact .inl ⟨_, show_int (by unfold intDisplays; simp only [List.mem_cons, Prod.mk.injEq]; simp; rfl) _⟩
  | nat hr =>
    simp only [List.mem_cons, List.not_mem_nil, or_false] at hr
    rcases hr with rfl | rfl <;>
      exact .inl ⟨_, show_int (by unfold intDisplays; simp only [List.mem_cons, Prod.mk.injEq]; simp; rfl) _⟩
  | @gYear y tz h =>
    by_cases hy : y = -2147483648
    · subst hy
      refine .inr ⟨?_, .inl ⟨tz, rfl⟩⟩
      rw [show_res (L := L) (v := .gYear ⟨-2147483648, tz⟩) (r := "xs::GYear") rfl]
      unfold GYear.display
      rw [if_neg (by simp), if_pos rfl]
    · refine .inl ?_
      rw [show_res (L := L) (v := .gYear ⟨y, tz⟩) (r := "xs::GYear") rfl]
      unfold GYear.display
      split
      · exact ⟨_, rfl⟩
      · exact ⟨_, rfl⟩
  | @gYearMonth y m tz h =>
    by_cases hy : y = -2147483648
    · subst hy
      refine .inr ⟨?_, .inr ⟨m, tz, rfl⟩⟩
      rw [show_res (L := L) (v := .gYearMonth ⟨-2147483648, m, tz⟩) (r := "xs::GYearMonth") rfl]
      unfold GYearMonth.display
      rw [if_neg (by simp), if_pos rfl]
    · refine .inl ?_
      rw [show_res (L := L) (v := .gYearMonth ⟨y, m, tz⟩) (r := "xs::GYearMonth") rfl]
      unfold GYearMonth.display
      split
      · exact ⟨_, rfl⟩
      · exact ⟨_, rfl⟩
  | _ => exact .inl ⟨_, show_res rfl⟩

end Verif.Props
