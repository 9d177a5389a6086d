import Verif.Props.Prints

/-! # C82: what is written is read back -/

namespace Verif.Props

open Verif Verif.Model Verif.Spec Verif.Lemmas Verif.Lemmas.Blt Verif.Lemmas.Wrt Verif.Lemmas.Val Verif.Lemmas.Prt Verif.Props.Sample
open RoXml Chrono

private theorem not_lost {lo : Int} {n : String} {s : Str} {x : XVal}
    (h : n ∉ ["boolean", "nonNegativeInteger", "unsignedLong", "unsignedInt", "unsignedShort", "unsignedByte", "float", "date",
      "time", "dateTime", "dateTimeStamp", "gYear", "gYearMonth"]) : ¬ Lost lo n s x := fun hl => h (lost_none hl)

private theorem natStr_head (n : Nat) : (Str.natStr n).head? ≠ some '-' := by
  obtain ⟨ds, h1, h2, -⟩ := Dur.natStr_dtext n
  rw [h2]
  cases ds with
  | nil => exact absurd rfl h1.1
  | cons d ds =>
    intro e
    exact digit_ne_of (h1.2 d List.mem_cons_self) (by decide) (Option.some.inj e)

/-- The integer types lose nothing of what they write. -/
private theorem int_kept {L : Lib} {lo v : Int} {n r : String} {s : Str} (hrow : (n, r) ∈ readmeTable ++ undocumentedTable)
    (hs : libToString L r.toList (.int v) = some (.ok s)) (hl : Literal n s (.int v)) : ¬ Lost lo n s (.int v) := by
  intro h
  have hn : n ∈ ["nonNegativeInteger", "unsignedLong", "unsignedInt", "unsignedShort", "unsignedByte"] ∧ s.head? = some '-' := by
    refine (lost_int ?_).1 h
    cases hl with
    | int h =>
      have : ∀ p ∈ intTypes, p.1 ∈ ["integer", "nonNegativeInteger", "positiveInteger", "nonPositiveInteger", "negativeInteger",
        "long", "int", "short", "byte", "unsignedLong", "unsignedInt", "unsignedShort", "unsignedByte"] := by decide
      exact this _ h
  have key : ∀ p ∈ readmeTable ++ undocumentedTable,
      p.1 ∈ ["nonNegativeInteger", "unsignedLong", "unsignedInt", "unsignedShort", "unsignedByte"] →
      p.2 ∈ ["u64", "u32", "u16", "u8", "xs::NonNegativeInteger"] := by decide
  have hr := key _ hrow hn.1
  have hd : (r, fun v : Int => Str.natStr v.toNat) ∈ intDisplays := by
    simp only [List.mem_cons, List.not_mem_nil, or_false] at hr
    unfold intDisplays
    rcases hr with rfl | rfl | rfl | rfl | rfl
    · simp
    · simp
    · simp
    · simp
    · iterate 9 apply List.Mem.tail
      exact .head _
  rw [show_int hd] at hs
  cases hs
  exact natStr_head _ hn.2

private theorem year_head {y : Int} (h : y ≤ 9999) (t : Str) : (fmtYear y ++ t).head? = some '-' ↔ y < 0 := by
  obtain ⟨ds, h1, h2, h3, h4, h5⟩ := year_digits y.natAbs
  unfold fmtYear
  by_cases h0 : y < 0
  · rw [if_neg (by omega), if_pos h0]; simp [h0]
  · rw [if_pos (by omega), h4]
    refine iff_of_false ?_ h0
    cases ds with
    | nil => simp at h2
    | cons d ds => intro e; exact digit_ne_of (h1 d List.mem_cons_self) (by decide) (Option.some.inj e)

private theorem two_dot {n : Nat} (h : n < 100) : '.' ∉ two n := by
  intro hm
  simp only [two, List.mem_cons, List.not_mem_nil, or_false] at hm
  rcases hm with e | e
  · exact digit_ne_of (c := '.') (by omega : n / 10 < 10) (by decide) e.symm
  · exact digit_ne_of (c := '.') (by omega : n % 10 < 10) (by decide) e.symm

private theorem tz_dot {t : Str} {tz : Option Int} (h : OptTz t tz) : '.' ∉ t := by
  cases h with
  | none => simp
  | some h =>
    cases h with
    | zulu => decide
    | east h m h1 h2 =>
      simp only [List.mem_cons, List.mem_append, not_or]
      exact ⟨by decide, two_dot (by omega), by decide, two_dot (by omega)⟩
    | west h m h1 h2 =>
      simp only [List.mem_cons, List.mem_append, not_or]
      exact ⟨by decide, two_dot (by omega), by decide, two_dot (by omega)⟩

/-- Signs in the timezones written. -/
private theorem tz_signs {tz : Option Int} (h : XsdTz tz) :
    ('Z' ∉ showTz tz ∧ '+' ∉ showTz tz) ↔ ¬ ∃ o, tz = some o ∧ 0 ≤ o := by
  cases tz with
  | none => simp [showTz]
  | some o =>
    by_cases ho : 0 ≤ o
    · obtain ⟨u, hu⟩ := Chr.showTz_head o
      rw [hu, if_neg (by omega)]
      simp [ho]
    · have ht := showTz_xsd h
      refine iff_of_true ?_ (by rintro ⟨_, e, h⟩; cases e; exact ho h)
      generalize showTz (some o) = t at ht
      have hd : ∀ {n : Nat} {c : Char}, n < 100 → Str.isAsciiDigit c = false → c ∉ two n := by
        intro n c hn hc hm
        simp only [two, List.mem_cons, List.not_mem_nil, or_false] at hm
        rcases hm with e | e
        · exact digit_ne_of (c := c) (by omega : n / 10 < 10) hc e.symm
        · exact digit_ne_of (c := c) (by omega : n % 10 < 10) hc e.symm
      cases ht with
      | some ht =>
        cases ht with
        | zulu => exact absurd (le_refl _) ho
        | east h m => exact absurd (by positivity) ho
        | west h m h1 h2 =>
          simp only [List.mem_cons, List.mem_append, not_or]
          exact ⟨⟨by decide, hd (by omega) (by decide), by decide, hd (by omega) (by decide)⟩,
            ⟨by decide, hd (by omega) (by decide), by decide, hd (by omega) (by decide)⟩⟩

private theorem instant_lost {y o : Int} {m d hh mm ss nn : Nat} {q : ℚ} (h1 : ValidDate y m d)
    (h2 : DayTime ⟨hh, mm, ss, nn⟩) (h4 : y ≤ 9999) (hq : q = ss + (nn : ℚ) / 10 ^ 9) :
    ¬ DtLost (toRfc3339 ⟨⟨y, m, d⟩, ⟨hh, mm, ss, nn⟩, o⟩) y hh q ↔ 0 ≤ y := by
  rw [rfc_eq (x := ⟨⟨y, m, d⟩, ⟨hh, mm, ss, nn⟩, o⟩) h1 h2, DtLost]
  simp only [List.append_assoc]
  rw [year_head h4]
  have h10 : (10 : ℚ) ^ 9 ≠ 0 := by norm_num
  have hk : ¬ ∀ k : Nat, q * 10 ^ 9 ≠ k := by
    intro h
    refine h (ss * 10 ^ 9 + nn) ?_
    rw [hq, add_mul, div_mul_cancel₀ _ h10]
    norm_num
  have h24 : hh ≠ 24 := by have := h2.1; simp only at this; omega
  constructor
  · intro h; by_contra hc; exact h (.inl (by omega))
  · rintro h (h' | h' | h' | h')
    · omega
    · omega
    · exact h24 h'
    · exact hk h'

/-- What is written for a value is lost exactly if the value is not in `Returns`. -/
theorem lost_written {L : Lib} (hsh : Shows L.sh) {lo : Int} {n r : String} {v : LibVal} {s : Str} {x : XVal}
    (hrow : (n, r) ∈ readmeTable ++ undocumentedTable) (hv : HasType r v) (hs : libToString L r.toList v = some (.ok s))
    (hl : Literal n s x) (hc : Carries v x) : ¬ Lost lo n s x ↔ Returns lo v := by
  have hpr : Proper L.expo n v := (C80_writes_iff_partial L hsh hrow hv).1 ⟨s, x, hs, hl, hc⟩
  cases hv with
  | text =>
    have key : ∀ p ∈ readmeTable ++ undocumentedTable, p.2 = "String" → p.1 ∉ ["boolean", "nonNegativeInteger",
      "unsignedLong", "unsignedInt", "unsignedShort", "unsignedByte", "float", "date",
      "time", "dateTime", "dateTimeStamp", "gYear", "gYearMonth"] := by decide
    exact iff_of_true (not_lost (key _ hrow rfl)) trivial
  | @bool b =>
    obtain rfl := name_of hrow (q := "boolean") (by decide)
    rw [show_of (o := .ok (showBool b)) rfl rfl] at hs
    cases hs
    refine iff_of_true (fun h => ?_) trivial
    have := lost_bool.1 h
    cases b <;> exact absurd this (by decide)
  | machine => cases hc; exact iff_of_true (int_kept hrow hs hl) trivial
  | big => cases hc; exact iff_of_true (int_kept hrow hs hl) trivial
  | nat => cases hc; exact iff_of_true (int_kept hrow hs hl) trivial
  | float =>
    have key : ∀ p ∈ readmeTable ++ undocumentedTable, p.2 = "f64" → p.1 = "double" ∨ p.1 = "float" := by decide
    refine iff_of_true (fun h => ?_) trivial
    rcases key _ hrow rfl with e | e
    · obtain rfl : n = "double" := e
      exact not_lost (by decide) h
    · obtain rfl : n = "float" := e
      cases hc with
      | double => exact absurd (inv_double hl).1 (by decide)
      | single _ hq =>
        obtain ⟨b, q, hx, h⟩ := lost_float.1 h
        exact h (hq b q hx)
  | dec =>
    obtain rfl := name_of hrow (q := "decimal") (by decide)
    exact iff_of_true (not_lost (by decide)) trivial
  | @date v tz hd ht =>
    obtain rfl := name_of hrow (q := "date") (by decide)
    cases hc with
    | @date y m d tz =>
    obtain ⟨hy, htz⟩ := hpr
    simp only at hy htz hd
    rw [show_of (o := .ok (fmtYmd ⟨y, m, d⟩ ++ showTz tz)) rfl rfl] at hs
    cases hs
    have hx := xsdDay_show hy hd
    rw [← fmtYmd_eq (v := ⟨y, m, d⟩) hd] at hx
    obtain ⟨hz, hp, -⟩ := day_chars hx
    rw [lost_date, Returns, List.mem_append, List.mem_append]
    have e1 : (fmtYmd ⟨y, m, d⟩ ++ showTz tz).head? = some '-' ↔ y < 0 := by
      rw [fmtYmd_eq (v := ⟨y, m, d⟩) hd]
      simp only [List.append_assoc]
      exact year_head hy _
    have e2 := tz_signs htz
    rw [e1]
    simp only [hz, hp, false_or]
    rw [e2]
    constructor
    · intro h
      by_contra hc
      apply h
      by_cases hlo : y < lo
      · exact .inl hlo
      · right; right
        rw [not_and_or, not_or] at hc
        rcases hc with hc | hc
        · omega
        · exact ⟨by omega, hc.2⟩
    · rintro ⟨h1, h2⟩ (h | h | ⟨h3, h4⟩)
      · omega
      · omega
      · rcases h2 with h2 | h2
        · omega
        · exact h4 h2
  | @time v tz hd ht =>
    obtain rfl := name_of hrow (q := "time") (by decide)
    refine iff_of_true ?_ trivial
    cases hc with
    | @time hh mm ss nn tz q hq =>
    obtain ⟨h5, h6, h7⟩ := hpr
    simp only at h5 h6 h7
    obtain ⟨h1, h2, h3, h4⟩ := hd
    simp only at h1 h2 h3 h4
    rw [show_of (o := .ok (fmtHms ⟨hh, mm, ss, nn⟩ ++ showTz tz)) rfl rfl] at hs
    cases hs
    rw [lost_time]
    rintro (h | h)
    · rw [fmtHms, fmtPadNat_two (by simp only; omega), fmtPadNat_two (by simp only; omega),
        fmtPadNat_two (by simp only; omega)] at h
      simp only [List.mem_append, List.mem_cons] at h
      rcases h with (h | h | h | h | h) | h
      · exact two_dot (by omega) h
      · exact absurd h (by decide)
      · exact two_dot (by omega) h
      · exact absurd h (by decide)
      · exact two_dot (by omega) h
      · exact tz_dot (showTz_xsd h7) h
    · omega
  | @dateTime v h1 h2 h3 =>
    obtain rfl := name_of hrow (q := "dateTime") (by decide)
    cases hc with
    | @dateTime y o m d hh mm ss nn q hq =>
    obtain ⟨h4, h5, h6⟩ := hpr
    simp only at h1 h2 h3 h4
    rw [show_of (o := .ok (toRfc3339 ⟨⟨y, m, d⟩, ⟨hh, mm, ss, nn⟩, o⟩)) rfl rfl] at hs
    cases hs
    rw [lost_dt (.inl rfl), or_iff_right (by simp)]
    exact instant_lost h1 h2 h4 hq
  | @stamp v h1 h2 h3 =>
    obtain rfl := name_of hrow (q := "dateTimeStamp") (by decide)
    cases hc with
    | @stamp y o m d hh mm ss nn q hq =>
    obtain ⟨h4, h5, h6⟩ := hpr
    simp only at h1 h2 h3 h4
    rw [show_of (o := .ok (toRfc3339 ⟨⟨y, m, d⟩, ⟨hh, mm, ss, nn⟩, o⟩)) rfl rfl] at hs
    cases hs
    rw [lost_dt (.inr rfl), or_iff_right (by simp)]
    exact instant_lost h1 h2 h4 hq
  | duration =>
    obtain rfl := name_of hrow (q := "duration") (by decide)
    exact iff_of_true (not_lost (by decide)) trivial
  | gDay => obtain rfl := name_of hrow (q := "gDay") (by decide); exact iff_of_true (not_lost (by decide)) trivial
  | gMonth => obtain rfl := name_of hrow (q := "gMonth") (by decide); exact iff_of_true (not_lost (by decide)) trivial
  | gMonthDay => obtain rfl := name_of hrow (q := "gMonthDay") (by decide); exact iff_of_true (not_lost (by decide)) trivial
  | @gYear y tz hf ht =>
    obtain rfl := name_of hrow (q := "gYear") (by decide)
    cases hc
    rw [lost_gYear, Returns]
    obtain ⟨h1, -⟩ := hpr
    obtain ⟨h2, h3⟩ := hf
    simp only at h1
    have : ¬ (2147483647 : Int) < |y| := by rw [not_lt, abs_le]; omega
    tauto
  | @gYearMonth y m tz hf hm ht =>
    obtain rfl := name_of hrow (q := "gYearMonth") (by decide)
    cases hc
    rw [lost_gYearMonth, Returns]
    obtain ⟨h1, -⟩ := hpr
    obtain ⟨h2, h3⟩ := hf
    simp only at h1
    have : ¬ (2147483647 : Int) < |y| := by rw [not_lt, abs_le]; omega
    tauto

/-- **C82** For every type of the table and every value of its Rust type which is written properly (C80): what is written
is read back as the same value exactly if the value is in `Returns`.  (Partial: texts with more than 2^63 fraction digits,
or with numbers beyond 64 bits in durations, are left out.) -/
theorem C82_back_iff_partial (L : Lib) (hsh : Shows L.sh) {n r : String} {v : LibVal}
    (hrow : (n, r) ∈ readmeTable ++ undocumentedTable) (hv : HasType r v) (hp : Proper L.expo n v)
    (hh : ∀ s, libToString L r.toList v = some (.ok s) → ¬ Huge n s) : ReadsBack L n r v ↔ Returns L.years.lo v := by
  have hlist : n ∉ ["ENTITIES", "IDREFS", "NMTOKENS"] := by
    intro h
    have k2 : ∀ p ∈ readmeTable ++ undocumentedTable, p.1 ∈ listTypes → p.2 = "Vec<String>" := by decide +kernel
    obtain rfl : r = "Vec<String>" := k2 _ hrow h
    exact absurd (hasType_reserved hv) (by decide)
  constructor
  · rintro ⟨s, f, w, x, h1, h2, h3, h4, h5, h6⟩
    refine (lost_written hsh hrow hv h1 h4 h5).1 ?_
    exact (C78_reads_iff_partial L hrow h4 hlist (hh s h1)).1 ⟨f, w, h2, h3, h6⟩
  · intro hr
    obtain ⟨s, x, h1, h4, h5⟩ := (C80_writes_iff_partial L hsh hrow hv).2 hp
    obtain ⟨f, w, h2, h3, h6⟩ := (C78_reads_iff_partial L hrow h4 hlist (hh s h1)).2
      ((lost_written hsh hrow hv h1 h4 h5).2 hr)
    exact ⟨s, f, w, x, h1, h2, h3, h4, h5, h6⟩

/-- Values which are read back. -/
def Returning (L : Lib) (n : String) (v : LibVal) : Prop :=
  Proper L.expo n v ∧ Returns L.years.lo v ∧ ∀ r s, libToString L r v = some (.ok s) → ¬ Huge n s

/-- **C82** A value of a simple type of the schema, built from library values which are read back, is written by the
generated type as a text which the generated type reads as the same value of the schema; also where it is the field of a
wrapper.  Partial as C81. -/
theorem C82_returns_partial (U : UnicodeTable) (root : Node) (uri t : Str) (hg : Grammatical root) (hs : CopySafe root)
    (h : convertXsd U root = .ok t) (is : List Item) (hi : HasItems t is) (hp : PlainNames root uri)
    (hun : Unshadowed U root is) (L : Lib) (hsh : Shows L.sh) (W : Str → RVal → Str) (hW : Prints W L is)
    (R : Str → Str → Res RVal) (hR : Implements R L is) {ref : Str} {v : RVal} :
    (ValueIn U root uri (Returning L) .alone ref v → ∃ w x, R ((naming U root).type ref) (W ((naming U root).type ref) v) = .ok w ∧
      ValueOf U root uri Literal ref (W ((naming U root).type ref) v) x ∧ Represents v x ∧ Represents w x) ∧
    (ValueIn U root uri (Returning L) .field ref v → ∃ s x, FieldWrites W ((naming U root).type ref) v s ∧
      FieldReads R ((naming U root).type ref) s x ∧ ValueOf U root uri Literal ref s x ∧ Represents v x) := by
  have core : ∀ {ref : Str} {v : RVal} {pl : Spot}, ValueIn U root uri (Returning L) pl ref v →
      ∃ s x, WrittenAs W ((naming U root).type ref) v s pl ∧ ValueOf U root uri (Kept L) ref s x ∧ Represents v x ∧
      (OneWord v → Word s) := by
    intro ref v pl hv
    refine writes_core U root uri t hg hs h is hi hp hun L W hW ?_ ?_ hv
    · rintro n r v hrow ht ⟨h1, h2, h3⟩
      obtain ⟨s, x, k1, k2, k3⟩ := (C80_writes_iff_partial L hsh hrow ht).2 h1
      exact ⟨s, x, k1, k2, ⟨k2, h3 _ _ k1, (lost_written hsh hrow ht k1 k2 k3).2 h2⟩, k3⟩
    · intro n hn s x hl
      have hno : n ∉ ["boolean", "nonNegativeInteger", "unsignedLong", "unsignedInt", "unsignedShort", "unsignedByte", "float",
          "date", "time", "dateTime", "dateTimeStamp", "gYear", "gYearMonth"] ∧ n ≠ "decimal" ∧ n ≠ "duration" := by
        have : ∀ n ∈ textTypes ++ listTypes, n ∉ ["boolean", "nonNegativeInteger", "unsignedLong", "unsignedInt",
          "unsignedShort", "unsignedByte", "float",
          "date", "time", "dateTime", "dateTimeStamp", "gYear", "gYearMonth"] ∧ n ≠ "decimal" ∧ n ≠ "duration" := by decide
        exact this n (List.mem_append.2 hn)
      refine ⟨hl, ?_, not_lost hno.1⟩
      rintro (⟨h, -⟩ | ⟨h, -⟩)
      · exact hno.2.1 h
      · exact hno.2.2 h
  have mono : ∀ {ref s : Str} {x : XVal}, ValueOf U root uri (Kept L) ref s x → ValueOf U root uri Literal ref s x := by
    intro ref s x hv
    induction hv with
    | builtin hd hk => exact .builtin hd hk.1
    | restriction hd hc htag hb hf he _ ih => exact .restriction hd hc htag hb hf he ih
    | list hd hc htag hit hk hl hw hlen _ ih => exact .list hd hc htag hit hk hl hw hlen ih
  constructor
  · intro hv
    obtain ⟨s, x, h1, h2, h3, -⟩ := core hv
    obtain rfl : W _ v = s := h1
    have hnl : ∀ n ∈ listTypes, ¬ DenotesXsd root n ref := by
      intro n hn hd
      have key : ∀ n ∈ listTypes, (n, "Vec<String>") ∈ readmeTable ++ undocumentedTable := by decide +kernel
      have hty := builtin_type (U := U) hp (key n hn) hd
      have own : ∀ {c : Node} {nm : Str}, Denotes root uri nm ref → c ∈ globals root → c.attr "name".toList = some nm → False := by
        intro c nm hd hc hnm
        obtain ⟨e, hpl⟩ := own_type (U := U) hp hd (hp.names c hc nm hnm)
        rw [hty] at e
        exact hpl '<' (e ▸ by decide) (by decide)
      cases hv with
      | lib hd' hrow ht _ =>
        have e := (builtin_type (U := U) hp hrow hd').symm.trans hty
        exact absurd (hasType_reserved ht) (by rw [String.toList_injective e]; decide)
      | restriction hd' hc => exact own hd' hc.1 hc.2.2.1
      | list hd' hc => exact own hd' hc.1 hc.2.2.1
    obtain ⟨w, h4, h5⟩ := (C79_reads_partial U root uri t hg hs h is hi hp hun L R hR h2).2 hnl
    exact ⟨w, x, h4, mono h2, h3, h5⟩
  · intro hv
    obtain ⟨s, x, h1, h2, h3, -⟩ := core hv
    exact ⟨s, x, h1, (C79_reads_partial U root uri t hg hs h is hi hp hun L R hR h2).1, mono h2, h3⟩

/-! ## Examples -/

theorem no_huge {n : String} {s : Str} (h : n ≠ "decimal" ∧ n ≠ "duration") : ¬ Huge n s := by
  rintro (⟨e, -⟩ | ⟨e, -⟩)
  · exact h.1 e
  · exact h.2 e

private theorem no_offset : ∀ o : Int, (none : Option Int) = some o → DayOffset o := fun _ h => by cases h
private theorem no_tz : XsdTz none := trivial

/-- A leap day is read back. -/
example (L : Lib) (hsh : Shows L.sh) (hlo : L.years.lo ≤ 2024) : ReadsBack L "date" "xs::Date" (.date ⟨⟨2024, 2, 29⟩, none⟩) :=
  (C82_back_iff_partial L hsh (by decide) (.date (by unfold ValidDate LeapYear; decide) no_offset) ⟨by decide, no_tz⟩
    (fun _ _ => no_huge (by decide))).2 ⟨hlo, .inl (by decide)⟩

/-- **C82** (finding) Values which are written as literals denoting them, and not read back. -/
theorem C82_back_violated (L : Lib) (hsh : Shows L.sh) :
    ∀ t ∈ [("date", "xs::Date", LibVal.date ⟨⟨-1, 1, 1⟩, none⟩),
      ("dateTime", "xs::DateTime", .dateTime ⟨⟨⟨-1, 1, 1⟩, ⟨0, 0, 0, 0⟩, 0⟩⟩),
      ("dateTimeStamp", "xs::DateTimeStamp", .stamp ⟨⟨⟨⟨-1, 1, 1⟩, ⟨0, 0, 0, 0⟩, 0⟩⟩⟩),
      ("gYear", "xs::GYear", .gYear ⟨0, none⟩), ("gYearMonth", "xs::GYearMonth", .gYearMonth ⟨0, 1, none⟩)],
      HasType t.2.1 t.2.2 ∧ Writes L t.1 t.2.1 t.2.2 ∧ ¬ ReadsBack L t.1 t.2.1 t.2.2 := by
  have key : ∀ {n r : String} {v : LibVal}, (n, r) ∈ readmeTable ++ undocumentedTable → n ≠ "decimal" ∧ n ≠ "duration" →
      HasType r v → Proper L.expo n v → ¬ Returns L.years.lo v → HasType r v ∧ Writes L n r v ∧ ¬ ReadsBack L n r v :=
    fun h1 hn h2 h3 h4 => ⟨h2, (C80_writes_iff_partial L hsh h1 h2).2 h3,
      fun h => h4 ((C82_back_iff_partial L hsh h1 h2 h3 fun _ _ => no_huge hn).1 h)⟩
  intro t ht
  simp only [List.mem_cons, List.not_mem_nil, or_false] at ht
  rcases ht with rfl | rfl | rfl | rfl | rfl
  · refine key (by decide) (by decide) (.date (by unfold ValidDate LeapYear; decide) no_offset) ⟨by decide, no_tz⟩ ?_
    rintro ⟨-, h | ⟨o, h, -⟩⟩
    · exact absurd h (by decide)
    · cases h
  · exact key (by decide) (by decide) (.dateTime (by unfold ValidDate LeapYear; decide) (by unfold DayTime; decide)
      (by unfold DayOffset; decide)) ⟨by decide, by decide, by unfold XsdOffset; decide⟩ (by show ¬ (0 : Int) ≤ -1; decide)
  · exact key (by decide) (by decide) (.stamp (by unfold ValidDate LeapYear; decide) (by unfold DayTime; decide)
      (by unfold DayOffset; decide)) ⟨by decide, by decide, by unfold XsdOffset; decide⟩ (by show ¬ (0 : Int) ≤ -1; decide)
  · exact key (by decide) (by decide) (.gYear (by unfold Fits32; decide) no_offset) ⟨by decide, no_tz⟩ (fun h => h rfl)
  · exact key (by decide) (by decide) (.gYearMonth (by unfold Fits32; decide) (by unfold Fits32; decide) no_offset)
      ⟨by decide, by decide, by decide, no_tz⟩ (fun h => h rfl)

private def day : Node := el "restriction" [("base", "xs:date")] []
private def days : Node := doc [el "simpleType" [("name", "Day")] [day]]

private def daysText : Str := okText (convertXsd A days)
private def daysItems : List Item := readItems [] [] (Gen.lns daysText)

private theorem days_has : HasItems daysText daysItems := ⟨_, Gen.lines_lns _, rfl⟩
private theorem days_ok : convertXsd A days = .ok daysText := okText_eq (by decide +kernel)
private theorem days_grammatical : Grammatical days := grammatical_of rfl (by decide +kernel)
private theorem days_copySafe : CopySafe days :=
  copySafe_of (by decide +kernel) (by decide +kernel) (by decide +kernel) (by decide +kernel) (by decide +kernel)

private def daysUri : Str := "http://example.com/a".toList

private theorem days_plain : PlainNames days daysUri where
  prefixes := by unfold UniquePrefixes; decide +kernel
  uris := by decide +kernel
  xsd := ⟨⟨some "xs".toList, Model.xsdUri⟩, List.mem_cons_self, rfl, by simp⟩
  target := by decide
  names := by
    have : ∀ c ∈ globals days, ∀ nm ∈ (c.attr "name".toList).toList, ':' ∉ nm := by decide +kernel
    exact fun c hc nm h => this c hc nm (Option.mem_toList.2 h)

private theorem days_unshadowed : Unshadowed A days daysItems where
  declared := by
    have : ∀ c ∈ globals days, ∀ nm ∈ (c.attr "name".toList).toList,
        (naming A days).type nm ∉ reservedNames.map String.toList := by decide +kernel
    exact fun c hc nm h => this c hc nm (Option.mem_toList.2 h)
  items := by
    have : ∀ w ∈ reservedNames, ∀ i ∈ daysItems, ¬ (DefinesType i w.toList ∨ readHead i.head = some (.type, w.toList)) := by
      decide +kernel
    rintro w hw ⟨i, hi, -, h⟩
    exact this w hw i hi h

private theorem days_tuples : ∀ i ∈ daysItems, i.path = [] → "UtilsTupleIo".toList ∈ i.attrs.flatMap derived →
    readTuple i.head = some ("Day".toList, "xs::Date".toList) := by decide +kernel

private theorem date_path : PathOf "xs::Date".toList (.mk ["xs".toList] "Date".toList none) := 
  ⟨by unfold PlainPath; decide, by decide⟩

private def shown (L : Lib) (ty : Str) : RVal → Str
  | .lib v => match libToString L ty v with
    | some (.ok s) => s
    | _ => []
  | .one v => shown L "xs::Date".toList v
  | _ => []

private theorem shown_lib (L : Lib) {ty s : Str} {v : LibVal} (h : libToString L ty v = some (.ok s)) :
    shown L ty (.lib v) = s := by
  show (match libToString L ty v with
    | some (.ok s) => s
    | _ => []) = s
  rw [h]

private theorem shown_one (L : Lib) {ty : Str} {v : RVal} : shown L ty (.one v) = shown L "xs::Date".toList v := rfl

private def readDay (L : Lib) (ty s : Str) : Res RVal :=
  match libFromStr L ty with
  | some f => (f s).map .lib
  | none => match libFromStr L "xs::Date".toList with
    | some f => ((f s).map .lib).map .one
    | none => .err

private theorem shown_prints (L : Lib) : Prints (shown L) L daysItems where
  lib ty v s h _ := shown_lib L h
  tuple i hi h1 h2 n ty ht p f hp hf v s hv := by
    have h := days_tuples i hi h1 h2
    rw [ht] at h
    simp only [Option.some.injEq, Prod.mk.injEq] at h
    obtain ⟨rfl, rfl⟩ := h
    obtain rfl := pathText_injective hp.1 date_path.1 (hp.2.trans date_path.2.symm)
    cases Res.ok.inj hf
    cases v with
    | one v => rw [RVal.ofTup, shown_one]; exact Option.some.inj hv
    | _ => cases hv

private theorem readDay_implements (L : Lib) : Implements (readDay L) L daysItems where
  lib ty f hf _ s := by unfold readDay; rw [hf]
  tuple i hi h1 h2 n ty ht p f hp hf s := by
    have h := days_tuples i hi h1 h2
    rw [ht] at h
    simp only [Option.some.injEq, Prod.mk.injEq] at h
    obtain ⟨rfl, rfl⟩ := h
    obtain rfl := pathText_injective hp.1 date_path.1 (hp.2.trans date_path.2.symm)
    cases Res.ok.inj (hf.symm.trans (show tupleFromStr _ _ = .ok fun s => (readDay L "xs::Date".toList s).bind fun v => .ok (.one v) from rfl))
    obtain ⟨f, hf⟩ := lib_found L (r := "xs::Date") (by decide) (by decide) (by decide)
    unfold readDay
    rw [not_lib L (n := "Day") (by decide), hf]
    dsimp only
    cases f s <;> rfl

private theorem den_date : DenotesXsd days "date" "xs:date".toList :=
  ⟨⟨some "xs".toList, Model.xsdUri⟩, List.mem_cons_self, rfl, .prefixed (p := "xs".toList) (n := "date".toList) (by decide)⟩
private theorem den_day : Denotes days daysUri "Day".toList "tns:Day".toList :=
  ⟨by rfl, ⟨some "tns".toList, daysUri⟩, List.mem_cons_of_mem _ List.mem_cons_self, rfl,
    .prefixed (p := "tns".toList) (n := "Day".toList) (by decide)⟩
private theorem day_decl : SimpleDecl days (el "simpleType" [("name", "Day")] [day]) "Day".toList day :=
  ⟨List.mem_cons_self, rfl, by decide +kernel, rfl⟩

private theorem day_in {P : String → LibVal → Prop} {d : Date} (h1 : HasType "xs::Date" (.date d)) (h2 : P "date" (.date d)) :
    ValueIn A days daysUri P .alone "tns:Day".toList (.one (.lib (.date d))) :=
  .restriction den_day day_decl rfl (b := "xs:date".toList) (by decide +kernel) .nil (.inl rfl)
    (.one (.lib den_date (rust := "xs::Date") (by decide) h1 h2) (by simp))

/-- The hypotheses of the theorem are met by this document and a leap day. -/
example (L : Lib) (hsh : Shows L.sh) (hlo : L.years.lo ≤ 2024) : ∃ w x,
    readDay L "Day".toList (shown L "Day".toList (.one (.lib (.date ⟨⟨2024, 2, 29⟩, none⟩)))) = .ok w ∧
    Represents (.one (.lib (.date ⟨⟨2024, 2, 29⟩, none⟩))) x ∧ Represents w x := by
  obtain ⟨w, x, h1, -, h3, h4⟩ := (C82_returns_partial A days daysUri daysText days_grammatical days_copySafe days_ok daysItems days_has
    days_plain days_unshadowed L hsh (shown L) (shown_prints L) (readDay L) (readDay_implements L)).1
    (day_in (d := ⟨⟨2024, 2, 29⟩, none⟩) (.date (by unfold ValidDate LeapYear; decide) no_offset)
      ⟨⟨by decide, no_tz⟩, ⟨hlo, .inl (by decide)⟩, fun _ _ _ => no_huge (by decide)⟩)
  exact ⟨w, x, h1, h3, h4⟩

end Verif.Props
