import Verif.Lemmas.Rfc3339

/-! # C19–C24: Date, Time, DateTime, DateTimeStamp

`yr` is the (arbitrary) range of years chrono supports; it contains 0..9999. -/

namespace Verif.Props

open Verif Verif.Model Verif.Spec Verif.Lemmas Verif.Lemmas.Chr Verif.Lemmas.Dur Chrono

/-! ## C20 Date parsing -/

/-- **C20** Exactly which texts `Date::from_str` accepts and with which value, for every string. -/
theorem C20_accepts_iff (yr : YearRange) (s : Str) (x : NaiveDate) (tz : Option Int) :
    Date.fromStr yr s = .ok ⟨x, tz⟩ ↔
      yr.lo ≤ x.year ∧ x.year ≤ yr.hi ∧ ValidDate x.year x.month x.day ∧
      ∃ sg b t, s = b ++ t ∧ DateBody sg b x.year x.month x.day ∧ OptTz t tz ∧ SignOk sg t :=
  date_fromStr_iff

example : Date.fromStr .chrono "-0044-03-15Z".toList = .ok ⟨⟨-44, 3, 15⟩, some 0⟩ := by decide

/-- **C20** Every XSD date with a four-digit year is accepted with exactly its value. -/
theorem C20_complete (yr : YearRange) (s : Str) (y m d : Nat) (tz : Option Int)
    (h : XsdDateText s y m d tz) : Date.fromStr yr s = .ok ⟨⟨y, m, d⟩, tz⟩ := by
  obtain ⟨t, hy, hv, ht, rfl⟩ := h
  obtain ⟨hm, hd⟩ := validDate_lt hv
  have := yr.lo_le; have := yr.le_hi
  refine (C20_accepts_iff _ _ _ _).2 ⟨(by omega : yr.lo ≤ (y : Int)), (by omega : (y : Int) ≤ yr.hi), hv, .none,
    four y ++ ['-'] ++ two m ++ ['-'] ++ two d, t, rfl, ?_, ht, trivial⟩
  obtain ⟨ds, hl, h1, h2, h3⟩ := four_dtext hy
  refine ⟨[], four y, [], _, [], _, spaces_nil, ?_, spaces_nil, digits12_two hm, spaces_nil, digits12_two hd,
    (two_dtext hm).2.2.symm, (two_dtext hd).2.2.symm, by simp [two, dtext]⟩
  rw [h2, ← h3]
  exact .none ds ⟨by rintro rfl; simp at hl, h1⟩ (by omega)

example : XsdDateText "2024-02-29+02:00".toList 2024 2 29 (some 7200) :=
  ⟨"+02:00".toList, by decide, by unfold ValidDate LeapYear; decide, .some (.east 2 0 (by decide) (by decide)), rfl⟩

/-- **C20** An accepted text never denotes an invalid calendar date or a timezone outside XSD. -/
theorem C20_sound (yr : YearRange) (s : Str) (x : NaiveDate) (tz : Option Int)
    (h : Date.fromStr yr s = .ok ⟨x, tz⟩) : ValidDate x.year x.month x.day ∧ XsdTz tz := by
  obtain ⟨-, -, hv, sg, b, t, -, -, ht, -⟩ := date_fromStr_iff.1 h
  exact ⟨hv, optTz_xsd ht⟩

example : Date.fromStr .chrono "2023-02-29".toList = .err := by decide

/-- **C20** No string makes it panic. -/
theorem C20_no_panic (yr : YearRange) (s : Str) : Date.fromStr yr s ≠ .panic := date_no_panic yr s

/-- **C20** (limit) An XSD date whose year has more than four digits is refused, whatever follows. -/
theorem C20_long_year_refused (yr : YearRange) (ds : List Nat) (r : Str) (hd : Digits ds) (hl : 4 < ds.length) :
    Date.fromStr yr (dtext ds ++ r) = .err := by
  cases hres : Date.fromStr yr (dtext ds ++ r) with
  | err => rfl
  | panic => exact absurd hres (date_no_panic _ _)
  | ok g =>
    exfalso
    obtain ⟨⟨yy, mm, dd⟩, tz⟩ := g
    obtain ⟨-, -, -, sg, b, t, e, hb, ht, hs⟩ := date_fromStr_iff.1 hres
    dsimp only at hb
    obtain ⟨w1, yt, w2, ms, w3, ds', hw1, hyt, hw2, hms, hw3, hds, -, -, rfl⟩ := hb
    -- the text starts with a digit, so no leading space and an unsigned year
    obtain ⟨a, ds0, ha, rfl⟩ := digits1_head (ds := ds) ⟨by rintro rfl; simp at hl, hd⟩
    have e0 := congrArg List.head? e
    cases w1 with
    | cons c w =>
      simp only [dtext, List.map_cons, List.cons_append, List.head?_cons, Option.some.injEq] at e0
      exact digit_not_space ha (e0 ▸ hw1 c (by simp))
    | nil =>
      cases hyt with
      | none ds1 h1 h2 =>
        -- five digits against at most four digits and a dash
        have e' : dtext (a :: ds0) ++ r = dtext ds1 ++ '-' :: (w2 ++ dtext ms ++ ['-'] ++ w3 ++ dtext ds' ++ t) := by
          rw [e]; simp
        have e1 := congrArg (fun l => l[ds1.length]?) e'
        rw [List.getElem?_append_left (by simp [dtext] at hl ⊢; omega),
          List.getElem?_append_right (by simp [dtext])] at e1
        simp only [dtext, List.length_map, Nat.sub_self, List.getElem?_cons_zero] at e1
        have hm := List.mem_of_getElem? e1
        obtain ⟨n, hn, hn'⟩ := List.mem_map.1 hm
        exact digit_ne_of (hd n hn) (by decide) hn'
      | plus ds1 h1 =>
        simp only [dtext, List.map_cons, List.cons_append, List.nil_append, List.head?_cons, Option.some.injEq] at e0
        exact digit_ne_of ha (by decide) e0
      | minus ds1 h1 =>
        simp only [dtext, List.map_cons, List.cons_append, List.nil_append, List.head?_cons, Option.some.injEq] at e0
        exact digit_ne_of ha (by decide) e0

example : Digits [1, 2, 0, 2, 4] ∧ 4 < [1, 2, 0, 2, 4].length ∧
    Date.fromStr .chrono "12024-01-01".toList = .err := by unfold Digits; decide

/-- **C20** (finding) Texts outside the XSD lexical space are accepted too. -/
theorem C20_lenient :
    Date.fromStr .chrono " 2024- 1-1Z".toList = .ok ⟨⟨2024, 1, 1⟩, some 0⟩ ∧
    Date.fromStr .chrono "5-01-01".toList = .ok ⟨⟨5, 1, 1⟩, none⟩ := by decide

/-! ## C19 Date round trip -/

/-- **C19** Display then parse gives the date back exactly when the timezone is an XSD one and the
year is in 0..9999, or negative with an offset that is not west of UTC. Quantified over every date and
offset chrono can represent. -/
theorem C19_roundtrip_iff (yr : YearRange) (x : NaiveDate) (tz : Option Int)
    (hy : yr.lo ≤ x.year ∧ x.year ≤ yr.hi) (hv : ValidDate x.year x.month x.day)
    (hr : ∀ o, tz = some o → -86400 < o ∧ o < 86400) :
    Date.fromStr yr (Date.toStr ⟨x, tz⟩) = .ok ⟨x, tz⟩ ↔
      XsdTz tz ∧ ((0 ≤ x.year ∧ x.year ≤ 9999) ∨ (x.year < 0 ∧ ∃ o, tz = some o ∧ 0 ≤ o)) :=
  date_roundtrip_iff hy hv hr

example : (YearRange.chrono.lo ≤ (-44 : Int) ∧ (-44 : Int) ≤ YearRange.chrono.hi) ∧ ValidDate (-44) 3 15 := by
  unfold ValidDate LeapYear; decide

/-- **C19** The claim as stated: four-digit years. -/
theorem C19_roundtrip (yr : YearRange) (x : NaiveDate) (tz : Option Int)
    (hy : 0 ≤ x.year ∧ x.year ≤ 9999) (hv : ValidDate x.year x.month x.day) (ht : XsdTz tz) :
    Date.fromStr yr (Date.toStr ⟨x, tz⟩) = .ok ⟨x, tz⟩ := by
  have := yr.lo_le; have := yr.le_hi
  refine (C19_roundtrip_iff yr x tz (by omega) hv ?_).2 ⟨ht, Or.inl hy⟩
  rintro o rfl
  have := ht.2
  omega

example : (0 ≤ (2024 : Int) ∧ (2024 : Int) ≤ 9999) ∧ ValidDate 2024 2 29 ∧ XsdTz (some (-19800)) := by
  unfold ValidDate LeapYear XsdTz XsdOffset; decide

/-- **C19** (violation) A negative year without timezone and a five-digit year are printed as texts the
parser refuses. -/
theorem C19_violated :
    Date.toStr ⟨⟨-44, 3, 15⟩, none⟩ = "-0044-03-15".toList ∧
    Date.fromStr .chrono "-0044-03-15".toList = .err ∧
    Date.toStr ⟨⟨12024, 1, 1⟩, none⟩ = "+12024-01-01".toList ∧
    Date.fromStr .chrono "+12024-01-01".toList = .err := by decide

/-- **C19** The default value is displayed and read back. -/
theorem C19_default (yr : YearRange) :
    Date.default yr = .ok ⟨⟨1, 1, 1⟩, none⟩ ∧
    Date.fromStr yr (Date.toStr ⟨⟨1, 1, 1⟩, none⟩) = .ok ⟨⟨1, 1, 1⟩, none⟩ := by
  have hv : ValidDate 1 1 1 := by unfold ValidDate LeapYear; decide
  have := yr.lo_le; have := yr.le_hi
  refine ⟨?_, C19_roundtrip yr ⟨1, 1, 1⟩ none ⟨by decide, by decide⟩ hv trivial⟩
  unfold Date.default
  rw [fromYmdOpt_iff.2 ⟨by omega, by omega, hv, rfl⟩]
  rfl

/-- **C19** Conversion from a chrono date: no timezone is invented on the way to text and back, and the
conversion back to chrono is its inverse. -/
theorem C19_chrono_conversion (yr : YearRange) (x : NaiveDate) (hy : 0 ≤ x.year ∧ x.year ≤ 9999)
    (hv : ValidDate x.year x.month x.day) :
    (Date.fromChrono x).toChrono = x ∧ Date.toStr (Date.fromChrono x) = fmtYmd x ∧
    Date.fromStr yr (fmtYmd x) = .ok (Date.fromChrono x) := by
  have h := C19_roundtrip yr x none hy hv trivial
  rw [Date.toStr, showTz, List.append_nil] at h
  exact ⟨rfl, List.append_nil _, h⟩

/-! ## C21 Time -/

/-- **C21** Exactly which texts `Time::from_str` accepts and with which value, for every string. -/
theorem C21_accepts_iff (s : Str) (x : NaiveTime) (tz : Option Int) :
    Time.fromStr s = .ok ⟨x, tz⟩ ↔
      ∃ h m sec b t, s = b ++ t ∧ TimeBody b h m sec ∧ h < 24 ∧ m < 60 ∧ sec ≤ 60 ∧
        x = ⟨h, m, min sec 59, if sec = 60 then 1000000000 else 0⟩ ∧ OptTz t tz := time_fromStr_iff

example : Time.fromStr "23:59:60-05:30".toList = .ok ⟨⟨23, 59, 59, 1000000000⟩, some (-19800)⟩ := by decide

/-- **C21** Every `hh:mm:ss` text with optional XSD timezone is accepted with its value. -/
theorem C21_complete_whole (h m sec : Nat) (t : Str) (tz : Option Int) (h1 : h < 24) (h2 : m < 60) (h3 : sec < 60)
    (ht : OptTz t tz) :
    Time.fromStr (two h ++ [':'] ++ two m ++ [':'] ++ two sec ++ t) = .ok ⟨⟨h, m, sec, 0⟩, tz⟩ := by
  refine (C21_accepts_iff _ _ _).2 ⟨h, m, sec, two h ++ [':'] ++ two m ++ [':'] ++ two sec, t, rfl, ?_, h1, h2,
    by omega, ?_, ht⟩
  · have e1 : h < 100 := by omega
    have e2 : m < 100 := by omega
    have e3 : sec < 100 := by omega
    exact ⟨[], _, [], _, [], _, spaces_nil, digits12_two e1, spaces_nil, digits12_two e2, spaces_nil,
      digits12_two e3, (two_dtext e1).2.2.symm, (two_dtext e2).2.2.symm, (two_dtext e3).2.2.symm, by simp [two, dtext]⟩
  · have : min sec 59 = sec := by omega
    have h4 : ¬ sec = 60 := by omega
    simp [this, h4]

example : OptTz "Z".toList (some 0) ∧ (23 : Nat) < 24 := ⟨.some .zulu, by decide⟩

/-- **C21** Display then parse: the value comes back except for the fraction of the second. -/
theorem C21_display_parse (x : NaiveTime) (tz : Option Int) (h1 : x.hour < 24) (h2 : x.minute < 60)
    (h3 : x.second < 60) (h4 : x.nano < 2000000000) (h5 : 1000000000 ≤ x.nano → x.second = 59)
    (hx : XsdTz tz) :
    Time.fromStr (Time.toStr ⟨x, tz⟩) =
      .ok ⟨{ x with nano := if 1000000000 ≤ x.nano then 1000000000 else 0 }, tz⟩ :=
  time_display_parse h1 h2 h3 h4 h5 hx

/-- **C21** The round trip is exact iff there is no fraction and the timezone is an XSD one. -/
theorem C21_roundtrip_iff (x : NaiveTime) (tz : Option Int) (h1 : x.hour < 24) (h2 : x.minute < 60)
    (h3 : x.second < 60) (h4 : x.nano < 2000000000) (h5 : 1000000000 ≤ x.nano → x.second = 59) :
    Time.fromStr (Time.toStr ⟨x, tz⟩) = .ok ⟨x, tz⟩ ↔ XsdTz tz ∧ (x.nano = 0 ∨ x.nano = 1000000000) := by
  constructor
  · intro h
    have hx := time_parse_xsdTz h
    refine ⟨hx, ?_⟩
    rw [time_display_parse h1 h2 h3 h4 h5 hx] at h
    simp only [Res.ok.injEq, Time.mk.injEq, and_true] at h
    have := congrArg NaiveTime.nano h
    simp only at this
    split at this <;> omega
  · rintro ⟨hx, hn⟩
    rw [time_display_parse h1 h2 h3 h4 h5 hx]
    obtain ⟨hh, mm, ss, nn⟩ := x
    rcases hn with hn | hn <;> simp only at hn <;> subst hn <;> simp

example : (23 : Nat) < 24 ∧ (59 : Nat) < 60 ∧ XsdTz (some 3600) ∧
    Time.toStr ⟨⟨23, 59, 59, 1000000000⟩, some 3600⟩ = "23:59:60+01:00".toList := by
  unfold XsdTz XsdOffset; decide

/-- **C21** Conversion from a chrono time, for whole seconds; and the default is midnight without timezone. -/
theorem C21_chrono_conversion (x : NaiveTime) (h1 : x.hour < 24) (h2 : x.minute < 60)
    (h3 : x.second < 60) (h4 : x.nano = 0) :
    (Time.fromChrono x).toChrono = x ∧ Time.toStr (Time.fromChrono x) = fmtHms x ∧
    Time.fromStr (fmtHms x) = .ok (Time.fromChrono x) ∧
    Time.fromStr "00:00:00".toList = .ok Time.default := by
  have h := (C21_roundtrip_iff x none h1 h2 h3 (by omega) (by omega)).2 ⟨trivial, Or.inl h4⟩
  rw [Time.toStr, showTz, List.append_nil] at h
  exact ⟨rfl, List.append_nil _, h, by decide⟩

example : (⟨12, 30, 5, 0⟩ : NaiveTime).hour < 24 ∧ Time.fromStr (fmtHms ⟨12, 30, 5, 0⟩) = .ok ⟨⟨12, 30, 5, 0⟩, none⟩ := by
  decide

/-- **C21** (violation) Fractional seconds and the end-of-day time, both legal in XSD, are refused; a
fraction is lost on output. -/
theorem C21_violated :
    Time.fromStr "12:00:00.5".toList = .err ∧ Time.fromStr "24:00:00".toList = .err ∧
    Time.toStr ⟨⟨12, 0, 0, 500000000⟩, none⟩ = "12:00:00".toList := by decide

/-- **C21** (violation, general form) No text containing a dot is ever accepted, whatever the value. -/
theorem C21_fraction_refused (s : Str) (h : '.' ∈ s) : Time.fromStr s = .err := by
  cases hres : Time.fromStr s with
  | err => rfl
  | panic => exact absurd hres (time_no_panic _)
  | ok g =>
    exfalso
    obtain ⟨x, tz⟩ := g
    obtain ⟨hh, m, sec, b, t, rfl, hb, -, -, -, -, ht⟩ := time_fromStr_iff.1 hres
    obtain ⟨w1, hs, w2, ms, w3, ds, hw1, hhs, hw2, hms, hw3, hds, -, -, -, rfl⟩ := hb
    have sp : ∀ {w}, Spaces w → '.' ∉ w := fun hw hm => not_space_of (by decide) (hw _ hm)
    have dg : ∀ {ds}, Digits ds → '.' ∉ dtext ds := fun hd hm => by
      obtain ⟨n, hn, e⟩ := List.mem_map.1 hm
      exact digit_ne_of (hd n hn) (by decide) e
    have tw : ∀ {n}, n < 100 → '.' ∉ two n := fun hn => by
      rw [(two_dtext hn).1]; exact dg (two_dtext hn).2.1
    have htz : '.' ∉ t := by
      cases ht with
      | none => simp
      | some ht =>
        cases ht with
        | zulu => decide
        | east th m h1 h2 =>
          have := tw (n := th) (by omega); have := tw (n := m) (by omega)
          simp [*]
        | west th m h1 h2 =>
          have := tw (n := th) (by omega); have := tw (n := m) (by omega)
          simp [*]
    have := dg hhs.1; have := dg hms.1; have := dg hds.1
    have := sp hw1; have := sp hw2; have := sp hw3
    simp [*] at h

example : '.' ∈ "12:00:00.5Z".toList := by decide

/-- **C21** No string makes it panic. -/
theorem C21_no_panic (s : Str) : Time.fromStr s ≠ .panic := time_no_panic s

/-! ## C22 DateTime parsing -/

/-- Value denoted by the components: second 60 is chrono's leap second. -/
def dtValue (y m d hh mm ss nano : Nat) (o : Int) : CDateTime :=
  ⟨⟨y, m, d⟩, ⟨hh, mm, min ss 59, if ss = 60 then nano + 1000000000 else nano⟩, o⟩

/-- **C22** Exactly which texts `DateTime::from_str` accepts and with which value, for every string:
without timezone designator the offset is UTC, otherwise it is the given one. -/
theorem C22_accepts_iff (yr : YearRange) (s : Str) (x : CDateTime) :
    DateTime.fromStr yr s = .ok ⟨x⟩ ↔ ∃ b t sep y m d hh mm ss nano o, s = b ++ t ∧ SepOk sep ∧
      DateTimeBody b sep y m d hh mm ss nano ∧ DtTz t o ∧ x = dtValue y m d hh mm ss nano o :=
  datetime_fromStr_iff

/-- **C22** Missing timezone means UTC. -/
theorem C22_missing_is_utc (yr : YearRange) (b : Str) (y m d hh mm ss nano : Nat)
    (h : DateTimeBody b 'T' y m d hh mm ss nano) :
    DateTime.fromStr yr b = .ok ⟨dtValue y m d hh mm ss nano 0⟩ :=
  (C22_accepts_iff _ _ _).2 ⟨b, [], 'T', y, m, d, hh, mm, ss, nano, 0, by simp, Or.inl rfl, h, .none, rfl⟩

/-- **C22** A given XSD timezone is kept. -/
theorem C22_keeps_offset (yr : YearRange) (b t : Str) (y m d hh mm ss nano : Nat) (o : Int)
    (h : DateTimeBody b 'T' y m d hh mm ss nano) (ht : TzText t o) :
    DateTime.fromStr yr (b ++ t) = .ok ⟨dtValue y m d hh mm ss nano o⟩ := by
  refine (C22_accepts_iff _ _ _).2 ⟨b, t, 'T', y, m, d, hh, mm, ss, nano, o, rfl, Or.inl rfl, h, ?_, rfl⟩
  cases ht with
  | zulu => exact .zulu
  | east h m h1 h2 =>
    have := DtTz.off (Or.inl rfl) (.east h m (by omega) h1)
    simpa using this
  | west h m h1 h2 =>
    have := DtTz.off (Or.inr rfl) (.west '-' h m (Or.inl rfl) (by omega) h1)
    simpa using this

example : DateTimeBody "2024-02-29T23:59:01.25".toList 'T' 2024 2 29 23 59 1 250000000 ∧ TzText "-05:30".toList (-19800) :=
  ⟨⟨".25".toList, by decide, by unfold ValidDate LeapYear; decide, by decide, by decide, by decide,
    FracText.some [2, 5] ⟨by decide, by unfold Digits; decide⟩, rfl⟩, TzText.west 5 30 (by decide) (by decide)⟩

/-- **C22** (limits) XSD texts that are refused: end-of-day `24:00:00`, years of five digits, negative
years. Non-XSD texts that are accepted: space separator, second 60, offsets beyond 14:00. -/
theorem C22_limits :
    DateTime.fromStr .chrono "2024-01-01T24:00:00".toList = .err ∧
    DateTime.fromStr .chrono "12024-01-01T00:00:00Z".toList = .err ∧
    DateTime.fromStr .chrono "-0044-01-01T00:00:00Z".toList = .err ∧
    DateTime.fromStr .chrono "2024-01-01 00:00:60+23:59".toList =
      .ok ⟨⟨⟨2024, 1, 1⟩, ⟨0, 0, 59, 1000000000⟩, 86340⟩⟩ := by decide

/-- **C22** Precision below a nanosecond is dropped: digits after the ninth are ignored. -/
theorem C22_nano_truncates (a b : List Nat) (h : a.length = 9) : nanoOf (a ++ b) = decVal a := nanoOf_long h

example : nanoOf ([1, 2, 3, 4, 5, 6, 7, 8, 9] ++ [9, 9]) = 123456789 := by decide

/-! ## C23 DateTime round trip -/

/-- Values a chrono `DateTime<FixedOffset>` can take. -/
def ChronoValue (x : CDateTime) : Prop :=
  ValidDate x.date.year x.date.month x.date.day ∧ x.time.hour < 24 ∧ x.time.minute < 60 ∧
  x.time.second < 60 ∧ x.time.nano < 2000000000 ∧ (1000000000 ≤ x.time.nano → x.time.second = 59) ∧
  -86400 < x.offset ∧ x.offset < 86400

/-- **C23** Display then parse gives back the local time, nanoseconds and offset exactly when the year
is in 0..9999 and the offset is a whole number of minutes. -/
theorem C23_roundtrip_iff (yr : YearRange) (x : CDateTime) (hx : ChronoValue x) :
    DateTime.fromStr yr (DateTime.toStr ⟨x⟩) = .ok ⟨x⟩ ↔
      (0 ≤ x.date.year ∧ x.date.year ≤ 9999) ∧ x.offset % 60 = 0 := datetime_roundtrip_iff hx

/-- **C23** The same for `DateTimeStamp`. -/
theorem C23_stamp_roundtrip_iff (yr : YearRange) (x : CDateTime) (hx : ChronoValue x) :
    DateTimeStamp.fromStr yr (DateTimeStamp.toStr ⟨⟨x⟩⟩) = .ok ⟨⟨x⟩⟩ ↔
      (0 ≤ x.date.year ∧ x.date.year ≤ 9999) ∧ x.offset % 60 = 0 := stamp_roundtrip_iff hx

example : ChronoValue ⟨⟨2024, 2, 29⟩, ⟨23, 59, 59, 1500000000⟩, -86340⟩ := by
  unfold ChronoValue ValidDate LeapYear; decide

/-- **C23** (outside the claim) Five-digit years and offsets with seconds do not come back. -/
theorem C23_outside :
    DateTime.toStr ⟨⟨⟨10000, 1, 1⟩, ⟨0, 0, 0, 0⟩, 0⟩⟩ = "+10000-01-01T00:00:00+00:00".toList ∧
    DateTime.fromStr .chrono "+10000-01-01T00:00:00+00:00".toList = .err ∧
    DateTime.toStr ⟨⟨⟨2024, 1, 1⟩, ⟨0, 0, 0, 0⟩, 86399⟩⟩ = "2024-01-01T00:00:00+24:00".toList ∧
    DateTime.fromStr .chrono "2024-01-01T00:00:00+24:00".toList = .err := by decide

/-- **C23** The offset is written as the nearest whole minute, thirty seconds away from UTC, with its sign. -/
theorem C23_offset_rounded (x : DateTime) (ho : x.value.offset.natAbs < 86400) : ∃ b h m,
    x.toStr = b ++ (if x.value.offset < 0 then '-' else '+') :: (two h ++ ':' :: two m) ∧ m < 60 ∧
    60 * (60 * h + m) ≤ x.value.offset.natAbs + 30 ∧ x.value.offset.natAbs + 30 < 60 * (60 * h + m) + 60 := by
  obtain ⟨v⟩ := x
  have e : ∃ b, toRfc3339 v = b ++ fmtOffsetMinutes v.offset := by
    unfold toRfc3339
    refine ⟨fmtYear v.date.year ++ '-' :: (Str.fmtPadNat 2 v.date.month ++ '-' :: (Str.fmtPadNat 2 v.date.day ++
      'T' :: (Str.fmtPadNat 2 v.time.hour ++ ':' :: (Str.fmtPadNat 2 v.time.minute ++ ':' :: (Str.fmtPadNat 2
        (if v.time.nano ≥ 1000000000 then v.time.second + 1 else v.time.second) ++
          fmtAutoSi (if v.time.nano ≥ 1000000000 then v.time.nano - 1000000000 else v.time.nano)))))), ?_⟩
    simp only [List.append_assoc, List.cons_append]
  obtain ⟨b, e⟩ := e
  have ho : v.offset.natAbs < 86400 := ho
  refine ⟨b, (v.offset.natAbs + 30) / 60 / 60, (v.offset.natAbs + 30) / 60 % 60, ?_, by omega, ?_, ?_⟩
  · show toRfc3339 v = _
    rw [e]
    unfold fmtOffsetMinutes
    simp only []
    rw [fmtPadNat_two (by omega), fmtPadNat_two (by omega)]
  · show _ ≤ v.offset.natAbs + 30
    omega
  · show v.offset.natAbs + 30 < _
    omega

example : (DateTime.mk ⟨⟨2000, 1, 1⟩, ⟨0, 0, 0, 0⟩, -3630⟩).toStr = "2000-01-01T00:00:00-01:01".toList ∧
    (DateTime.mk ⟨⟨2000, 1, 1⟩, ⟨0, 0, 0, 0⟩, 3629⟩).toStr = "2000-01-01T00:00:00+01:00".toList := by decide

/-- **C23** The default value exists and is displayed and read back. -/
theorem C23_default (yr : YearRange) :
    DateTime.default yr = .ok ⟨⟨⟨1, 1, 1⟩, ⟨0, 0, 0, 0⟩, 0⟩⟩ ∧
    DateTime.fromStr yr (DateTime.toStr ⟨⟨⟨1, 1, 1⟩, ⟨0, 0, 0, 0⟩, 0⟩⟩) = .ok ⟨⟨⟨1, 1, 1⟩, ⟨0, 0, 0, 0⟩, 0⟩⟩ := by
  have hv : ValidDate 1 1 1 := by unfold ValidDate LeapYear; decide
  constructor
  · unfold DateTime.default
    have : parseRfc3339 yr "0001-01-01T00:00:00Z".toList = some ⟨⟨1, 1, 1⟩, ⟨0, 0, 0, 0⟩, 0⟩ :=
      parseRfc3339_iff.2 ⟨"0001-01-01T00:00:00".toList, ['Z'], 'T', 1, 1, 1, 0, 0, 0, 0, 0, rfl, Or.inl rfl,
        ⟨[], by decide, hv, by decide, by decide, by decide, .none, rfl⟩, .zulu, rfl⟩
    rw [this]; rfl
  · refine (C23_roundtrip_iff yr _ ?_).2 (by decide)
    unfold ChronoValue
    exact ⟨hv, by decide⟩

/-- **C23** Conversions from and to chrono are inverse to each other for both types, and a stamp has the
text of the corresponding `DateTime`. -/
theorem C23_chrono_conversion (yr : YearRange) (x : CDateTime) (hx : ChronoValue x)
    (hy : 0 ≤ x.date.year ∧ x.date.year ≤ 9999) (ho : x.offset % 60 = 0) :
    (DateTime.fromChrono x).toChrono = x ∧ (DateTimeStamp.fromChrono x).toChrono = x ∧
    DateTimeStamp.toStr (DateTimeStamp.fromChrono x) = DateTime.toStr (DateTime.fromChrono x) ∧
    DateTime.fromStr yr (DateTime.toStr (DateTime.fromChrono x)) = .ok (DateTime.fromChrono x) ∧
    (DateTimeStamp.default yr = (DateTime.default yr).bind fun v => .ok ⟨v⟩) :=
  ⟨rfl, rfl, rfl, (C23_roundtrip_iff yr x hx).2 ⟨hy, ho⟩, rfl⟩

/-! ## C24 DateTimeStamp -/

/-- **C24** Exactly which texts `DateTimeStamp::from_str` accepts; a designator is always present. -/
theorem C24_accepts_iff (yr : YearRange) (s : Str) (x : CDateTime) :
    DateTimeStamp.fromStr yr s = .ok ⟨⟨x⟩⟩ ↔ ∃ b t sep y m d hh mm ss nano o, s = b ++ t ∧ SepOk sep ∧
      DateTimeBody b sep y m d hh mm ss nano ∧ RfcTz t o ∧ x = dtValue y m d hh mm ss nano o := by
  rw [stamp_fromStr_iff]; exact parseRfc3339_iff

/-- **C24** A date-time text without timezone designator is always refused. -/
theorem C24_requires_timezone (yr : YearRange) (b : Str) (sep : Char) (y m d hh mm ss nano : Nat)
    (h : DateTimeBody b sep y m d hh mm ss nano) (hsep : SepOk sep) : DateTimeStamp.fromStr yr b = .err := by
  cases hres : DateTimeStamp.fromStr yr b with
  | err => rfl
  | panic => unfold DateTimeStamp.fromStr at hres; split at hres <;> simp at hres
  | ok v =>
    exfalso
    obtain ⟨⟨x⟩⟩ := v
    obtain ⟨b', t, sep', y', m', d', hh', mm', ss', nano', o, rfl, hsep', hb', ht, -⟩ := (C24_accepts_iff _ _ _).1 hres
    have hs := sepOk_ne hsep
    have hs' := sepOk_ne hsep'
    cases ht with
    | zulu => exact dtBody_last h (by simp)
    | zuluLower =>
      -- the last character of a body is a digit
      have c1 := dtBody_count h (c := 'z') (by decide) (by decide) (by decide)
        (by rcases hsep with rfl | rfl | rfl <;> decide)
      rw [Str.countChar_append] at c1
      simp at c1
    | @off c _ _ ho =>
      rcases offText_char ho with rfl | rfl | rfl
      · have c1 := dtBody_count h (c := '+') (by decide) (by decide) (by decide) hs.1
        rw [Str.countChar_append, offText_count ho (by decide) (by decide)] at c1
        simp at c1
      · have c1 := dtBody_count h (c := '-') (by decide) (by decide) (by decide) hs.2.1
        have c2 := dtBody_count hb' (c := '-') (by decide) (by decide) (by decide) hs'.2.1
        rw [Str.countChar_append, offText_count ho (by decide) (by decide), c2] at c1
        simp at c1
      · have c1 := dtBody_count h (c := '−') (by decide) (by decide) (by decide)
          (by rcases hsep with rfl | rfl | rfl <;> decide)
        rw [Str.countChar_append, offText_count ho (by decide) (by decide)] at c1
        simp at c1

example : DateTimeStamp.fromStr .chrono "2024-01-01T00:00:00".toList = .err ∧
    DateTimeStamp.fromStr .chrono "2024-01-01T00:00:00Z".toList = .ok ⟨⟨⟨⟨2024, 1, 1⟩, ⟨0, 0, 0, 0⟩, 0⟩⟩⟩ := by
  decide

/-- **C24** With an XSD timezone present both types agree completely: same acceptance, same value. -/
theorem C24_agree_partial (yr : YearRange) (s : Str) (h : DateTime.tzProvided s = true) (x : DateTime) :
    DateTimeStamp.fromStr yr s = .ok ⟨x⟩ ↔ DateTime.fromStr yr s = .ok x := by
  unfold DateTimeStamp.fromStr DateTime.fromStr DateTimeStamp.fromChrono DateTime.fromChrono
  simp only [h, if_true]
  cases parseRfc3339 yr s <;> simp

example : DateTime.tzProvided "2024-01-01T00:00:00-05:00".toList = true := by decide

/-- **C24** Whenever `DateTimeStamp` accepts and `DateTime` does not, the designator is one of the two
RFC 3339 variants outside XSD: a lower-case `z`, or U+2212 as the sign. -/
theorem C24_difference (yr : YearRange) (s : Str) (x : DateTime)
    (h : DateTimeStamp.fromStr yr s = .ok ⟨x⟩) :
    DateTime.fromStr yr s = .ok x ∨ s.getLast? = some 'z' ∨ '−' ∈ s := by
  obtain ⟨x⟩ := x
  obtain ⟨b, t, sep, y, m, d, hh, mm, ss, nano, o, rfl, hsep, hb, ht, rfl⟩ := (C24_accepts_iff _ _ _).1 h
  cases ht with
  | zulu => exact Or.inl ((C22_accepts_iff _ _ _).2 ⟨b, _, sep, y, m, d, hh, mm, ss, nano, 0, rfl, hsep, hb, .zulu, rfl⟩)
  | zuluLower => right; left; simp
  | @off c _ _ ho =>
    rcases offText_char ho with rfl | rfl | rfl
    · exact Or.inl ((C22_accepts_iff _ _ _).2 ⟨b, _, sep, y, m, d, hh, mm, ss, nano, o, rfl, hsep, hb, .off (Or.inl rfl) ho, rfl⟩)
    · exact Or.inl ((C22_accepts_iff _ _ _).2 ⟨b, _, sep, y, m, d, hh, mm, ss, nano, o, rfl, hsep, hb, .off (Or.inr rfl) ho, rfl⟩)
    · right; right
      cases ho with
      | west _ h m hc h1 h2 => simp

example : DateTimeStamp.fromStr .chrono "2024-01-01T00:00:00+01:00".toList =
    .ok ⟨⟨⟨⟨2024, 1, 1⟩, ⟨0, 0, 0, 0⟩, 3600⟩⟩⟩ := by decide

/-- **C24** (violation) `DateTimeStamp` accepts a text which `DateTime`, its base type, refuses. -/
theorem C24_violated :
    DateTimeStamp.fromStr .chrono "2024-01-01T00:00:00z".toList = .ok ⟨⟨⟨⟨2024, 1, 1⟩, ⟨0, 0, 0, 0⟩, 0⟩⟩⟩ ∧
    DateTime.fromStr .chrono "2024-01-01T00:00:00z".toList = .err ∧
    DateTimeStamp.fromStr .chrono "2024-01-01T00:00:00−05:00".toList =
      .ok ⟨⟨⟨⟨2024, 1, 1⟩, ⟨0, 0, 0, 0⟩, -18000⟩⟩⟩ ∧
    DateTime.fromStr .chrono "2024-01-01T00:00:00−05:00".toList = .err := by decide

end Verif.Props
