import Verif.Lemmas.Serde
import Verif.Props.Gregorian
import Verif.Props.Integers
import Verif.Props.DateTime

/-! # C25–C27: XML (de)serialisation, list and union types -/

namespace Verif.Props

open Verif Verif.Model Verif.Spec Verif.Lemmas Verif.Lemmas.Ser Xml

/-! ## C25 -/

/-- **C25** Serialising: when the sink takes the events of the element, exactly these are written and the
result is `Ok`; otherwise the result is `Err` and a proper prefix of them has been written. For every
value type, text function, element name, skip flag, sink and earlier output. -/
theorem C25_serialize {S : Type} (x : S) (n : Str) (f : S → Str) (w : Writer) :
    let es := elementEvents w.skipStartEnd (w.startEventName.getD n) (f x)
    (Takes w.accepts w.out es → yaSerialize x n f w = (.ok (), { w with out := w.out ++ es })) ∧
    (¬ Takes w.accepts w.out es →
      ∃ k, k < es.length ∧ yaSerialize x n f w = (.err, { w with out := w.out ++ es.take k })) :=
  ⟨serialize_takes, serialize_refused⟩

example : (yaSerialize (5 : Nat) "Five".toList Str.natStr ⟨none, false, [], fun _ _ => true⟩).2.out =
    [.start "Five".toList, .chars "5".toList, .close] := by decide

/-- **C25** Deserialising, for every reader: the outcome is `from_str` of the text following the start
tag (of the empty text if something else, even a read error, follows), and only the start tag is
consumed; without start tag it is `Err` and nothing is consumed. -/
theorem C25_deserialize {S : Type} (f : Str → Res S) (r : Reader) :
    (∀ n t rest, r = some (.start n) :: some (.chars t) :: rest →
      yaDeserialize f r = (f t, some (.chars t) :: rest)) ∧
    (∀ n rest, r = some (.start n) :: rest → (∀ t, rest.head? ≠ some (some (.chars t))) →
      yaDeserialize f r = (f [], rest)) ∧
    ((∀ n, r.head? ≠ some (some (.start n))) → yaDeserialize f r = (.err, r)) := by
  refine ⟨?_, ?_, ?_⟩
  · rintro n t rest rfl; rfl
  · rintro n rest rfl h
    cases rest with
    | nil => rfl
    | cons e rest =>
      cases e with
      | none => rfl
      | some e => cases e with
        | chars t => exact absurd rfl (h t)
        | _ => rfl
  · intro h
    cases r with
    | nil => rfl
    | cons e rest =>
      cases e with
      | none => rfl
      | some e => cases e with
        | start n => exact absurd rfl (h n)
        | _ => rfl

example : yaDeserialize Integer.fromStr [some (.start "a".toList), some (.chars "42".toList), some .close] =
    (.ok ⟨42⟩, [some (.chars "42".toList), some .close]) := by decide

/-- **C25** (finding) A read error right after the start tag is not reported: the value is taken from the
empty text. -/
theorem C25_read_error_swallowed {S : Type} (f : Str → Res S) (n : Str) (rest : Reader) :
    (yaDeserialize f (some (.start n) :: none :: rest)).1 = f [] := rfl

/-- **C25** The derived `serialize` writes the element of the struct's name, unless another name is given from outside. -/
theorem C25_derived {S : Type} (structName : Str) (toStr : S → Str) (x : S) (w : Writer) :
    let es := elementEvents w.skipStartEnd (w.startEventName.getD structName) (toStr x)
    (Takes w.accepts w.out es → defaultSerialize structName toStr x w = (.ok (), { w with out := w.out ++ es })) ∧
    (¬ Takes w.accepts w.out es →
      ∃ k, k < es.length ∧ defaultSerialize structName toStr x w = (.err, { w with out := w.out ++ es.take k })) :=
  C25_serialize x structName toStr w

/-- A fresh writer whose sink takes everything. -/
def freshWriter (name : Option Str) : Writer := ⟨name, false, [], fun _ _ => true⟩

/-- **C25** A round trip through XML is a round trip through text, for every type deriving the serde
implementations, provided the text has no white space at its ends (the reader trims). -/
theorem C25_roundtrip {S : Type} (toStr : S → Str) (fromStr : Str → Res S) (structName : Str)
    (name : Option Str) (x : S) (rest : Reader) (ht : Trimmed (toStr x)) :
    (defaultSerialize structName toStr x (freshWriter name)).1 = .ok () ∧
    (defaultDeserialize fromStr (readBack (defaultSerialize structName toStr x (freshWriter name)).2.out ++ rest)).1 =
      fromStr (toStr x) := by
  have h := serialize_takes (x := x) (n := structName) (f := toStr) (w := freshWriter name)
    (by simp [freshWriter, elementEvents, Takes])
  unfold defaultSerialize defaultDeserialize
  rw [h]
  refine ⟨rfl, ?_⟩
  show (yaDeserialize fromStr (readBack (elementEvents false _ (toStr x)) ++ rest)).1 = _
  rw [deserialize_element ht]

example : Trimmed (GDay.display ⟨5, some 0⟩) := by unfold Trimmed; decide

/-- **C25** The same for every text: what is parsed is the text without the XML white space at its ends,
and what is left to read is the end tag (after the text, if it was not blank). So a text with white space
at an end does not come back, and a blank text is read as the empty one. -/
theorem C25_roundtrip_trimmed {S : Type} (toStr : S → Str) (fromStr : Str → Res S) (structName : Str)
    (name : Option Str) (x : S) (rest : Reader) (a t b : Str) (h : toStr x = a ++ t ++ b)
    (ha : ∀ c ∈ a, isXmlSpace c = true) (hb : ∀ c ∈ b, isXmlSpace c = true)
    (ht : ∀ c, t.head? = some c ∨ t.getLast? = some c → isXmlSpace c = false) :
    defaultDeserialize fromStr (readBack (defaultSerialize structName toStr x (freshWriter name)).2.out ++ rest) =
      (fromStr t, (if t = [] then [] else [some (.chars t)]) ++ some .close :: rest) := by
  have hser := serialize_takes (x := x) (n := structName) (f := toStr) (w := freshWriter name)
    (by simp [freshWriter, elementEvents, Takes])
  unfold defaultSerialize defaultDeserialize
  rw [hser]
  have htrim : trimXml (toStr x) = t := by
    have drop : ∀ (p q : Str), (∀ c ∈ p, isXmlSpace c = true) → (p ++ q).dropWhile isXmlSpace = q.dropWhile isXmlSpace := by
      intro p q hp
      induction p with
      | nil => rfl
      | cons c p ih =>
        rw [List.cons_append, List.dropWhile_cons_of_pos (hp c (by simp))]
        exact ih fun d hd => hp d (by simp [hd])
    rw [h, trimXml, List.append_assoc, drop a _ ha]
    by_cases h0 : t = []
    · subst h0
      rw [List.nil_append, ← List.append_nil b, drop b [] hb]; rfl
    · obtain ⟨c, cs, rfl⟩ := List.exists_cons_of_ne_nil h0
      have h1 : isXmlSpace c = false := ht c (.inl rfl)
      rw [List.cons_append, List.dropWhile_cons_of_neg (by simp [h1]), ← List.cons_append, List.reverse_append,
        drop b.reverse _ (fun d hd => hb d (by simpa using hd))]
      obtain ⟨d, hd⟩ : ∃ d, (c :: cs).getLast? = some d := ⟨_, List.getLast?_eq_some_getLast (by simp)⟩
      have h2 : isXmlSpace d = false := ht d (.inr hd)
      have h3 : (c :: cs).reverse.head? = some d := by rw [List.head?_reverse, hd]
      cases hr : (c :: cs).reverse with
      | nil => simp at hr
      | cons e es =>
        rw [hr] at h3
        cases h3
        rw [List.dropWhile_cons_of_neg (by simp [h2]), ← hr, List.reverse_reverse]
  have htt : Trimmed t := by
    unfold Trimmed
    by_cases h0 : t = []
    · subst h0; rfl
    · rw [trimXml]
      obtain ⟨c, cs, rfl⟩ := List.exists_cons_of_ne_nil h0
      have h1 : isXmlSpace c = false := ht c (.inl rfl)
      rw [List.dropWhile_cons_of_neg (by simp [h1])]
      obtain ⟨d, hd⟩ : ∃ d, (c :: cs).getLast? = some d := ⟨_, List.getLast?_eq_some_getLast (by simp)⟩
      have h2 : isXmlSpace d = false := ht d (.inr hd)
      have h3 : (c :: cs).reverse.head? = some d := by rw [List.head?_reverse, hd]
      cases hr : (c :: cs).reverse with
      | nil => simp at hr
      | cons e es =>
        rw [hr] at h3
        cases h3
        rw [List.dropWhile_cons_of_neg (by simp [h2]), ← hr, List.reverse_reverse]
  have key : readBack (elementEvents false ((freshWriter name).startEventName.getD structName) (toStr x)) =
      readBack (elementEvents false ((freshWriter name).startEventName.getD structName) t) := by
    unfold Trimmed at htt
    simp [readBack, elementEvents, readEvent, htrim, htt]
  show yaDeserialize fromStr (readBack (elementEvents false _ (toStr x)) ++ rest) = _
  rw [key, deserialize_element htt]

example : (" 5\n".toList : Str) = " ".toList ++ "5".toList ++ "\n".toList ∧
    defaultDeserialize (fun s => Res.ok s) (readBack (defaultSerialize "S".toList id " 5\n".toList (freshWriter none)).2.out) =
      (.ok "5".toList, [some (.chars "5".toList), some .close]) := by decide

/-- Round trip through XML. -/
def XmlRoundTrips {S : Type} (structName : Str) (toStr : S → Str) (fromStr : Str → Res S) (x : S) : Prop :=
  ∀ name rest, (defaultDeserialize fromStr
    (readBack (defaultSerialize structName toStr x (freshWriter name)).2.out ++ rest)).1 = .ok x

theorem xmlRoundTrips_of {S : Type} {structName : Str} {toStr : S → Str} {fromStr : Str → Res S} {x : S}
    (ht : NoSp (toStr x)) (h : fromStr (toStr x) = .ok x) : XmlRoundTrips structName toStr fromStr x :=
  fun name rest => ((C25_roundtrip toStr fromStr structName name x rest (trimmed_noSp ht)).2).trans h

/-- **C25** The integer types survive XML for all their values, of any size. -/
theorem C25_integers (n : Str) :
    (∀ i, XmlRoundTrips n Integer.display Integer.fromStr i) ∧
    (∀ i, XmlRoundTrips n NonNegativeInteger.display NonNegativeInteger.fromStr i) ∧
    (∀ i : PositiveInteger, 0 < i.val → XmlRoundTrips n PositiveInteger.display PositiveInteger.fromStr i) ∧
    (∀ i : NonPositiveInteger, i.val ≤ 0 → XmlRoundTrips n NonPositiveInteger.display NonPositiveInteger.fromStr i) ∧
    (∀ i : NegativeInteger, i.val < 0 → XmlRoundTrips n NegativeInteger.display NegativeInteger.fromStr i) :=
  ⟨fun i => xmlRoundTrips_of (noSp_intStr _) (C17_integer_roundtrip i),
   fun i => xmlRoundTrips_of (noSp_natStr _) (C17_nonNegative_roundtrip i),
   fun i h => xmlRoundTrips_of (noSp_natStr _) ((C17_positive_roundtrip i).2 h),
   fun i h => xmlRoundTrips_of (noSp_intStr _) ((C17_nonPositive_roundtrip i).2 h),
   fun i h => xmlRoundTrips_of (noSp_intStr _) ((C17_negative_roundtrip i).2 h)⟩

theorem chronoTz_of_xsd {tz : Option Int} (h : XsdTz tz) : ChronoTz tz := by
  cases tz with
  | none => simp [ChronoTz]
  | some o =>
    have := h.2
    simp only [ChronoTz, Option.some.injEq, forall_eq']
    omega

/-- **C25** gDay, gMonth, gMonthDay values with an XSD timezone survive XML. -/
theorem C25_gregorian (n : Str) :
    (∀ g : GDay, 1 ≤ g.value ∧ g.value ≤ 31 → XsdTz g.timezone → XmlRoundTrips n GDay.display GDay.fromStr g) ∧
    (∀ g : GMonth, 1 ≤ g.value ∧ g.value ≤ 12 → XsdTz g.timezone → XmlRoundTrips n GMonth.display GMonth.fromStr g) ∧
    (∀ g : GMonthDay, ValidMonthDay g.month g.day → XsdTz g.timezone →
      XmlRoundTrips n GMonthDay.display GMonthDay.fromStr g) := by
  have d : isXmlSpace '-' = false := by decide
  refine ⟨fun g h ht => xmlRoundTrips_of ?_ ((C08_gday_roundtrip g h (chronoTz_of_xsd ht)).2 ht),
    fun g h ht => xmlRoundTrips_of ?_ ((C08_gmonth_roundtrip g h (chronoTz_of_xsd ht)).2 ht),
    fun g h ht => xmlRoundTrips_of ?_ ((C08_gmonthday_roundtrip g h (chronoTz_of_xsd ht)).2 ht)⟩
  · simp [GDay.display, noSp_cons, noSp_append, d, noSp_fmtPad, noSp_showTz]
  · simp [GMonth.display, noSp_cons, noSp_append, d, noSp_fmtPad, noSp_showTz]
  · simp [GMonthDay.display, noSp_cons, noSp_append, d, noSp_fmtPad, noSp_showTz]

theorem noSp_fmtYmd (x : Chrono.NaiveDate) : NoSp (Chrono.fmtYmd x) := by
  have d : isXmlSpace '-' = false := by decide
  have p : isXmlSpace '+' = false := by decide
  unfold Chrono.fmtYmd Chrono.fmtYear
  split <;> (try split) <;> simp [noSp_cons, noSp_append, d, p, noSp_fmtPadNat]

theorem noSp_fmtHms (x : Chrono.NaiveTime) : NoSp (Chrono.fmtHms x) := by
  have d : isXmlSpace ':' = false := by decide
  unfold Chrono.fmtHms
  simp [noSp_cons, noSp_append, d, noSp_fmtPadNat]

/-- **C25** Dates with four-digit years and whole-second times survive XML. -/
theorem C25_date_time (yr : Chrono.YearRange) (n : Str) :
    (∀ x : Date, (0 ≤ x.value.year ∧ x.value.year ≤ 9999) → ValidDate x.value.year x.value.month x.value.day →
      XsdTz x.timezone → XmlRoundTrips n Date.toStr (Date.fromStr yr) x) ∧
    (∀ x : Time, x.value.hour < 24 → x.value.minute < 60 → x.value.second < 60 →
      (x.value.nano = 0 ∨ (x.value.nano = 1000000000 ∧ x.value.second = 59)) → XsdTz x.timezone →
      XmlRoundTrips n Time.toStr Time.fromStr x) := by
  refine ⟨fun x hy hv ht => xmlRoundTrips_of (noSp_append.2 ⟨noSp_fmtYmd _, noSp_showTz _⟩)
      (C19_roundtrip yr x.value x.timezone hy hv ht),
    fun x h1 h2 h3 h4 ht => xmlRoundTrips_of (noSp_append.2 ⟨noSp_fmtHms _, noSp_showTz _⟩)
      ((C21_roundtrip_iff x.value x.timezone h1 h2 h3 (by omega) (by omega)).2 ⟨ht, by omega⟩)⟩

example : ValidMonthDay 2 29 ∧ ValidDate 2024 2 29 ∧ XsdTz (some 3600) :=
  ⟨⟨2, 29, rfl, rfl, by decide⟩, by unfold ValidDate LeapYear; decide, by unfold XsdTz XsdOffset; decide⟩

/-! ## C26 list types -/

/-- **C26** The words of a list text are exactly its maximal white-space-free parts, in order. -/
theorem C26_words_iff (s : Str) (ts : List Str) : splitWhitespace s = ts ↔ Words s ts := splitWhitespace_iff

example : splitWhitespace " a\tbc  d ".toList = ["a".toList, "bc".toList, "d".toList] := by decide

/-- Identifier of a path. -/
def RPath.name : RPath → Str
  | .mk _ i _ => i

theorem fromPath_eq (q : List Str) (i : Str) (a : Option RPath) : TupTy.fromPath (.mk q i a) =
    if i ∈ simpleIdents then .ok (.simple (.mk q i a))
    else if i = "String".toList then .ok (.string (.mk q i a))
    else if i = "Vec".toList then
      match a with
      | some sub => .ok (.vec sub)
      | none => .panic
    else .ok (.struct (.mk q i a)) := rfl

theorem fromPath_vec (q : List Str) (sub : RPath) : TupTy.fromPath (.mk q "Vec".toList (some sub)) = .ok (.vec sub) := by
  rw [fromPath_eq, if_neg (by decide), if_neg (by decide), if_pos rfl]

theorem fromPath_not_vec {p : RPath} (h : RPath.name p ≠ "Vec".toList) :
    ∃ t, TupTy.fromPath p = .ok t ∧ (t = .simple p ∨ t = .string p ∨ t = .struct p) := by
  obtain ⟨q, i, a⟩ := p
  have h : i ≠ "Vec".toList := h
  rw [fromPath_eq]
  by_cases h1 : i ∈ simpleIdents
  · rw [if_pos h1]; exact ⟨_, rfl, Or.inl rfl⟩
  · by_cases h2 : i = "String".toList
    · rw [if_neg h1, if_pos h2]; exact ⟨_, rfl, Or.inr (Or.inl rfl)⟩
    · rw [if_neg h1, if_neg h2, if_neg h]; exact ⟨_, rfl, Or.inr (Or.inr rfl)⟩

/-- **C26** Semantics of the generated code for a list field, for every item type that is not itself a
list and every text: the result is the list of the values of the words that parse, in order; it is never
an error. -/
theorem C26_list_parse {V : Type} (E : TypeEnv V) (q : List Str) (item : RPath) (h : RPath.name item ≠ "Vec".toList)
    (hp : ∀ s, E.fromStr item s ≠ .panic) :
    ∃ f, tupleFromStr E (.mk q "Vec".toList (some item)) = .ok f ∧
      ∀ s ts, Words s ts → f s = .ok (.many (ts.filterMap fun t => (E.fromStr item t).toOption)) := by
  obtain ⟨t, ht, h3⟩ := fromPath_not_vec h
  have hv := fromPath_vec q item
  refine ⟨fun s => (filterMapOk (E.fromStr item) (splitWhitespace s)).bind fun vs => .ok (.many vs), ?_, ?_⟩
  · unfold tupleFromStr
    rw [hv, Res.ok_bind]
    dsimp only
    rw [ht, Res.ok_bind]
    rcases h3 with rfl | rfl | rfl <;> rfl
  · intro s ts hs
    dsimp only
    rw [words_split hs, filterMapOk_eq (fun t _ => hp t), Res.ok_bind]

/-- **C26** Display then parse of a list, for every item type and every list whose items print as
single words that parse back. -/
theorem C26_list_roundtrip {V : Type} (E : TypeEnv V) (q : List Str) (item : RPath) (h : RPath.name item ≠ "Vec".toList) :
    ∃ f g, tupleFromStr E (.mk q "Vec".toList (some item)) = .ok f ∧
      tupleToStr E (.mk q "Vec".toList (some item)) = .ok g ∧
      ∀ vs : List V, (∀ v ∈ vs, Word (E.toStr item v) ∧ E.fromStr item (E.toStr item v) = .ok v) →
        ∃ txt, g (.many vs) = some txt ∧ Words txt (vs.map (E.toStr item)) ∧ f txt = .ok (.many vs) := by
  obtain ⟨t, ht, h3⟩ := fromPath_not_vec h
  have hv := fromPath_vec q item
  refine ⟨fun s => (filterMapOk (E.fromStr item) (splitWhitespace s)).bind fun vs => .ok (.many vs),
    fun | .many vs => some (joinDisplay (E.toStr item) vs) | _ => none, ?_, ?_, ?_⟩
  · unfold tupleFromStr
    rw [hv, Res.ok_bind]
    dsimp only
    rw [ht, Res.ok_bind]
    rcases h3 with rfl | rfl | rfl <;> rfl
  · unfold tupleToStr
    rw [hv, Res.ok_bind]
    dsimp only
    rw [ht, Res.ok_bind]
    rcases h3 with rfl | rfl | rfl <;> rfl
  · intro vs hvs
    refine ⟨_, rfl, splitWhitespace_iff.1 (join_split fun v hv => (hvs v hv).1), ?_⟩
    dsimp only
    rw [join_split fun v hv => (hvs v hv).1, filterMapOk_map fun v hv => (hvs v hv).2, Res.ok_bind]

/-- The item type `Integer` as an environment for concrete cases. -/
def intEnv : TypeEnv Integer := ⟨fun _ => Integer.fromStr, fun _ => Integer.display⟩

/-- **C26** Lists of big integers survive, whatever their length and sizes. -/
theorem C26_integer_list (vs : List Integer) :
    filterMapOk Integer.fromStr (splitWhitespace (joinDisplay Integer.display vs)) = .ok vs := by
  have hw : ∀ v : Integer, Word v.display := by
    intro v
    obtain ⟨sg, h⟩ := C17_display_lexical v
    have hns : ∀ c ∈ v.display, ¬ Space c := by
      intro c hc
      apply Chr.not_space_of
      have key : ∀ n : Nat, ∀ c ∈ Str.natStr n, Chrono.isWhitespace c = false := by
        intro n c hc
        have h1 := List.all_eq_true.1 (Str.allDigits_natStr n) c hc
        cases hx : Chrono.isWhitespace c with
        | false => rfl
        | true =>
          exfalso
          have h2 := Chr.isWhitespace_iff.1 hx
          unfold Space at h2
          simp only [Str.isAsciiDigit, Bool.and_eq_true, decide_eq_true_eq] at h1
          obtain ⟨a, b⟩ := h1
          have a : 48 ≤ c.toNat := a
          have b : c.toNat ≤ 57 := b
          simp only [List.mem_cons, List.not_mem_nil, or_false] at h2
          omega
      unfold Integer.display NumBigint.showBigInt Str.intStr at hc
      split at hc
      · rcases List.mem_cons.1 hc with rfl | hc
        · decide
        · exact key _ _ hc
      · exact key _ _ hc
    refine ⟨?_, hns⟩
    unfold Integer.display NumBigint.showBigInt Str.intStr
    split
    · simp
    · exact Str.natStr_ne_nil _
  rw [join_split fun v _ => hw v, filterMapOk_map fun v _ => C17_integer_roundtrip v]

example : joinDisplay Integer.display [⟨-5⟩, ⟨12⟩] = "-5 12".toList := by decide

/-- **C26** For lists of strings the round trip holds exactly when every item is a single word. -/
theorem C26_string_list_iff (vs : List Str) :
    filterMapOk Res.ok (splitWhitespace (joinDisplay id vs)) = .ok vs ↔ ∀ v ∈ vs, Word v := by
  constructor
  · intro h v hv
    rw [filterMapOk_eq (by simp)] at h
    simp only [Res.toOption, Res.ok.injEq, List.filterMap_some] at h
    have := splitWhitespace_iff.1 h
    clear h
    generalize joinDisplay id vs = txt at this
    induction this with
    | nil => simp at hv
    | cons _ ht _ _ ih =>
      rcases List.mem_cons.1 hv with rfl | hv
      · exact ht
      · exact ih hv
  · intro h
    rw [join_split (toStr := id) h, filterMapOk_map (toStr := id) (by simp)]

example : Word "ab".toList := ⟨by decide, by unfold Space; decide⟩

/-- **C26** (violation of "an item is never lost") Unparsable items disappear without error. -/
theorem C26_item_lost : filterMapOk Integer.fromStr (splitWhitespace "1 x 3".toList) = .ok [⟨1⟩, ⟨3⟩] := by decide

/-- **C26** A list of lists is a compile error of the generated code; a `Vec` without argument makes the
macro panic; strings are taken as they are; any other field type is parsed as a whole. -/
theorem C26_macro_cases {V : Type} (E : TypeEnv V) (q : List Str) :
    (∀ r a, tupleFromStr E (.mk q "Vec".toList (some (.mk r "Vec".toList (some a)))) = .err) ∧
    tupleFromStr E (.mk q "Vec".toList none) = .panic ∧
    (∀ a, tupleFromStr E (.mk q "String".toList a) = .ok fun s => .ok (.text s)) ∧
    (∀ i a, i ≠ "String".toList → i ≠ "Vec".toList →
      tupleFromStr E (.mk q i a) = .ok fun s => (E.fromStr (.mk q i a) s).bind fun v => .ok (.one v)) ∧
    (∀ a, ∃ g, tupleToStr E (.mk q "String".toList a) = .ok g ∧ ∀ s, g (.text s) = some s) ∧
    (∀ i a, i ≠ "String".toList → i ≠ "Vec".toList →
      ∃ g, tupleToStr E (.mk q i a) = .ok g ∧ ∀ v, g (.one v) = some (E.toStr (.mk q i a) v)) := by
  refine ⟨fun r a => rfl, rfl, fun a => rfl, ?_, fun a => ⟨_, rfl, fun s => rfl⟩, ?_⟩
  · intro i a h1 h2
    unfold tupleFromStr
    rw [fromPath_eq]
    by_cases hs : i ∈ simpleIdents
    · rw [if_pos hs]; rfl
    · rw [if_neg hs, if_neg h1, if_neg h2]; rfl
  · intro i a h1 h2
    unfold tupleToStr
    rw [fromPath_eq]
    by_cases hs : i ∈ simpleIdents
    · rw [if_pos hs]; exact ⟨_, rfl, fun v => rfl⟩
    · rw [if_neg hs, if_neg h1, if_neg h2]; exact ⟨_, rfl, fun v => rfl⟩

example : "i32".toList ≠ "String".toList ∧ "i32".toList ≠ "Vec".toList := by decide

/-- **C26** Which field types are taken for simple ones: the primitive types, by their identifier alone
(`char`, `i128`, `u128`, `isize` and `usize` are not among them). -/
theorem C26_simple_iff (q : List Str) (i : Str) (a : Option RPath) :
    (∃ p, TupTy.fromPath (.mk q i a) = .ok (.simple p)) ↔
      ∃ s ∈ ["bool", "i8", "i16", "i32", "i64", "u8", "u16", "u32", "u64", "f32", "f64"], i = s.toList := by
  have hm : i ∈ simpleIdents ↔
      ∃ s ∈ ["bool", "i8", "i16", "i32", "i64", "u8", "u16", "u32", "u64", "f32", "f64"], i = s.toList := by
    have h1 : ∀ t ∈ simpleIdents, ∃ s ∈ ["bool", "i8", "i16", "i32", "i64", "u8", "u16", "u32", "u64", "f32", "f64"],
        t = s.toList := by decide
    have h2 : ∀ s ∈ ["bool", "i8", "i16", "i32", "i64", "u8", "u16", "u32", "u64", "f32", "f64"],
        s.toList ∈ simpleIdents := by decide
    exact ⟨h1 i, fun ⟨s, hs, e⟩ => e ▸ h2 s hs⟩
  rw [← hm, fromPath_eq]
  constructor
  · rintro ⟨p, hp⟩
    by_cases h : i ∈ simpleIdents
    · exact h
    · rw [if_neg h] at hp
      split at hp
      · cases hp
      · split at hp
        · split at hp <;> cases hp
        · cases hp
  · intro h; rw [if_pos h]; exact ⟨_, rfl⟩

example : TupTy.fromPath (.mk [] "u64".toList none) = .ok (.simple (.mk [] "u64".toList none)) := rfl

/-! ## C27 union types -/

/-- **C27** A text becomes the variant `i` with value `v` exactly when `i` is the first variant whose type
accepts the text. -/
theorem C27_first_wins {V : Type} (E : TypeEnv V) (vs : List (Str × RPath)) (s i : Str) (v : V) :
    unionParse E vs s = .ok (.case i v) ↔
      ∃ pre ty post, vs = pre ++ (i, ty) :: post ∧ (∀ p ∈ pre, E.fromStr p.2 s = .err) ∧
        E.fromStr ty s = .ok v := unionParse_case

/-- **C27** It becomes `__Unknown__`, holding the text itself, exactly when every variant refuses it. -/
theorem C27_unknown_iff {V : Type} (E : TypeEnv V) (vs : List (Str × RPath)) (s t : Str) :
    unionParse E vs s = .ok (.unknown t) ↔ t = s ∧ ∀ p ∈ vs, E.fromStr p.2 s = .err := unionParse_unknown

/-- **C27** Parsing a union never fails. -/
theorem C27_never_err {V : Type} (E : TypeEnv V) (vs : List (Str × RPath)) (s : Str) :
    unionParse E vs s ≠ .err := unionParse_ne_err

/-- **C27** On a reader positioned at an element holding `s`, this is what deserialisation returns. -/
theorem C27_deserialize {V : Type} (E : TypeEnv V) (vs : List (Str × RPath)) (n s : Str) (rest : Reader) :
    (unionDeserialize E vs (some (.start n) :: some (.chars s) :: rest)).1 = unionParse E vs s := rfl

/-- **C27** The variants considered are the declared ones, in order, without `__Unknown__`. -/
theorem C27_variants (decl : List (Str × RPath)) (h : ∀ p ∈ decl, p.1 ≠ "__Unknown__".toList) (k : Nat)
    (u : Option RPath) :
    unionVariants ((decl.take k).map (fun p => ⟨p.1, some p.2⟩) ++ ⟨"__Unknown__".toList, u⟩ ::
      (decl.drop k).map (fun p => ⟨p.1, some p.2⟩)) = some decl := by
  have aux : ∀ l : List (Str × RPath), (∀ p ∈ l, p.1 ≠ "__Unknown__".toList) → ∀ r r',
      unionVariants r = some r' →
      unionVariants (l.map (fun p => ⟨p.1, some p.2⟩) ++ r) = some (l ++ r') := by
    intro l
    induction l with
    | nil => intro _ r r' h; simpa using h
    | cons p l ih =>
      intro hl r r' hr
      have h2 := ih (fun q hq => hl q (List.mem_cons_of_mem _ hq)) r r' hr
      rw [List.map_cons, List.cons_append, unionVariants_cons (ty := p.2) (hl p List.mem_cons_self) rfl, h2]
      rfl
  have h2 := aux (decl.drop k) (fun p hp => h p (List.mem_of_mem_drop hp)) [] [] rfl
  rw [List.append_nil, List.append_nil] at h2
  rw [aux (decl.take k) (fun p hp => h p (List.mem_of_mem_take hp)) _ (decl.drop k)
    ((unionVariants_unknown (v := ⟨"__Unknown__".toList, u⟩) rfl _).trans h2), List.take_append_drop]

/-- Two-member union used in the concrete cases: an integer, else a string. -/
def isEnv : TypeEnv (Integer ⊕ Str) where
  fromStr p s := if RPath.name p = "Integer".toList then (Integer.fromStr s).bind fun v => .ok (.inl v) else .ok (.inr s)
  toStr _ v := match v with | .inl i => i.display | .inr s => s
def isVariants : List (Str × RPath) :=
  [("A".toList, .mk [] "Integer".toList none), ("B".toList, .mk [] "String".toList none)]

example : unionParse isEnv isVariants "7".toList = .ok (.case "A".toList (.inl ⟨7⟩)) ∧
    unionParse isEnv isVariants "x7".toList = .ok (.case "B".toList (.inr "x7".toList)) ∧
    unionParse isEnv [("A".toList, .mk [] "Integer".toList none)] "x".toList = .ok (.unknown "x".toList) := by decide

/-- **C27** Text written for a value of a declared variant: the text of its own type. -/
theorem C27_text {V : Type} (E : TypeEnv V) (pre post : List (Str × RPath)) (i : Str) (ty : RPath) (v : V)
    (h : ∀ p ∈ pre, p.1 ≠ i) : unionText E (pre ++ (i, ty) :: post) (.case i v) = some (E.toStr ty v) :=
  unionText_case.2 ⟨pre, ty, post, rfl, h, rfl⟩

/-- **C27** A value of a declared variant is written as one element with the text of the type of the variant; without a
name from outside the element has the name of the union.  `__Unknown__` is written as an empty text. -/
theorem C27_serialize {V : Type} (E : TypeEnv V) (pre post : List (Str × RPath)) (i : Str) (ty : RPath) (n : Str) (w : Writer)
    (h : ∀ p ∈ pre, p.1 ≠ i) (x : UnionVal V) (t : Str)
    (hx : (∃ v, x = .case i v ∧ t = E.toStr ty v) ∨ (∃ s, x = .unknown s ∧ t = [])) :
    let es := elementEvents w.skipStartEnd (w.startEventName.getD n) t
    (Takes w.accepts w.out es →
      unionSerialize E (pre ++ (i, ty) :: post) n x w = (.ok (), { w with out := w.out ++ es })) ∧
    (¬ Takes w.accepts w.out es →
      ∃ k, k < es.length ∧ unionSerialize E (pre ++ (i, ty) :: post) n x w = (.err, { w with out := w.out ++ es.take k })) := by
  have ht : t = (unionText E (pre ++ (i, ty) :: post) x).getD [] := by
    rcases hx with ⟨v, rfl, rfl⟩ | ⟨s, rfl, rfl⟩
    · rw [C27_text E pre post i ty v h]; rfl
    · cases pre <;> rfl
  subst ht
  exact C25_serialize x n (fun x => (unionText E (pre ++ (i, ty) :: post) x).getD []) w

example : (unionSerialize isEnv isVariants "Size".toList (.case "A".toList (.inl ⟨7⟩)) (freshWriter none)).2.out =
    [.start "Size".toList, .chars "7".toList, .close] := by decide

/-- **C27** Writing then reading a union value gives it back exactly when its text parses back in its own
type and every earlier member type refuses that text. -/
theorem C27_roundtrip_iff {V : Type} (E : TypeEnv V) (pre post : List (Str × RPath)) (i : Str) (ty : RPath) (v : V)
    (h : ∀ p ∈ pre ++ post, p.1 ≠ i) :
    unionParse E (pre ++ (i, ty) :: post) (E.toStr ty v) = .ok (.case i v) ↔
      E.fromStr ty (E.toStr ty v) = .ok v ∧ ∀ p ∈ pre, E.fromStr p.2 (E.toStr ty v) = .err := by
  rw [unionParse_case]
  constructor
  · rintro ⟨pre', ty', post', e, h1, h2⟩
    obtain ⟨as, h3⟩ | ⟨as, h3⟩ := List.append_eq_append_iff.1 e |>.imp
        (fun ⟨as, h1, h2⟩ => (⟨as, ⟨h1, h2⟩⟩ : ∃ as, pre' = pre ++ as ∧ (i, ty) :: post = as ++ (i, ty') :: post'))
        (fun ⟨as, h1, h2⟩ => (⟨as, ⟨h1, h2⟩⟩ : ∃ as, pre = pre' ++ as ∧ (i, ty') :: post' = as ++ (i, ty) :: post))
    · cases as with
      | nil => simp at h3; obtain ⟨rfl, rfl, rfl⟩ := h3; exact ⟨h2, h1⟩
      | cons a as =>
        simp at h3
        exact absurd rfl (h (i, ty') (by rw [h3.2.2]; simp))
    · cases as with
      | nil => simp at h3; obtain ⟨rfl, rfl, rfl⟩ := h3; exact ⟨h2, h1⟩
      | cons a as =>
        simp at h3
        exact absurd rfl (h (i, ty') (by rw [h3.1, ← h3.2.1]; simp))
  · rintro ⟨h1, h2⟩
    exact ⟨pre, ty, post, rfl, h2, h1⟩

example : ∀ p ∈ ([] : List (Str × RPath)) ++ [("B".toList, RPath.mk [] "String".toList none)], p.1 ≠ "A".toList := by
  decide

/-- **C27** (violation) A later member's value whose text an earlier member accepts changes type, and the
content of an unknown value is lost. -/
theorem C27_violated {V : Type} (E : TypeEnv V) (vs : List (Str × RPath)) (s : Str) :
    unionParse isEnv isVariants "7".toList ≠ .ok (.case "B".toList (.inr "7".toList)) ∧
    unionText isEnv isVariants (.case "B".toList (.inr "7".toList)) = some "7".toList ∧
    unionText E vs (.unknown s) = some [] := by
  refine ⟨by decide, by decide, ?_⟩
  cases vs <;> rfl

end Verif.Props
