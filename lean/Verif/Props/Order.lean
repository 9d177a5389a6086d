import Verif.Lemmas.Order
import Verif.Props.DateTime
import Verif.Props.Decimal
import Verif.Props.Duration
import Verif.Props.Generator
import Verif.Props.Integers

/-! # C74: the order of values, and the bounds which are checked with it -/

namespace Verif.Props

open Verif Verif.Model Verif.Spec Verif.Lemmas Verif.Lemmas.Ord Chrono

/-! ## Numbers and date-times -/

/-- **C74** Integers compare by their value. -/
theorem C74_integers :
    (∀ a b : Integer, a.partialCmp b = some (compare a.val b.val)) ∧
    (∀ a b : NonNegativeInteger, a.partialCmp b = some (compare (a.val : Int) b.val)) ∧
    (∀ a b : PositiveInteger, a.partialCmp b = some (compare (a.val : Int) b.val)) ∧
    (∀ a b : NonPositiveInteger, a.partialCmp b = some (compare a.val b.val)) ∧
    (∀ a b : NegativeInteger, a.partialCmp b = some (compare a.val b.val)) := by
  refine ⟨fun a b => ?_, fun a b => ?_, fun a b => ?_, fun a b => ?_, fun a b => ?_⟩
  · unfold Integer.partialCmp; rw [cmpThen_some, Ordering.then_eq]
  · unfold NonNegativeInteger.partialCmp; rw [cmpThen_some, Ordering.then_eq, compare_cast]
  · unfold PositiveInteger.partialCmp; rw [cmpThen_some, Ordering.then_eq, compare_cast]
  · unfold NonPositiveInteger.partialCmp; rw [cmpThen_some, Ordering.then_eq]
  · unfold NegativeInteger.partialCmp; rw [cmpThen_some, Ordering.then_eq]

/-- **C74** Decimals compare by their value, however they are written. -/
theorem C74_decimal (a b : Decimal) :
    a.partialCmp b = some (compare (decQ a.val.int a.val.scale) (decQ b.val.int b.val.scale)) := by
  unfold Decimal.partialCmp; rw [cmpThen_some, Ordering.then_eq, dec_cmp]

example : Decimal.partialCmp ⟨⟨10, 1⟩⟩ ⟨⟨1, 0⟩⟩ = some .eq ∧ Decimal.partialCmp ⟨⟨15, 1⟩⟩ ⟨⟨2, 0⟩⟩ = some .lt := by
  decide

/-- Nanoseconds on the time line. -/
def instant (x : CDateTime) : Int :=
  timeline x.date.year x.date.month x.date.day x.time.hour x.time.minute x.time.second x.offset * 1000000000 +
    x.time.nano

private theorem chrono_parts {x : CDateTime} (h : ChronoValue x) :
    Valid x.date ∧ x.time.secs < 86400 ∧ ((-86400 : Int) < x.offset ∧ x.offset < (86400 : Int)) := by
  obtain ⟨h1, h2, h3, h4, -, -, h5, h6⟩ := h
  refine ⟨(valid_iff _).2 h1, ?_, h5, h6⟩
  unfold NaiveTime.secs; omega

/-- **C74** Date-times compare by their place on the time line, whatever their offsets; only within a leap second the
fraction counts beyond the second. -/
theorem C74_datetime (a b : DateTime) (ha : ChronoValue a.value) (hb : ChronoValue b.value) :
    a.partialCmp b = some ((compare
      (timeline a.value.date.year a.value.date.month a.value.date.day a.value.time.hour a.value.time.minute
        a.value.time.second a.value.offset)
      (timeline b.value.date.year b.value.date.month b.value.date.day b.value.time.hour b.value.time.minute
        b.value.time.second b.value.offset)).then (compare a.value.time.nano b.value.time.nano)) ∧
    (a.value.time.nano < 1000000000 → b.value.time.nano < 1000000000 →
      a.partialCmp b = some (compare (instant a.value) (instant b.value))) := by
  obtain ⟨h1, h2, h3⟩ := chrono_parts ha
  obtain ⟨k1, k2, k3⟩ := chrono_parts hb
  have key := dt_cmp h1 h2 h3 k1 k2 k3
  have e : a.partialCmp b = some (a.value.cmp b.value) := by
    unfold DateTime.partialCmp; rw [cmpThen_some, Ordering.then_eq]
  rw [e, key]
  refine ⟨rfl, fun hn hn' => ?_⟩
  congr 1
  rw [compare_cast]
  unfold instant secondsOf
  refine lex_compare (by omega) (by omega) ?_
  intro h
  constructor <;> omega

/-- **C74** The same for `DateTimeStamp`. -/
theorem C74_stamp (a b : DateTimeStamp) : a.partialCmp b = a.value.partialCmp b.value := by
  unfold DateTimeStamp.partialCmp
  cases h : a.value.partialCmp b.value with
  | none => rfl
  | some o => rw [cmpThen_some, Ordering.then_eq]

/-- Midnight in Berlin is an hour before midnight in London, on the day before in UTC. -/
example : DateTime.partialCmp ⟨⟨⟨2024, 3, 1⟩, ⟨0, 0, 0, 0⟩, 3600⟩⟩ ⟨⟨⟨2024, 2, 29⟩, ⟨23, 0, 0, 0⟩, 0⟩⟩ = some .eq ∧
    DateTime.partialCmp ⟨⟨⟨2024, 3, 1⟩, ⟨0, 0, 0, 0⟩, 3600⟩⟩ ⟨⟨⟨2024, 3, 1⟩, ⟨0, 0, 0, 0⟩, 0⟩⟩ = some .lt := by decide

example : ChronoValue ⟨⟨2024, 3, 1⟩, ⟨0, 0, 0, 0⟩, 3600⟩ := by unfold ChronoValue ValidDate LeapYear; decide

/-! ## Durations -/

/-- The value of a duration. -/
def durVal (d : Duration Rat) : DurVal :=
  let months : Int := 12 * d.years + d.months
  let secs : Rat := 86400 * d.days + 3600 * d.hours + 60 * d.minutes + d.seconds
  if d.isNegative then ⟨-months, -secs⟩ else ⟨months, secs⟩

private theorem durVal_pos {d : Duration Rat} (h : d.isNegative = false) : durVal d = ⟨totalMonths d, totalSecs d⟩ := by
  unfold durVal totalMonths totalSecs; rw [h]; push_cast; rfl

private theorem durVal_neg {d : Duration Rat} (h : d.isNegative = true) : durVal d = ⟨-(totalMonths d : Int), -totalSecs d⟩ := by
  unfold durVal totalMonths totalSecs; rw [h]; push_cast; rfl

private theorem then_lt {α β : Type} [LinearOrder α] [LinearOrder β] (a b : α) (x y : β) :
    (some ((compare a b).then (compare x y)) = some Ordering.lt ↔ a < b ∨ (a = b ∧ x < y)) ∧
    (some ((compare a b).then (compare x y)) = some Ordering.eq ↔ a = b ∧ x = y) ∧
    (some ((compare a b).then (compare x y)) = some Ordering.gt ↔ b < a ∨ (b = a ∧ y < x)) := by
  rcases lt_trichotomy a b with h | h | h
  · rw [compare_lt_iff_lt.2 h]
    refine ⟨⟨fun _ => Or.inl h, fun _ => rfl⟩, ⟨fun h' => (by cases h'), fun h' => absurd h'.1 h.ne⟩, ⟨fun h' => (by cases h'), ?_⟩⟩
    rintro (h' | h')
    · exact absurd h (lt_asymm h')
    · exact absurd h'.1 h.ne'
  · subst h
    rw [compare_eq_iff_eq.2 rfl]
    simp only [Ordering.then, Option.some.injEq, lt_irrefl, false_or, true_and]
    exact ⟨compare_lt_iff_lt, compare_eq_iff_eq, compare_gt_iff_gt⟩
  · rw [compare_gt_iff_gt.2 h]
    refine ⟨⟨fun h' => (by cases h'), ?_⟩, ⟨fun h' => (by cases h'), fun h' => absurd h'.1 h.ne'⟩, ⟨fun _ => Or.inl h, fun _ => rfl⟩⟩
    rintro (h' | h')
    · exact absurd h (lt_asymm h')
    · exact absurd h'.1 h.ne'

/-- **C74** Durations which are not negative and whose components are normal (months below 12, days below 28, hours
below 24, minutes and seconds below 60) compare as XML Schema says.  Partial: not for other durations, see below. -/
theorem C74_duration_partial (a b : Duration Rat) (ha : Normal a) (hb : Normal b) (ha' : a.isNegative = false)
    (hb' : b.isNegative = false) :
    (a.partialCmp ratCmp b = some .lt ↔ (durVal a).Lt (durVal b)) ∧
    (a.partialCmp ratCmp b = some .eq ↔ (durVal a).Eq (durVal b)) ∧
    (a.partialCmp ratCmp b = some .gt ↔ (durVal b).Lt (durVal a)) := by
  obtain ⟨h1, h2⟩ := totalSecs_bounds ha
  obtain ⟨h3, h4⟩ := totalSecs_bounds hb
  rw [normal_cmp ha hb, ha', hb', durVal_pos ha', durVal_pos hb']
  obtain ⟨o1, o2⟩ := dur_order (p := ⟨totalMonths a, totalSecs a⟩) (q := ⟨totalMonths b, totalSecs b⟩)
    (by dsimp only; linarith) (by dsimp only; linarith)
  obtain ⟨o3, -⟩ := dur_order (p := ⟨totalMonths b, totalSecs b⟩) (q := ⟨totalMonths a, totalSecs a⟩)
    (by dsimp only; linarith) (by dsimp only; linarith)
  obtain ⟨t1, t2, t3⟩ := then_lt (totalMonths a) (totalMonths b) (totalSecs a) (totalSecs b)
  rw [o1, o2, o3]
  refine ⟨t1.trans ?_, t2.trans ?_, t3.trans ?_⟩ <;> simp only [Int.ofNat_lt, Int.ofNat_inj]

example : Normal ⟨false, 1, 11, 27, 23, 59, 59 + 1 / 2⟩ ∧ (⟨false, 1, 11, 27, 23, 59, 59 + 1 / 2⟩ : Duration Rat).isNegative = false := by
  refine ⟨⟨by decide, by decide, by decide, by decide, by norm_num, by norm_num⟩, rfl⟩

/-- **C74** (violated) Negative durations with normal components compare the wrong way round. -/
theorem C74_negative_violated (a b : Duration Rat) (ha : Normal a) (hb : Normal b) (ha' : a.isNegative = true)
    (hb' : b.isNegative = true) :
    (a.partialCmp ratCmp b = some .lt ↔ (durVal b).Lt (durVal a)) ∧
    (a.partialCmp ratCmp b = some .gt ↔ (durVal a).Lt (durVal b)) := by
  obtain ⟨h1, h2⟩ := totalSecs_bounds ha
  obtain ⟨h3, h4⟩ := totalSecs_bounds hb
  rw [normal_cmp ha hb, ha', hb', durVal_neg ha', durVal_neg hb']
  obtain ⟨o1, -⟩ := dur_order (p := ⟨-(totalMonths a : Int), -totalSecs a⟩) (q := ⟨-(totalMonths b : Int), -totalSecs b⟩)
    (by dsimp only; linarith) (by dsimp only; linarith)
  obtain ⟨o3, -⟩ := dur_order (p := ⟨-(totalMonths b : Int), -totalSecs b⟩) (q := ⟨-(totalMonths a : Int), -totalSecs a⟩)
    (by dsimp only; linarith) (by dsimp only; linarith)
  obtain ⟨t1, -, t3⟩ := then_lt (totalMonths a) (totalMonths b) (totalSecs a) (totalSecs b)
  rw [o1, o3]
  refine ⟨t1.trans ?_, t3.trans ?_⟩ <;>
    simp only [neg_lt_neg_iff, neg_inj, Int.ofNat_lt, Int.ofNat_inj, eq_comm]

/-- **C74** (violated) A negative duration compares as larger than every other one, though it is never larger. -/
theorem C74_mixed_violated (a b : Duration Rat) (ha : 0 ≤ a.seconds) (hb : 0 ≤ b.seconds) (ha' : a.isNegative = false)
    (hb' : b.isNegative = true) :
    a.partialCmp ratCmp b = some .lt ∧ b.partialCmp ratCmp a = some .gt ∧
      ((durVal b).Lt (durVal a) ∨ (durVal b).Eq (durVal a)) := by
  refine ⟨?_, ?_, ?_⟩
  · unfold Duration.partialCmp; rw [ha', hb']; rfl
  · unfold Duration.partialCmp; rw [ha', hb']; rfl
  · have e1 : 0 ≤ totalSecs a := by unfold totalSecs; positivity
    have e2 : 0 ≤ totalSecs b := by unfold totalSecs; positivity
    rw [durVal_pos ha', durVal_neg hb']
    by_cases hm : (-(totalMonths b : Int)) < totalMonths a
    · exact Or.inl (durLt_of_months hm (by dsimp only; linarith))
    · obtain ⟨o1, o2⟩ := durLt_of_secs (p := ⟨-(totalMonths b : Int), -totalSecs b⟩)
        (q := ⟨totalMonths a, totalSecs a⟩) (by dsimp only; omega)
      rw [o1, o2]
      exact lt_or_eq_of_le (by dsimp only; linarith)

/-- **C74** (violated) Components which are not normal are not carried: 61 minutes are less than an hour, and 60
minutes are not an hour. -/
theorem C74_carry_violated : ∃ m h m' : Duration Rat,
    (∀ sh p, Duration.fromStr (Ieee.ops sh) p "PT61M".toList = .ok m) ∧
    (∀ sh p, Duration.fromStr (Ieee.ops sh) p "PT1H".toList = .ok h) ∧
    (∀ sh p, Duration.fromStr (Ieee.ops sh) p "PT60M".toList = .ok m') ∧
    m.partialCmp ratCmp h = some .lt ∧ (durVal h).Lt (durVal m) ∧
    m'.partialCmp ratCmp h = some .lt ∧ (durVal m').Eq (durVal h) := by
  refine ⟨⟨false, 0, 0, 0, 0, 61, 0⟩, ⟨false, 0, 0, 0, 1, 0, 0⟩, ⟨false, 0, 0, 0, 0, 60, 0⟩, ?_, ?_, ?_, by decide, ?_, by decide, ?_⟩
  · intro sh p; cases p <;> rfl
  · intro sh p; cases p <;> rfl
  · intro sh p; cases p <;> rfl
  · rw [(durLt_of_secs (by decide)).1]; unfold durVal; norm_num
  · rw [(durLt_of_secs (by decide)).2]; unfold durVal; norm_num

/-! ## Bounds -/

/-- A wrapped type with a derived order; `len` is not available. -/
def ordered {V : Type} (cmp : V → V → Option Ordering) (parse : Str → Res V) : Values V where
  lt a b := opLt (cmp a b)
  le a b := opLe (cmp a b)
  parse s := match parse s with | .ok v => some v | _ => none
  len _ := 0

private theorem ordered_lt {V Q : Type} [LinearOrder Q] {cmp : V → V → Option Ordering} {parse : Str → Res V} {f : V → Q}
    {a b : V} (hc : cmp a b = some (compare (f a) (f b))) :
    ((ordered cmp parse).lt a b = true ↔ f a < f b) ∧ ((ordered cmp parse).le a b = true ↔ f a ≤ f b) := by
  simp only [ordered, hc, opLt, opLe]
  rcases lt_trichotomy (f a) (f b) with h | h | h
  · rw [compare_lt_iff_lt.2 h]; simp [h, h.le]
  · rw [compare_eq_iff_eq.2 h]; simp [h]
  · rw [compare_gt_iff_gt.2 h]; simp [h.le, h]

/-- The order of the type is that of the numbers `f`, for the values with the property `P`, and the literals are read
as the numbers which they denote. -/
structure OrderedBy {V Q : Type} [LinearOrder Q] (cmp : V → V → Option Ordering) (parse : Str → Res V) (P : V → Prop)
    (f : V → Q) (den : Str → Q → Prop) : Prop where
  cmp : ∀ a b, P a → P b → cmp a b = some (compare (f a) (f b))
  parse : ∀ s q, den s q → ∃ v, parse s = .ok v ∧ P v ∧ f v = q

private theorem run_bounds {V Q : Type} [LinearOrder Q] {cmp : V → V → Option Ordering} {parse : Str → Res V}
    {P : V → Prop} {f : V → Q} {den : Str → Q → Prop} (ho : OrderedBy cmp parse P f den) (ty : Str) (v : V) (hv : P v) :
    ∀ facets : List Facet, (∀ x ∈ facets, LegalBound den x.facetType) →
    ((∀ x ∈ facets, Bounded den (f v) x.facetType) →
      runChecks (ordered cmp parse) v (facets.flatMap fun x => Gen.condsOf ty x.facetType) = .ok ()) ∧
    (¬ (∀ x ∈ facets, Bounded den (f v) x.facetType) →
      runChecks (ordered cmp parse) v (facets.flatMap fun x => Gen.condsOf ty x.facetType) = .err)
  | [], _ => ⟨fun _ => rfl, fun h => absurd (by simp) h⟩
  | x :: xs, hl => by
    obtain ⟨h1, h2⟩ := run_bounds ho ty v hv xs fun y hy => hl y (List.mem_cons_of_mem _ hy)
    have hx := hl x (List.mem_cons_self ..)
    rw [List.forall_mem_cons, List.flatMap_cons]
    have free : Bounded den (f v) x.facetType → Gen.condsOf ty x.facetType = [] →
        ((Bounded den (f v) x.facetType ∧ ∀ x ∈ xs, Bounded den (f v) x.facetType) →
          runChecks (ordered cmp parse) v (Gen.condsOf ty x.facetType ++ xs.flatMap fun x => Gen.condsOf ty x.facetType) = .ok ()) ∧
        (¬ (Bounded den (f v) x.facetType ∧ ∀ x ∈ xs, Bounded den (f v) x.facetType) →
          runChecks (ordered cmp parse) v (Gen.condsOf ty x.facetType ++ xs.flatMap fun x => Gen.condsOf ty x.facetType) = .err) := by
      intro hb hc
      rw [hc]
      exact ⟨fun h => h1 h.2, fun h => h2 fun h' => h ⟨hb, h'⟩⟩
    have one : ∀ {R : Q → Q → Prop} {c : Cmp} {s : Str}, (∃ q, den s q) →
        (∀ w, P w → (c.onValues (ordered cmp parse) v w = true ↔ ¬ R (f v) (f w))) →
        (((∃ q, den s q ∧ R (f v) q) ∧ ∀ x ∈ xs, Bounded den (f v) x.facetType) →
          runChecks (ordered cmp parse) v ([.value c s ty] ++ xs.flatMap fun x => Gen.condsOf ty x.facetType) = .ok ()) ∧
        (¬ ((∃ q, den s q ∧ R (f v) q) ∧ ∀ x ∈ xs, Bounded den (f v) x.facetType) →
          runChecks (ordered cmp parse) v ([.value c s ty] ++ xs.flatMap fun x => Gen.condsOf ty x.facetType) = .err) := by
      rintro R c s ⟨q, hq⟩ hR
      obtain ⟨w, hw, hP, hf⟩ := ho.parse s q hq
      have hpar : (ordered cmp parse).parse s = some w := by simp [ordered, hw]
      have hiff : (∃ q, den s q ∧ R (f v) q) ↔ R (f v) (f w) := by
        constructor
        · rintro ⟨q', hq', hr⟩
          obtain ⟨w', hw', -, hf'⟩ := ho.parse s q' hq'
          rw [hw] at hw'; cases hw'
          rw [hf']; exact hr
        · intro hr; exact ⟨q, hq, hf ▸ hr⟩
      rw [hiff]
      simp only [List.singleton_append, runChecks, Cond.eval, hpar, Option.map_some]
      cases hcc : c.onValues (ordered cmp parse) v w with
      | true =>
        have hn := (hR w hP).1 hcc
        exact ⟨fun h => absurd h.1 hn, fun _ => rfl⟩
      | false =>
        have hy : R (f v) (f w) := by
          by_contra hn
          rw [(hR w hP).2 hn] at hcc; cases hcc
        exact ⟨fun h => h1 h.2, fun h => h2 fun h' => h ⟨hy, h'⟩⟩
    revert hx free
    cases x.facetType with
    | maxExclusive s =>
      exact fun hx _ => one (R := (· < ·)) hx.2 fun w hw => ((ordered_lt (ho.cmp w v hw hv)).2).trans not_lt.symm
    | maxInclusive s =>
      exact fun hx _ => one (R := (· ≤ ·)) hx.2 fun w hw => ((ordered_lt (ho.cmp w v hw hv)).1).trans not_le.symm
    | minExclusive s =>
      exact fun hx _ => one (R := fun a b => b < a) hx.2 fun w hw => ((ordered_lt (ho.cmp v w hv hw)).2).trans not_lt.symm
    | minInclusive s =>
      exact fun hx _ => one (R := fun a b => b ≤ a) hx.2 fun w hw => ((ordered_lt (ho.cmp v w hv hw)).1).trans not_le.symm
    | length s => exact fun hx _ => absurd hx id
    | maxLength s => exact fun hx _ => absurd hx id
    | minLength s => exact fun hx _ => absurd hx id
    | _ => exact fun _ free => free trivial rfl

/-- **C74** Where the derived order is the order of the values, the generated checks enforce exactly the bounds: for
every restriction whose facets are bounds with legal literals, a value passes if it is within all of them and is
refused otherwise. -/
theorem C74_bounds {V Q : Type} [LinearOrder Q] {cmp : V → V → Option Ordering} {parse : Str → Res V} {P : V → Prop}
    {f : V → Q} {den : Str → Q → Prop} (ho : OrderedBy cmp parse P f den)
    (g : GenCtx) (name typeName : Str) (comment : Option Str) (subtypes : List RsEntity)
    (ms : List TypeModifier) (facets : List Facet) (r : Str)
    (h : generate g (.tupleStruct (.mk name comment typeName subtypes ms facets)) = .ok r)
    (hl : ∀ x ∈ facets, LegalBound den x.facetType) :
    ∃ pre impl conds, r = pre ++ impl ++ "\n".toList ∧ ValidateImpl (g.typeName name) conds impl ∧ ∀ v : V, P v →
      ((∀ x ∈ facets, Bounded den (f v) x.facetType) → runChecks (ordered cmp parse) v conds = .ok ()) ∧
      (¬ (∀ x ∈ facets, Bounded den (f v) x.facetType) → runChecks (ordered cmp parse) v conds = .err) := by
  rw [generate] at h
  obtain ⟨ss, -, h⟩ := Res.bind_eq_ok.1 h
  delta tupleText at h
  obtain ⟨body, hb, h⟩ := Res.bind_eq_ok.1 h
  obtain rfl := Res.ok.inj h
  refine ⟨_, _, facets.flatMap fun x => Gen.condsOf (tupleTypeName g typeName ms) x.facetType, rfl,
    Gen.facets_validate hb ?_, fun v hv => run_bounds ho _ v hv facets hl⟩
  intro x hx v hv
  have hleg := hl x hx
  revert hv hleg
  cases x.facetType <;> intro hv hleg <;> cases hv <;> exact hleg.1

/-- **C74** `C74_bounds` applies to the five integer types, with the XSD integers in their range as literals (for
`xs::NonNegativeInteger`: those without a minus sign). -/
theorem C74_bounds_integers :
    OrderedBy Integer.partialCmp Integer.fromStr (fun _ => True) (·.val) (fun s q => ∃ sg, XsdInt s sg q) ∧
    OrderedBy NonNegativeInteger.partialCmp NonNegativeInteger.fromStr (fun _ => True) (fun v => (v.val : Int))
      (fun s q => ∃ sg, XsdInt s sg q ∧ sg ≠ .minus) ∧
    OrderedBy PositiveInteger.partialCmp PositiveInteger.fromStr (fun _ => True) (fun v => (v.val : Int))
      (fun s q => ∃ sg, XsdInt s sg q ∧ 0 < q) ∧
    OrderedBy NonPositiveInteger.partialCmp NonPositiveInteger.fromStr (fun _ => True) (·.val)
      (fun s q => ∃ sg, XsdInt s sg q ∧ q ≤ 0) ∧
    OrderedBy NegativeInteger.partialCmp NegativeInteger.fromStr (fun _ => True) (·.val)
      (fun s q => ∃ sg, XsdInt s sg q ∧ q < 0) := by
  obtain ⟨c1, c2, c3, c4, c5⟩ := C74_integers
  refine ⟨⟨fun a b _ _ => c1 a b, fun s q ⟨sg, h⟩ => ?_⟩, ⟨fun a b _ _ => c2 a b, fun s q ⟨sg, h, hs⟩ => ?_⟩,
    ⟨fun a b _ _ => c3 a b, fun s q ⟨sg, h, hs⟩ => ?_⟩, ⟨fun a b _ _ => c4 a b, fun s q ⟨sg, h, hs⟩ => ?_⟩,
    ⟨fun a b _ _ => c5 a b, fun s q ⟨sg, h, hs⟩ => ?_⟩⟩
  · exact ⟨_, (C16_complete s sg q h).1, trivial, rfl⟩
  · have h0 : 0 ≤ q := by
      obtain ⟨ds, -, -, rfl⟩ := h
      cases sg with
      | minus => exact absurd rfl hs
      | none => exact Int.natCast_nonneg _
      | plus => exact Int.natCast_nonneg _
    exact ⟨_, (C16_complete s sg q h).2.2.1 h0 hs, trivial, by dsimp only; omega⟩
  · exact ⟨_, (C16_complete s sg q h).2.1 hs, trivial, by dsimp only; omega⟩
  · exact ⟨_, (C16_complete s sg q h).2.2.2.1 hs, trivial, rfl⟩
  · exact ⟨_, (C16_complete s sg q h).2.2.2.2 hs, trivial, rfl⟩

/-- **C74** It applies to `xs::Decimal`, with the XSD decimals as literals. -/
theorem C74_bounds_decimal : OrderedBy Decimal.partialCmp Decimal.fromStr (fun _ => True)
    (fun v => decQ v.val.int v.val.scale)
    (fun s q => ∃ sg ds fs, XsdDec s sg ds fs ∧ fs.length < 2 ^ 63 ∧ q = xsdDecVal sg ds fs) := by
  refine ⟨fun a b _ _ => C74_decimal a b, ?_⟩
  rintro s q ⟨sg, ds, fs, h, hl, rfl⟩
  obtain ⟨v, hv, e⟩ := C62_complete h hl
  exact ⟨v, hv, trivial, e⟩

/-- **C74** It applies to `xs::DateTime` and `xs::DateTimeStamp` for all values but leap seconds, with the XSD
date-times of four-digit years as literals (those with a timezone for the latter; digits after the ninth of a fraction
do not count). -/
theorem C74_bounds_datetime (yr : YearRange) :
    OrderedBy DateTime.partialCmp (DateTime.fromStr yr)
      (fun x => ChronoValue x.value ∧ x.value.time.nano < 1000000000) (fun x => instant x.value)
      (fun s q => ∃ b t y m d hh mm ss nano o, s = b ++ t ∧ DateTimeBody b 'T' y m d hh mm ss nano ∧ ss < 60 ∧
        (t = [] ∧ o = 0 ∨ TzText t o) ∧ q = timeline y m d hh mm ss o * 1000000000 + nano) ∧
    OrderedBy DateTimeStamp.partialCmp (DateTimeStamp.fromStr yr)
      (fun x => ChronoValue x.value.value ∧ x.value.value.time.nano < 1000000000) (fun x => instant x.value.value)
      (fun s q => ∃ b t y m d hh mm ss nano o, s = b ++ t ∧ DateTimeBody b 'T' y m d hh mm ss nano ∧ ss < 60 ∧
        TzText t o ∧ q = timeline y m d hh mm ss o * 1000000000 + nano) := by
  have hval : ∀ {b : Str} {y m d hh mm ss nano : Nat} {o : Int}, DateTimeBody b 'T' y m d hh mm ss nano → ss < 60 →
      (o = 0 ∨ ∃ t, TzText t o) → (ChronoValue (dtValue y m d hh mm ss nano o) ∧
        (dtValue y m d hh mm ss nano o).time.nano < 1000000000) ∧
        instant (dtValue y m d hh mm ss nano o) = timeline y m d hh mm ss o * 1000000000 + nano := by
    intro b y m d hh mm ss nano o hb hs ho
    obtain ⟨fr, -, hd, h1, h2, -, hf, -⟩ := hb
    have hn : nano < 1000000000 := by
      cases hf with
      | none => decide
      | some ds hds => exact Chr.nanoOf_lt hds.2
    have hoff : (-86400 : Int) < o ∧ o < 86400 := by
      rcases ho with rfl | ⟨t, ht⟩
      · decide
      · cases ht with
        | zulu => decide
        | east h m h1 h2 => omega
        | west h m h1 h2 => omega
    have e60 : ss ≠ 60 := by omega
    have e59 : min ss 59 = ss := by omega
    unfold ChronoValue instant dtValue
    simp only [if_neg e60, e59]
    exact ⟨⟨⟨hd, h1, h2, hs, by omega, fun h => absurd hn (by omega), hoff.1, hoff.2⟩, hn⟩, trivial⟩
  refine ⟨⟨fun a b ha hb => (C74_datetime a b ha.1 hb.1).2 ha.2 hb.2, ?_⟩,
    ⟨fun a b ha hb => (C74_stamp a b).trans ((C74_datetime _ _ ha.1 hb.1).2 ha.2 hb.2), ?_⟩⟩
  · rintro s q ⟨b, t, y, m, d, hh, mm, ss, nano, o, rfl, hb, hs, ht, rfl⟩
    obtain ⟨hP, he⟩ := hval (o := o) hb hs (ht.elim (fun h => Or.inl h.2) fun h => Or.inr ⟨_, h⟩)
    refine ⟨⟨dtValue y m d hh mm ss nano o⟩, ?_, hP, he⟩
    rcases ht with ⟨rfl, rfl⟩ | ht
    · rw [List.append_nil]; exact C22_missing_is_utc yr b y m d hh mm ss nano hb
    · exact C22_keeps_offset yr b t y m d hh mm ss nano o hb ht
  · rintro s q ⟨b, t, y, m, d, hh, mm, ss, nano, o, rfl, hb, hs, ht, rfl⟩
    obtain ⟨hP, he⟩ := hval (o := o) hb hs (Or.inr ⟨_, ht⟩)
    refine ⟨⟨⟨dtValue y m d hh mm ss nano o⟩⟩, ?_, hP, he⟩
    refine (C24_accepts_iff _ _ _).2 ⟨b, t, 'T', y, m, d, hh, mm, ss, nano, o, rfl, Or.inl rfl, hb, ?_, rfl⟩
    cases ht with
    | zulu => exact .zulu
    | east h m h1 h2 => exact .off (by simpa using OffText.east h m (by omega) h1)
    | west h m h1 h2 => exact .off (by simpa using OffText.west '-' h m (Or.inl rfl) (by omega) h1)

/-- **C74** It applies to the machine integers of any width, with the XSD integers in their range as literals (for
unsigned ones: those without a minus sign). -/
theorem C74_bounds_machine (lo hi : Int) (mx : Nat) :
    OrderedBy (fun a b : Int => some (compare a b)) (fun s => Res.ofOption (Str.parseSigned lo hi s)) (fun _ => True) id
      (fun s q => (∃ sg, XsdInt s sg q) ∧ lo ≤ q ∧ q ≤ hi) ∧
    OrderedBy (fun a b : Nat => some (compare a b)) (fun s => Res.ofOption (Str.parseUnsigned mx s)) (fun _ => True)
      (fun v => (v : Int)) (fun s q => ∃ sg, sg ≠ .minus ∧ XsdInt s sg q ∧ q ≤ mx) := by
  refine ⟨⟨fun a b _ _ => rfl, fun s q h => ⟨q, ?_, trivial, rfl⟩⟩, ⟨fun a b _ _ => ?_, fun s q h => ?_⟩⟩
  · rw [(Dec.parseSigned_text lo hi s q).2 h]; rfl
  · rw [compare_cast]
  · obtain ⟨sg, hs, hx, hm⟩ := h
    have h0 : 0 ≤ q := by
      obtain ⟨ds, -, -, rfl⟩ := hx
      cases sg with
      | minus => exact absurd rfl hs
      | none => exact Int.natCast_nonneg _
      | plus => exact Int.natCast_nonneg _
    have e : ((q.toNat : Nat) : Int) = q := by omega
    refine ⟨q.toNat, ?_, trivial, e⟩
    rw [(Gen.parseUnsigned_iff (n := q.toNat)).2 ⟨sg, hs, by rw [e]; exact hx, by omega⟩]; rfl

/-- A restriction of `xs:integer` to 3..7: the checks which are generated refuse exactly what is outside. -/
example (v : Integer) (g : GenCtx) (r : Str)
    (h : generate g (.tupleStruct (.mk "T".toList none "xs:integer".toList [] []
      [⟨.minInclusive "3".toList, none⟩, ⟨.maxExclusive "7".toList, none⟩])) = .ok r) :
    ∃ pre impl conds, r = pre ++ impl ++ "\n".toList ∧ ValidateImpl (g.typeName "T".toList) conds impl ∧
      (runChecks (ordered Integer.partialCmp Integer.fromStr) v conds = .ok () ↔ 3 ≤ v.val ∧ v.val < 7) := by
  have h3 : XsdInt "3".toList .none 3 := ⟨[3], ⟨by simp, by simp [Digits]⟩, by decide, by decide⟩
  have h7 : XsdInt "7".toList .none 7 := ⟨[7], ⟨by simp, by simp [Digits]⟩, by decide, by decide⟩
  have a3 : ∀ s q q', (∃ sg, XsdInt s sg q) → (∃ sg, XsdInt s sg q') → q = q' := by
    intro s q q' hq hq'
    obtain ⟨w, hw, -, rfl⟩ := C74_bounds_integers.1.parse s q hq
    obtain ⟨w', hw', -, rfl⟩ := C74_bounds_integers.1.parse s q' hq'
    rw [hw] at hw'; cases hw'; rfl
  obtain ⟨pre, impl, conds, e, hi, hr⟩ := C74_bounds C74_bounds_integers.1 g _ _ _ _ _ _ r h (by
    intro x hx
    simp only [List.mem_cons, List.not_mem_nil, or_false] at hx
    rcases hx with rfl | rfl
    · exact ⟨by unfold QuoteSafe; decide, 3, _, h3⟩
    · exact ⟨by unfold QuoteSafe; decide, 7, _, h7⟩)
  refine ⟨pre, impl, conds, e, hi, ?_⟩
  have hall : (∀ x ∈ [(⟨.minInclusive "3".toList, none⟩ : Facet), ⟨.maxExclusive "7".toList, none⟩],
      Bounded (fun s q => ∃ sg, XsdInt s sg q) v.val x.facetType) ↔ 3 ≤ v.val ∧ v.val < 7 := by
    simp only [List.forall_mem_cons, List.not_mem_nil, IsEmpty.forall_iff, implies_true, and_true, Bounded]
    constructor
    · rintro ⟨⟨q, hq, h1⟩, q', hq', h2⟩
      rw [a3 _ _ _ hq ⟨_, h3⟩] at h1
      rw [a3 _ _ _ hq' ⟨_, h7⟩] at h2
      exact ⟨h1, h2⟩
    · rintro ⟨h1, h2⟩
      exact ⟨⟨3, ⟨_, h3⟩, h1⟩, 7, ⟨_, h7⟩, h2⟩
  rw [← hall]
  constructor
  · intro hok
    by_contra hn
    rw [(hr v trivial).2 hn] at hok; cases hok
  · exact (hr v trivial).1

/-- **C74** (violated) The bound which is meant to keep negative durations out lets all of them in, and an upper bound
refuses all of them: the checks for `minInclusive` and `maxInclusive` with any bound that is not negative. -/
theorem C74_duration_bounds_violated (o : FloatOps Rat) (p : Profile) (lit ty : Str) (bound v : Duration Rat)
    (hb : Duration.fromStr o p lit = .ok bound) (hneg : bound.isNegative = false) (hv : v.isNegative = true) :
    (∃ body, facetBodies ty [⟨.minInclusive lit, none⟩] = .ok body ∧ (QuoteSafe lit → Checks [.value .lt lit ty] body)) ∧
    (∃ body, facetBodies ty [⟨.maxInclusive lit, none⟩] = .ok body ∧ (QuoteSafe lit → Checks [.value .gt lit ty] body)) ∧
    runChecks (ordered (Duration.partialCmp ratCmp) (Duration.fromStr o p)) v [.value .lt lit ty] = .ok () ∧
    runChecks (ordered (Duration.partialCmp ratCmp) (Duration.fromStr o p)) v [.value .gt lit ty] = .err := by
  refine ⟨⟨_, rfl, fun hq => ?_⟩, ⟨_, rfl, fun hq => ?_⟩, ?_, ?_⟩
  · exact (Gen.facets_checks (ty := ty) [⟨.minInclusive lit, none⟩] _ rfl
      (by intro f hf v hv; simp at hf; subst hf; cases hv; exact hq)).1
  · exact (Gen.facets_checks (ty := ty) [⟨.maxInclusive lit, none⟩] _ rfl
      (by intro f hf v hv; simp at hf; subst hf; cases hv; exact hq)).1
  · simp only [runChecks, Cond.eval, hb, Option.map_some, Cmp.onValues, ordered, Duration.partialCmp, hneg, hv]
    rfl
  · simp only [runChecks, Cond.eval, hb, Option.map_some, Cmp.onValues, ordered, Duration.partialCmp, hneg, hv]
    rfl

example : Duration.fromStr (exactOps fun _ => []) .debug "PT0S".toList = .ok ⟨false, 0, 0, 0, 0, 0, 0⟩ := by
  decide +kernel

end Verif.Props
