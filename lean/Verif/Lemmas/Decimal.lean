import Verif.Model.Decimal
import Verif.Spec.Decimal
import Verif.Lemmas.Integers
import Mathlib.Tactic.Ring
import Mathlib.Tactic.FieldSimp

/-! # Lemmas: decimal texts -/

namespace Verif.Lemmas.Dec

open Verif Verif.NumBigint Verif.BigDecimal Verif.Spec Verif.Lemmas.Dur Verif.Lemmas.Int'

theorem splitFirst_none {p : Char → Bool} {s : Str} : splitFirst p s = none ↔ ∀ c ∈ s, p c = false := by
  induction s with
  | nil => simp [splitFirst]
  | cons c s ih =>
    rw [splitFirst]
    by_cases hc : p c = true
    · rw [if_pos hc]; simp [hc]
    · rw [if_neg hc, Option.map_eq_none_iff, ih]
      simp [hc]

theorem splitFirst_some {p : Char → Bool} {s a b : Str} : splitFirst p s = some (a, b) ↔
    ∃ c, p c = true ∧ s = a ++ c :: b ∧ ∀ x ∈ a, p x = false := by
  induction s generalizing a with
  | nil => simp [splitFirst]
  | cons c s ih =>
    rw [splitFirst]
    by_cases hc : p c = true
    · rw [if_pos hc]
      constructor
      · intro h; cases h; exact ⟨c, hc, rfl, by simp⟩
      · rintro ⟨c', h1, h2, h3⟩
        cases a with
        | nil => cases h2; rfl
        | cons x a =>
          cases h2
          rw [h3 _ (List.mem_cons_self ..)] at hc
          cases hc
    · rw [if_neg hc, Option.map_eq_some_iff]
      constructor
      · rintro ⟨⟨a', b'⟩, h1, h2⟩
        cases h2
        obtain ⟨c', g1, g2, g3⟩ := ih.1 h1
        refine ⟨c', g1, by rw [g2]; rfl, ?_⟩
        intro x hx
        rcases List.mem_cons.1 hx with rfl | hx
        · simpa using hc
        · exact g3 x hx
      · rintro ⟨c', h1, h2, h3⟩
        cases a with
        | nil => cases h2; exact absurd h1 hc
        | cons x a =>
          cases h2
          exact ⟨(a, b), ih.2 ⟨c', h1, rfl, fun x hx => h3 x (List.mem_cons_of_mem _ hx)⟩, rfl⟩

theorem parseDigits_text (s : Str) (n : Nat) : Str.parseDigits s = some n ↔ ∃ ds, Digits1 ds ∧ s = dtext ds ∧ n = decVal ds := by
  rw [Str.parseDigits_eq_some]
  constructor
  · rintro ⟨h1, h2, h3⟩
    obtain ⟨ds, hd, rfl⟩ := dtext_of_allDigits h2
    refine ⟨ds, ⟨?_, hd⟩, rfl, ?_⟩
    · rintro rfl; exact h1 rfl
    · rw [← decVal_eq_digitsVal hd]; exact h3.symm
  · rintro ⟨ds, ⟨h1, h2⟩, rfl, rfl⟩
    refine ⟨?_, ?_, ?_⟩
    · intro e; exact h1 (List.map_eq_nil_iff.1 e)
    · rw [Str.allDigits, List.all_eq_true]
      intro c hc
      obtain ⟨d, hd, rfl⟩ := List.mem_map.1 hc
      exact isAsciiDigit_spec (h2 d hd)
    · exact decVal_eq_digitsVal h2

theorem dtext_cons_ne {ds : List Nat} (hd : Digits ds) {c : Char} (hc : Str.isAsciiDigit c = false) {t : Str} : dtext ds ≠ c :: t := by
  cases ds with
  | nil => intro h; cases h
  | cons d ds =>
    intro h
    exact digit_ne (hd d (by simp)) hc (List.cons.inj h).1

theorem parseSigned_text (lo hi : Int) (s : Str) (v : Int) :
    Str.parseSigned lo hi s = some v ↔ (∃ sg, XsdInt s sg v) ∧ lo ≤ v ∧ v ≤ hi := by
  have range : ∀ r : Option Int, (r.bind fun v => if lo ≤ v ∧ v ≤ hi then some v else none) = some v ↔
      r = some v ∧ lo ≤ v ∧ v ≤ hi := by
    intro r
    cases r with
    | none => simp
    | some w =>
      rw [Option.bind_some]
      by_cases h : lo ≤ w ∧ w ≤ hi
      · rw [if_pos h]
        constructor
        · intro e; cases e; exact ⟨rfl, h⟩
        · intro e; exact e.1
      · rw [if_neg h]
        constructor
        · intro e; cases e
        · rintro ⟨e, h'⟩; cases e; exact absurd h' h
  unfold Str.parseSigned
  rw [range]
  refine and_congr ?_ Iff.rfl
  split
  · next ds =>
    rw [Option.map_eq_some_iff]
    constructor
    · rintro ⟨n, hn, rfl⟩
      obtain ⟨l, h1, rfl, rfl⟩ := (parseDigits_text _ _).1 hn
      exact ⟨.minus, l, h1, rfl, rfl⟩
    · rintro ⟨sg, l, h1, h2, rfl⟩
      cases sg with
      | none => exact absurd h2.symm (dtext_cons_ne h1.2 (by decide))
      | plus => cases h2
      | minus => exact ⟨decVal l, (parseDigits_text _ _).2 ⟨l, h1, (List.cons.inj h2).2, rfl⟩, rfl⟩
  · next ds =>
    rw [Option.map_eq_some_iff]
    constructor
    · rintro ⟨n, hn, rfl⟩
      obtain ⟨l, h1, rfl, rfl⟩ := (parseDigits_text _ _).1 hn
      exact ⟨.plus, l, h1, rfl, rfl⟩
    · rintro ⟨sg, l, h1, h2, rfl⟩
      cases sg with
      | none => exact absurd h2.symm (dtext_cons_ne h1.2 (by decide))
      | plus => exact ⟨decVal l, (parseDigits_text _ _).2 ⟨l, h1, (List.cons.inj h2).2, rfl⟩, rfl⟩
      | minus => cases h2
  · next hm hp =>
    rw [Option.map_eq_some_iff]
    constructor
    · rintro ⟨n, hn, rfl⟩
      obtain ⟨l, h1, rfl, rfl⟩ := (parseDigits_text _ _).1 hn
      exact ⟨.none, l, h1, rfl, rfl⟩
    · rintro ⟨sg, l, h1, rfl, rfl⟩
      cases sg with
      | none => exact ⟨decVal l, (parseDigits_text _ _).2 ⟨l, h1, rfl, rfl⟩, rfl⟩
      | plus => exact absurd rfl (hp _)
      | minus => exact absurd rfl (hm _)

/-! ## Characters -/

/-- Characters of an integer text. -/
def IntChar (c : Char) : Prop := c = '+' ∨ c = '-' ∨ c = '_' ∨ ∃ d < 10, c = digit d

theorem intChar_ne {c x : Char} (h : IntChar c) (h1 : '+' ≠ x) (h2 : '-' ≠ x) (h3 : '_' ≠ x)
    (h4 : Str.isAsciiDigit x = false) : c ≠ x := by
  rcases h with rfl | rfl | rfl | ⟨d, hd, rfl⟩
  · exact h1
  · exact h2
  · exact h3
  · exact digit_ne hd h4

theorem sign_chars {sg : Sign} : ∀ c ∈ sg.text, c = '+' ∨ c = '-' := by
  intro c hc
  cases sg with
  | none => cases hc
  | plus => exact .inl (List.mem_singleton.1 hc)
  | minus => exact .inr (List.mem_singleton.1 hc)

theorem utext_chars {us : List (Option Nat)} (hus : Digits (udigits us)) : ∀ c ∈ utext us, IntChar c := by
  intro c hc
  induction us with
  | nil => cases hc
  | cons u us ih =>
    cases u with
    | none =>
      rcases List.mem_cons.1 hc with rfl | hc
      · exact .inr (.inr (.inl rfl))
      · exact ih hus hc
    | some x =>
      rcases List.mem_cons.1 hc with rfl | hc
      · exact .inr (.inr (.inr ⟨x, hus x (by simp [udigits]), rfl⟩))
      · exact ih (fun y hy => hus y (by simp [udigits, hy])) hc

theorem uint_chars {s : Str} {sg : Sign} {v : Int} (h : UIntText s sg v) : ∀ c ∈ s, IntChar c := by
  obtain ⟨d, us, hd, hus, rfl, -⟩ := h
  intro c hc
  rcases List.mem_append.1 hc with hc | hc
  · rcases sign_chars c hc with h | h
    · exact .inl h
    · exact .inr (.inl h)
  · rcases List.mem_cons.1 hc with rfl | hc
    · exact .inr (.inr (.inr ⟨d, hd, rfl⟩))
    · exact utext_chars hus c hc

theorem uint_no_dot {s : Str} {sg : Sign} {v : Int} (h : UIntText s sg v) : '.' ∉ s := fun hm =>
  intChar_ne (uint_chars h _ hm) (by decide) (by decide) (by decide) (by decide) rfl

theorem uint_no_e {s : Str} {sg : Sign} {v : Int} (h : UIntText s sg v) : ∀ c ∈ s, c ≠ 'e' ∧ c ≠ 'E' := fun c hm =>
  ⟨intChar_ne (uint_chars h c hm) (by decide) (by decide) (by decide) (by decide),
    intChar_ne (uint_chars h c hm) (by decide) (by decide) (by decide) (by decide)⟩

theorem uint_ne_nil {s : Str} {sg : Sign} {v : Int} (h : UIntText s sg v) : s ≠ [] := by
  obtain ⟨d, us, -, -, rfl, -⟩ := h
  simp

theorem mantissa_no_e {s : Str} {v : Int} {n : Nat} (h : Mantissa s v n) : ∀ c ∈ s, (c == 'e' || c == 'E') = false := by
  have : ∀ c ∈ s, c ≠ 'e' ∧ c ≠ 'E' := by
    cases h with
    | whole h => exact uint_no_e h
    | point h =>
      intro c hc
      rcases List.mem_append.1 hc with hc | hc
      · exact uint_no_e h c (List.mem_append_left _ hc)
      · rcases List.mem_cons.1 hc with rfl | hc
        · exact ⟨by decide, by decide⟩
        · exact uint_no_e h c (List.mem_append_right _ hc)
  intro c hc
  simp [(this c hc).1, (this c hc).2]

theorem mantissa_ne_nil {s : Str} {v : Int} {n : Nat} (h : Mantissa s v n) : s ≠ [] := by
  cases h with
  | whole h => exact uint_ne_nil h
  | point h => simp

theorem mantissa_iff (s : Str) (v : Int) (n : Nat) :
    (parseBigInt (mantissa s).1 = some v ∧ (mantissa s).2 = n) ↔ Mantissa s v n := by
  rw [mantissa]
  cases hs : splitFirst (· == '.') s with
  | none =>
    rw [splitFirst_none] at hs
    dsimp only
    rw [parseBigInt_text]
    constructor
    · rintro ⟨⟨sg, h⟩, rfl⟩; exact .whole h
    · intro h
      cases h with
      | whole h => exact ⟨⟨_, h⟩, rfl⟩
      | point h => exact absurd (hs '.' (by simp)) (by decide)
  | some r =>
    obtain ⟨a, b⟩ := r
    obtain ⟨c, hc, rfl, ha⟩ := splitFirst_some.1 hs
    have : c = '.' := by simpa using hc
    subst this
    dsimp only
    rw [parseBigInt_text]
    have hcount : (b.filter (· != '_')).length = b.countP (· ≠ '_') := by
      rw [List.countP_eq_length_filter]
      congr 1
      apply List.filter_congr
      intro x _
      by_cases hx : x = '_' <;> simp [hx]
    rw [hcount]
    constructor
    · rintro ⟨⟨sg, h⟩, rfl⟩; exact .point h
    · intro h
      generalize he : a ++ '.' :: b = s at h
      cases h with
      | whole h => exact absurd (by rw [← he]; simp) (uint_no_dot h)
      | @point a' b' _ _ h =>
        have hn : '.' ∉ a' := fun hm => uint_no_dot h (List.mem_append_left _ hm)
        have hna : '.' ∉ a := fun hm => by have := ha _ hm; revert this; decide
        obtain ⟨rfl, rfl⟩ := Str.split_unique he (by rw [Str.countChar_eq_zero.2 hna, Str.countChar_eq_zero.2 hn])
        exact ⟨⟨_, h⟩, rfl⟩

theorem parse_iff (s : Str) (d : Dec) : parse s = some d ↔ DecText s d.int d.scale := by
  have e1 : i64Min = -9223372036854775808 := rfl
  have e2 : i64Max = 9223372036854775807 := rfl
  have e3 : i128Min = -170141183460469231731687303715884105728 := rfl
  have e4 : i128Max = 170141183460469231731687303715884105727 := rfl
  have fin : ∀ base x, ((if base = [] then none
      else if i128Min ≤ ((mantissa base).2 : Int) - x ∧ ((mantissa base).2 : Int) - x ≤ i128Max ∧
        i64Min ≤ ((mantissa base).2 : Int) - x ∧ ((mantissa base).2 : Int) - x ≤ i64Max then
        (parseBigInt (mantissa base).1).map fun v => (⟨v, (mantissa base).2 - x⟩ : Dec)
      else none) = some d) ↔ ∃ n, Mantissa base d.int n ∧ d.scale = n - x ∧ -2 ^ 63 ≤ d.scale ∧ d.scale < 2 ^ 63 := by
    intro base x
    constructor
    · intro h
      split at h
      · cases h
      · split at h
        · next hr =>
          rw [Option.map_eq_some_iff] at h
          obtain ⟨v, hv, rfl⟩ := h
          refine ⟨_, (mantissa_iff base v _).1 ⟨hv, rfl⟩, rfl, ?_, ?_⟩
          · dsimp only; omega
          · dsimp only; omega
        · cases h
    · rintro ⟨n, hm, hs, h1, h2⟩
      obtain ⟨hv, hn⟩ := (mantissa_iff base d.int n).2 hm
      rw [if_neg (mantissa_ne_nil hm), hn, if_pos, hv, Option.map_some]
      · cases d; dsimp only at hs; rw [hs]
      · rw [← hs]; omega
  rw [parse]
  dsimp only
  constructor
  · intro h
    cases he : splitFirst (fun c => c == 'e' || c == 'E') s with
    | none =>
      rw [he] at h
      obtain ⟨n, h1, h2, h3⟩ := (fin s 0).1 h
      exact ⟨s, [], n, 0, (List.append_nil s).symm, h1, .none, h2, h3⟩
    | some r =>
      obtain ⟨base, e⟩ := r
      rw [he] at h
      dsimp only at h
      obtain ⟨c, hc, rfl, -⟩ := splitFirst_some.1 he
      cases hx : Str.parseSigned i128Min i128Max e with
      | none => rw [hx] at h; cases h
      | some x =>
        rw [hx] at h
        obtain ⟨n, h1, h2, h3⟩ := (fin base x).1 h
        obtain ⟨⟨sg, hsg⟩, hlo, hhi⟩ := (parseSigned_text _ _ _ _).1 hx
        refine ⟨base, c :: e, n, x, rfl, h1, .some (by simpa using hc) hsg ?_ ?_, h2, h3⟩
        · omega
        · omega
  · rintro ⟨m, e, n, x, rfl, hm, he, hs, hr⟩
    have hme := mantissa_no_e hm
    cases he with
    | none =>
      rw [splitFirst_none.2 (by rw [List.append_nil]; exact hme)]
      dsimp only
      rw [Option.bind_some, List.append_nil]
      exact (fin m 0).2 ⟨n, hm, hs, hr⟩
    | @some c t sg _ hc ht hlo hhi =>
      rw [splitFirst_some.2 ⟨c, by simpa using hc, rfl, hme⟩]
      dsimp only
      rw [(parseSigned_text _ _ _ _).2 ⟨⟨sg, ht⟩, by omega, by omega⟩]
      exact (fin m x).2 ⟨n, hm, hs, hr⟩

/-! ## XSD texts -/

theorem digits_append {a b : List Nat} : Digits (a ++ b) ↔ Digits a ∧ Digits b := by
  constructor
  · intro h
    exact ⟨fun d hd => h d (List.mem_append_left _ hd), fun d hd => h d (List.mem_append_right _ hd)⟩
  · rintro ⟨h1, h2⟩ d hd
    rcases List.mem_append.1 hd with hd | hd
    · exact h1 d hd
    · exact h2 d hd

theorem dtext_append (a b : List Nat) : dtext (a ++ b) = dtext a ++ dtext b := List.map_append

theorem count_dtext {fs : List Nat} (h : Digits fs) : (dtext fs).countP (· ≠ '_') = fs.length := by
  have : ∀ c ∈ dtext fs, decide (c ≠ '_') = true := by
    intro c hc
    obtain ⟨d, hd, rfl⟩ := List.mem_map.1 hc
    simpa using digit_ne (h d hd) (by decide)
  rw [List.countP_eq_length.2 this, dtext, List.length_map]

theorem xsd_mantissa {s : Str} {sg : Sign} {ds fs : List Nat} (h : XsdDec s sg ds fs) :
    Mantissa s (sg.apply (decVal (ds ++ fs))) fs.length := by
  cases h with
  | whole h =>
    refine .whole (xsdInt_uint ⟨ds, h, rfl, ?_⟩)
    rw [List.append_nil]
  | point h1 h2 h3 =>
    rw [← count_dtext h2]
    refine .point (sg := sg) (xsdInt_uint ⟨ds ++ fs, ⟨h3, digits_append.2 ⟨h1, h2⟩⟩, ?_, rfl⟩)
    rw [dtext_append, List.append_assoc]

theorem xsd_dec {s : Str} {sg : Sign} {ds fs : List Nat} (h : XsdDec s sg ds fs) (hl : fs.length < 2 ^ 63) :
    DecText s (sg.apply (decVal (ds ++ fs))) fs.length :=
  ⟨s, [], fs.length, 0, (List.append_nil s).symm, xsd_mantissa h, .none, by omega, by omega, by omega⟩

/-- What an XSD text cannot have. -/
theorem xsd_chars {s : Str} {sg : Sign} {ds fs : List Nat} (h : XsdDec s sg ds fs) :
    'e' ∉ s ∧ 'E' ∉ s ∧ '_' ∉ s ∧ ∀ c t, s = '.' :: c :: t → c ≠ '+' ∧ c ≠ '-' := by
  have hmem : ∀ c ∈ s, c = '+' ∨ c = '-' ∨ c = '.' ∨ ∃ d < 10, c = digit d := by
    intro c hc
    have hdig : ∀ l : List Nat, Digits l → c ∈ dtext l → ∃ d < 10, c = digit d := by
      intro l hl hc
      obtain ⟨d, hd, rfl⟩ := List.mem_map.1 hc
      exact ⟨d, hl d hd, rfl⟩
    cases h with
    | whole h =>
      rcases List.mem_append.1 hc with hc | hc
      · rcases sign_chars c hc with h | h
        · exact .inl h
        · exact .inr (.inl h)
      · exact .inr (.inr (.inr (hdig _ h.2 hc)))
    | point h1 h2 =>
      rcases List.mem_append.1 hc with hc | hc
      · rcases List.mem_append.1 hc with hc | hc
        · rcases sign_chars c hc with h | h
          · exact .inl h
          · exact .inr (.inl h)
        · exact .inr (.inr (.inr (hdig _ h1 hc)))
      · rcases List.mem_cons.1 hc with rfl | hc
        · exact .inr (.inr (.inl rfl))
        · exact .inr (.inr (.inr (hdig _ h2 hc)))
  have hne : ∀ x : Char, '+' ≠ x → '-' ≠ x → '.' ≠ x → Str.isAsciiDigit x = false → x ∉ s := by
    intro x h1 h2 h3 h4 hx
    rcases hmem x hx with h | h | h | ⟨d, hd, h⟩
    · exact h1 h.symm
    · exact h2 h.symm
    · exact h3 h.symm
    · exact digit_ne hd h4 h.symm
  refine ⟨hne _ (by decide) (by decide) (by decide) (by decide), hne _ (by decide) (by decide) (by decide) (by decide),
    hne _ (by decide) (by decide) (by decide) (by decide), ?_⟩
  intro c t e
  cases h with
  | whole h =>
    cases sg with
    | none => exact absurd e (dtext_cons_ne h.2 (by decide))
    | plus => cases e
    | minus => cases e
  | point h1 h2 =>
    cases sg with
    | plus => cases e
    | minus => cases e
    | none =>
      cases ds with
      | cons d ds => exact absurd (List.cons.inj e).1 (digit_ne (h1 d (by simp)) (by decide))
      | nil =>
        have e' : dtext fs = c :: t := (List.cons.inj e).2
        constructor
        · rintro rfl; exact dtext_cons_ne h2 (by decide) e'
        · rintro rfl; exact dtext_cons_ne h2 (by decide) e'

theorem dtext_split {ds : List Nat} {a b : Str} (h : dtext ds = a ++ b) : ∃ x y, ds = x ++ y ∧ a = dtext x ∧ b = dtext y := by
  obtain ⟨x, y, h1, h2, h3⟩ := List.map_eq_append_iff.1 h
  exact ⟨x, y, h1, h2.symm, h3.symm⟩

theorem mantissa_xsd {s : Str} {v : Int} {n : Nat} (h : Mantissa s v n) (hu : '_' ∉ s)
    (hs : ∀ c t, s = '.' :: c :: t → c ≠ '+' ∧ c ≠ '-') :
    ∃ sg ds fs, XsdDec s sg ds fs ∧ v = sg.apply (decVal (ds ++ fs)) ∧ n = fs.length := by
  cases h with
  | whole h =>
    obtain ⟨ds, h1, rfl, rfl⟩ := uint_xsd h hu
    exact ⟨_, ds, [], .whole h1, by rw [List.append_nil], rfl⟩
  | @point a b sg _ h =>
    have hu' : '_' ∉ a ++ b := by
      intro hm
      apply hu
      rcases List.mem_append.1 hm with hm | hm
      · exact List.mem_append_left _ hm
      · exact List.mem_append_right _ (List.mem_cons_of_mem _ hm)
    obtain ⟨ds, ⟨h1, h1'⟩, h2, rfl⟩ := uint_xsd h hu'
    have key : ∃ a', a = sg.text ++ a' ∧ dtext ds = a' ++ b := by
      rcases List.append_eq_append_iff.1 h2 with ⟨x, hx, hy⟩ | ⟨x, hx, hy⟩
      · -- `a` is a part of the sign
        cases a with
        | nil =>
          cases sg with
          | none => exact ⟨[], rfl, h2.symm⟩
          | plus =>
            have : b = '+' :: dtext ds := h2
            subst this
            exact absurd rfl (hs _ _ rfl).1
          | minus =>
            have : b = '-' :: dtext ds := h2
            subst this
            exact absurd rfl (hs _ _ rfl).2
        | cons c a =>
          have hx0 : x = [] ∧ a = [] := by
            cases sg with
            | none => cases hx
            | plus =>
              have := (List.cons.inj hx).2
              exact ⟨(List.append_eq_nil_iff.1 this.symm).2, (List.append_eq_nil_iff.1 this.symm).1⟩
            | minus =>
              have := (List.cons.inj hx).2
              exact ⟨(List.append_eq_nil_iff.1 this.symm).2, (List.append_eq_nil_iff.1 this.symm).1⟩
          obtain ⟨rfl, rfl⟩ := hx0
          exact ⟨[], by rw [hx, List.append_nil, List.append_nil], hy.symm⟩
      · exact ⟨x, hx, hy⟩
    obtain ⟨a', rfl, hd⟩ := key
    obtain ⟨x, y, rfl, rfl, rfl⟩ := dtext_split hd
    obtain ⟨hx, hy⟩ := digits_append.1 h1'
    exact ⟨sg, x, y, .point hx hy h1, rfl, count_dtext hy⟩

/-! ## Printing -/

theorem apply_sign (v : Int) : ∃ sg : Sign, showSign v = sg.text ∧ ∀ m : Nat, sg.apply m = if v < 0 then -(m : Int) else m := by
  rw [showSign]
  by_cases h : v < 0
  · exact ⟨.minus, by rw [if_pos h]; rfl, fun m => by rw [if_pos h]; rfl⟩
  · exact ⟨.none, by rw [if_neg h]; rfl, fun m => by rw [if_neg h]; rfl⟩

theorem decVal_zeros (n : Nat) : decVal (List.replicate n 0) = 0 := by
  induction n with
  | zero => rfl
  | succ n ih => rw [List.replicate_succ, decVal_cons, ih]; simp

theorem dtext_zeros (n : Nat) : List.replicate n '0' = dtext (List.replicate n 0) := by
  rw [dtext, List.map_replicate]; rfl

theorem digits_zeros (n : Nat) : Digits (List.replicate n 0) := by
  intro d hd
  rw [List.eq_of_mem_replicate hd]; decide

theorem apply_natAbs (v : Int) : (if v < 0 then -(v.natAbs : Int) else v.natAbs) = v := by
  by_cases h : v < 0
  · rw [if_pos h]; omega
  · rw [if_neg h]; omega

/-- A number written out in full is an XSD decimal. -/
theorem showFull_xsd (d : Dec) : ∃ sg ds fs, XsdDec (showFull d) sg ds fs ∧ (fs.length : Int) = max d.scale 0 ∧
    sg.apply (decVal (ds ++ fs)) = d.int * 10 ^ (-d.scale).toNat := by
  obtain ⟨sg, h1, h2⟩ := apply_sign d.int
  obtain ⟨l, ⟨hl1, hl2⟩, hl3, hl4⟩ := natStr_dtext d.int.natAbs
  rw [showFull]
  rw [h1, show showBigUint d.int.natAbs = dtext l from hl3]
  by_cases hs : d.scale ≤ 0
  · rw [if_pos hs]
    refine ⟨sg, l ++ List.replicate d.scale.natAbs 0, [], ?_, ?_, ?_⟩
    · rw [List.append_assoc, dtext_zeros, ← dtext_append]
      refine .whole ⟨?_, digits_append.2 ⟨hl2, digits_zeros _⟩⟩
      intro e; exact hl1 (List.append_eq_nil_iff.1 e).1
    · rw [max_eq_right hs]; rfl
    · rw [List.append_nil, h2, decVal_append, decVal_zeros, hl4, List.length_replicate]
      have e : (-d.scale).toNat = d.scale.natAbs := by omega
      rw [e]
      have := apply_natAbs d.int
      by_cases h : d.int < 0
      · rw [if_pos h] at this ⊢
        rw [add_zero, Nat.cast_mul, Nat.cast_pow, ← neg_mul, this]; rfl
      · rw [if_neg h] at this ⊢
        rw [add_zero, Nat.cast_mul, Nat.cast_pow, this]; rfl
  · rw [if_neg hs]
    have e0 : (-d.scale).toNat = 0 := by omega
    rw [e0, pow_zero, mul_one]
    have hlen : (dtext l).length = l.length := List.length_map _
    have hmax : max d.scale 0 = (d.scale.natAbs : Int) := by rw [max_eq_left (by omega)]; omega
    by_cases hp : d.scale.natAbs < (dtext l).length
    · rw [if_pos hp]
      rw [hlen] at hp ⊢
      refine ⟨sg, l.take (l.length - d.scale.natAbs), l.drop (l.length - d.scale.natAbs), ?_, ?_, ?_⟩
      · rw [dtext, ← List.map_take, ← List.map_drop]
        refine .point ?_ ?_ (by rw [List.take_append_drop]; exact hl1)
        · exact fun x hx => hl2 x (List.mem_of_mem_take hx)
        · exact fun x hx => hl2 x (List.mem_of_mem_drop hx)
      · rw [List.length_drop, hmax]; omega
      · rw [List.take_append_drop, h2, hl4, apply_natAbs]
    · rw [if_neg hp]
      rw [hlen] at hp ⊢
      refine ⟨sg, [0], List.replicate (d.scale.natAbs - l.length) 0 ++ l, ?_, ?_, ?_⟩
      · rw [dtext_zeros, ← dtext_append]
        have : sg.text ++ '0' :: '.' :: dtext (List.replicate (d.scale.natAbs - l.length) 0 ++ l) =
            sg.text ++ dtext [0] ++ '.' :: dtext (List.replicate (d.scale.natAbs - l.length) 0 ++ l) := by
          rw [List.append_assoc]; rfl
        rw [this]
        exact .point (by intro x hx; rw [List.mem_singleton.1 hx]; decide) (digits_append.2 ⟨digits_zeros _, hl2⟩) (by simp)
      · rw [List.length_append, List.length_replicate, hmax]; omega
      · rw [h2]
        have : decVal ([0] ++ (List.replicate (d.scale.natAbs - l.length) 0 ++ l)) = d.int.natAbs := by
          rw [decVal_append, decVal_append, decVal_zeros, hl4]
          simp [decVal]
        rw [this, apply_natAbs]

theorem showPlus_xsd (v : Int) : ∃ sg, XsdInt (showPlus v) sg v := by
  obtain ⟨l, hl, hl3, hl4⟩ := natStr_dtext v.natAbs
  rw [showPlus, hl3]
  by_cases h : v < 0
  · rw [if_pos h]
    exact ⟨.minus, l, hl, rfl, by rw [hl4]; simp only [Sign.apply]; omega⟩
  · rw [if_neg h]
    exact ⟨.plus, l, hl, rfl, by rw [hl4]; simp only [Sign.apply]; omega⟩

theorem showExp_text (d : Dec) (h1 : -2 ^ 63 ≤ d.scale) (h2 : d.scale < 2 ^ 63)
    (h3 : (Str.natStr d.int.natAbs).length < 2 ^ 64) : DecText (showExp d) d.int d.scale := by
  obtain ⟨sg, hs1, hs2⟩ := apply_sign d.int
  obtain ⟨l, ⟨hl1, hl2⟩, hl3, hl4⟩ := natStr_dtext d.int.natAbs
  obtain ⟨esg, he⟩ := showPlus_xsd ((l.length : Int) - 1 - d.scale)
  have hlen : (dtext l).length = l.length := List.length_map _
  have hval : sg.apply (decVal l) = d.int := by rw [hs2, hl4, apply_natAbs]
  rw [hl3, hlen] at h3
  rw [showExp]
  rw [hs1, show showBigUint d.int.natAbs = dtext l from hl3, hlen]
  cases l with
  | nil => exact absurd rfl hl1
  | cons x l =>
    have hx : x < 10 := hl2 x (by simp)
    have hl : Digits l := fun y hy => hl2 y (by simp [hy])
    refine ⟨_, _, l.length, _, rfl, ?_, .some (.inr rfl) he ?_ ?_, ?_, h1, h2⟩
    · cases l with
      | nil =>
        rw [if_pos (show [x].length = 1 from rfl), List.append_nil]
        rw [← hval]
        exact .whole (sg := sg) (xsdInt_uint ⟨[x], ⟨hl1, hl2⟩, rfl, rfl⟩)
      | cons y l =>
        rw [if_neg (by simp)]
        have : (y :: l).length = (dtext (y :: l)).countP (· ≠ '_') := (count_dtext hl).symm
        rw [this]
        refine .point (sg := sg) (xsdInt_uint ⟨x :: y :: l, ⟨hl1, hl2⟩, ?_, ?_⟩)
        · rw [List.append_assoc]; rfl
        · exact hval.symm
    · simp only [List.length_cons] at h3 ⊢; omega
    · simp only [List.length_cons] at h3 ⊢; omega
    · simp only [List.length_cons]; omega

theorem decQ_shift (v s : Int) : decQ (v * 10 ^ (-s).toNat) (max s 0) = decQ v s := by
  rw [decQ, decQ]
  by_cases h : s ≤ 0
  · rw [max_eq_right h]
    push_cast
    rw [mul_one, ← zpow_natCast]
    congr 2
    omega
  · rw [max_eq_left (by omega), show (-s).toNat = 0 by omega, pow_zero, mul_one]

end Verif.Lemmas.Dec
