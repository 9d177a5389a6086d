import Verif.Rust.Prim
import Verif.Spec.Builtin
import Verif.Lemmas.Decimal
import Verif.Lemmas.Rfc3339

/-! # Lemmas: texts of doubles -/

namespace Verif.Lemmas.Prim

open Verif Verif.Spec Verif.Lemmas Verif.Lemmas.Dur Verif.Lemmas.Chr Verif.Lemmas.Dec

theorem takeWhile_digits {ds : List Nat} (h : Digits ds) {r : Str} (hr : NoDigit r) :
    (dtext ds ++ r).takeWhile Str.isAsciiDigit = dtext ds := by
  have h1 := List.takeWhile_append_dropWhile (p := Str.isAsciiDigit) (l := dtext ds ++ r)
  rw [dropWhile_digits h hr] at h1
  exact List.append_cancel_right h1

theorem dtext_inj {a b : List Nat} (ha : Digits a) (hb : Digits b) (h : dtext a = dtext b) : a = b := by
  induction a generalizing b with
  | nil => cases b with
    | nil => rfl
    | cons y b => cases h
  | cons x a ih =>
    cases b with
    | nil => cases h
    | cons y b =>
      obtain ⟨h1, h2⟩ := List.cons.inj h
      have hx := digit_toNat (ha x (by simp))
      rw [h1, digit_toNat (hb y (by simp))] at hx
      rw [hx, ih (fun d hd => ha d (by simp [hd])) (fun d hd => hb d (by simp [hd])) h2]

/-- A sign-free decimal text with exponent, as read by the scanner. -/
def Num (s : Str) (ds fs : List Nat) (e : Int) : Prop :=
  ∃ a t, s = a ++ t ∧ XsdDec a .none ds fs ∧ ExpText t e

theorem exp_iff {c : Char} {r : Str} {e : Int} : (c = 'e' ∨ c = 'E') ∧ f64Exp r = some e ↔ ExpText (c :: r) e := by
  constructor
  · rintro ⟨hc, h⟩
    unfold f64Exp at h
    split at h
    · obtain ⟨n, hn, rfl⟩ := Option.map_eq_some_iff.1 h
      obtain ⟨ds, h1, rfl, rfl⟩ := (parseDigits_text _ _).1 hn
      exact .some (sg := .minus) hc h1
    · obtain ⟨n, hn, rfl⟩ := Option.map_eq_some_iff.1 h
      obtain ⟨ds, h1, rfl, rfl⟩ := (parseDigits_text _ _).1 hn
      exact .some (sg := .plus) hc h1
    · obtain ⟨n, hn, rfl⟩ := Option.map_eq_some_iff.1 h
      obtain ⟨ds, h1, rfl, rfl⟩ := (parseDigits_text _ _).1 hn
      exact .some (sg := .none) hc h1
  · intro h
    cases h with
    | @some _ ds sg hc h1 =>
      refine ⟨hc, ?_⟩
      have hp := (parseDigits_text _ _).2 ⟨ds, h1, rfl, rfl⟩
      cases sg with
      | minus => simp only [Sign.text, Sign.apply, List.cons_append, List.nil_append, f64Exp, hp, Option.map_some]
      | plus => simp only [Sign.text, Sign.apply, List.cons_append, List.nil_append, f64Exp, hp, Option.map_some]
      | none =>
        simp only [Sign.text, Sign.apply, List.nil_append]
        unfold f64Exp
        split
        · next heq => exact absurd heq (dtext_cons_ne h1.2 (by decide))
        · next heq => exact absurd heq (dtext_cons_ne h1.2 (by decide))
        · rw [hp]; rfl

theorem expText_noDigit {t : Str} {e : Int} (h : ExpText t e) : NoDigit t ∧ ∀ r, t ≠ '.' :: r := by
  cases h with
  | none => exact ⟨noDigit_nil, by intro r h; cases h⟩
  | some hc h1 =>
    refine ⟨noDigit_cons.2 (by rcases hc with rfl | rfl <;> decide), ?_⟩
    intro r h
    rcases hc with rfl | rfl <;> exact absurd (List.cons.inj h).1 (by decide)

theorem digitsVal_dtext {ds : List Nat} (h : Digits ds) : Str.digitsVal (dtext ds) = decVal ds := decVal_eq_digitsVal h

theorem digits_append {a b : List Nat} (ha : Digits a) (hb : Digits b) : Digits (a ++ b) := by
  intro d hd
  rcases List.mem_append.1 hd with h | h
  · exact ha d h
  · exact hb d h

theorem dtext_length (fs : List Nat) : (dtext fs).length = fs.length := List.length_map _

theorem dtext_nil {ds : List Nat} : dtext ds = [] ↔ ds = [] := by cases ds <;> simp [dtext]

/-- The rest after the digits. -/
theorem tail_iff {neg : Bool} {m : Nat} {k : Int} {t : Str} {v : F64} :
    f64Tail neg m k t = some v ↔
    ∃ e, ExpText t e ∧ v = .num neg m (e - k) := by
  unfold f64Tail
  cases t with
  | nil =>
    constructor
    · intro h
      refine ⟨0, .none, ?_⟩
      rw [← Option.some.inj h, Int.zero_sub]
    · rintro ⟨e, h, rfl⟩
      cases h
      rw [Int.zero_sub]
  | cons c r =>
    dsimp only
    by_cases hc : c = 'e' ∨ c = 'E'
    · rw [if_pos hc, Option.map_eq_some_iff]
      constructor
      · rintro ⟨e, he, rfl⟩
        exact ⟨e, exp_iff.1 ⟨hc, he⟩, rfl⟩
      · rintro ⟨e, he, rfl⟩
        exact ⟨e, (exp_iff.2 he).2, rfl⟩
    · rw [if_neg hc]
      constructor
      · intro h; cases h
      · rintro ⟨e, he, rfl⟩; exact absurd (exp_iff.2 he).1 hc

theorem number_iff {neg : Bool} {s : Str} {v : F64} :
    f64Number neg s = some v ↔ ∃ ds fs e, Num s ds fs e ∧ v = .num neg (decVal (ds ++ fs)) (e - fs.length) := by
  obtain ⟨ds, hd, hs, hn⟩ := noDigit_dropWhile s
  generalize hr : s.dropWhile Str.isAsciiDigit = r at hs hn
  have ht : s.takeWhile Str.isAsciiDigit = dtext ds := by rw [hs]; exact takeWhile_digits hd hn
  unfold f64Number
  simp only [ht, hr]
  by_cases hp : ∃ r', r = '.' :: r'
  · obtain ⟨r', rfl⟩ := hp
    obtain ⟨fs, hf, hs', hn'⟩ := noDigit_dropWhile r'
    generalize hu : r'.dropWhile Str.isAsciiDigit = u at hs' hn'
    have ht' : r'.takeWhile Str.isAsciiDigit = dtext fs := by rw [hs']; exact takeWhile_digits hf hn'
    simp only [f64Frac, ht', hu, dtext_nil, ← dtext_append, digitsVal_dtext (digits_append hd hf), dtext_length]
    by_cases h0 : ds = [] ∧ fs = []
    · rw [if_pos h0]
      constructor
      · intro h; cases h
      · rintro ⟨ds', fs', e, ⟨a, t, hat, hx, hte⟩, -⟩
        exfalso
        obtain ⟨rfl, rfl⟩ := h0
        rw [hs, hs'] at hat
        simp only [dtext, List.map_nil, List.nil_append] at hat
        have hkey : ∀ fs'' : List Nat, Digits fs'' → '.' :: u = '.' :: dtext fs'' ++ t → fs'' = [] := by
          intro fs'' hf'' he
          have he' : u = dtext fs'' ++ t := (List.cons.inj he).2
          have h1 := dropWhile_digits hf'' (expText_noDigit hte).1
          cases fs'' with
          | nil => rfl
          | cons x xs =>
            exfalso
            rw [he'] at hn'
            have := hn' _ _ rfl
            rw [isAsciiDigit_spec (hf'' x (by simp))] at this
            cases this
        cases hx with
        | whole h1 =>
          obtain ⟨x, xs, rfl⟩ := List.exists_cons_of_ne_nil h1.1
          have := (List.cons.inj hat).1
          exact absurd this.symm (digit_ne_of (h1.2 x (by simp)) (by decide))
        | point h1 h2 h3 =>
          cases ds' with
          | nil =>
            have := hkey fs' h2 (by simpa [Sign.text, dtext] using hat)
            rw [this] at h3
            exact h3 rfl
          | cons x xs =>
            have := (List.cons.inj hat).1
            exact absurd this.symm (digit_ne_of (h1 x (by simp)) (by decide))
    · rw [if_neg h0, tail_iff]
      constructor
      · rintro ⟨e, he, rfl⟩
        refine ⟨ds, fs, e, ⟨dtext ds ++ '.' :: dtext fs, u, ?_, ?_, he⟩, rfl⟩
        · rw [hs, hs']; simp
        · exact .point (sg := .none) hd hf (by simpa using h0)
      · rintro ⟨ds', fs', e, ⟨a, t, hat, hx, hte⟩, rfl⟩
        have hnd := expText_noDigit hte
        have : ds' = ds ∧ fs' = fs ∧ t = u := by
          rw [hs, hs'] at hat
          cases hx with
          | whole h1 =>
            exfalso
            have e1 := dropWhile_digits h1.2 hnd.1
            have e2 := dropWhile_digits hd hn
            simp only [Sign.text, List.nil_append] at hat
            rw [← hat, ← hs', e2] at e1
            exact hnd.2 _ e1.symm
          | point h1 h2 h3 =>
            have hn2 : NoDigit ('.' :: (dtext fs' ++ t)) := noDigit_cons.2 (by decide)
            simp only [Sign.text, List.nil_append, List.append_assoc, List.cons_append] at hat
            have e1 := dropWhile_digits h1 hn2
            have e2 := dropWhile_digits hd hn
            rw [← hat, ← hs', e2] at e1
            have e3 := takeWhile_digits h1 hn2
            rw [← hat, ← hs', takeWhile_digits hd hn] at e3
            have e4 : r' = dtext fs' ++ t := (List.cons.inj e1).2
            have e5 := dropWhile_digits h2 hnd.1
            have e6 := takeWhile_digits h2 hnd.1
            rw [← e4, hu] at e5
            rw [← e4, ht'] at e6
            exact ⟨(dtext_inj h1 hd e3.symm), (dtext_inj h2 hf e6.symm), e5.symm⟩
        obtain ⟨rfl, rfl, rfl⟩ := this
        exact ⟨e, hte, rfl⟩
  · have hm : f64Frac r = ([], r) := by
      unfold f64Frac
      split
      · next r' => exact absurd ⟨r', rfl⟩ hp
      · rfl
    simp only [hm, and_true, List.append_nil, List.length_nil, dtext_nil, digitsVal_dtext hd]
    by_cases h0 : ds = []
    · rw [if_pos h0]
      constructor
      · intro h; cases h
      · rintro ⟨ds', fs', e, ⟨a, t, hat, hx, hte⟩, -⟩
        exfalso
        subst h0
        rw [hs] at hat
        simp only [dtext, List.map_nil, List.nil_append] at hat
        cases hx with
        | whole h1 =>
          obtain ⟨x, xs, rfl⟩ := List.exists_cons_of_ne_nil h1.1
          rw [hat] at hn
          have := hn _ _ rfl
          rw [isAsciiDigit_spec (h1.2 x (by simp))] at this
          cases this
        | point h1 h2 h3 =>
          cases ds' with
          | nil => exact hp ⟨dtext fs' ++ t, by rw [hat]; simp [Sign.text, dtext]⟩
          | cons x xs =>
            rw [hat] at hn
            have := hn _ _ rfl
            rw [isAsciiDigit_spec (h1 x (by simp))] at this
            cases this
    · rw [if_neg h0]
      have := tail_iff (neg := neg) (m := decVal ds) (k := 0) (t := r) (v := v)
      rw [show ((0 : Nat) : Int) = 0 from rfl, this]
      constructor
      · rintro ⟨e, he, rfl⟩
        refine ⟨ds, [], e, ⟨dtext ds, r, hs, .whole (sg := .none) ⟨h0, hd⟩, he⟩, by simp⟩
      · rintro ⟨ds', fs', e, ⟨a, t, hat, hx, hte⟩, rfl⟩
        have hnd := expText_noDigit hte
        rw [hs] at hat
        cases hx with
        | whole h1 =>
          simp only [Sign.text, List.nil_append] at hat
          have e1 := dropWhile_digits h1.2 hnd.1
          have e3 := takeWhile_digits h1.2 hnd.1
          rw [← hat, dropWhile_digits hd hn] at e1
          rw [← hat, takeWhile_digits hd hn] at e3
          obtain rfl := dtext_inj h1.2 hd e3.symm
          subst e1
          exact ⟨e, hte, by simp⟩
        | point h1 h2 h3 =>
          exfalso
          have hn2 : NoDigit ('.' :: (dtext fs' ++ t)) := noDigit_cons.2 (by decide)
          simp only [Sign.text, List.nil_append, List.append_assoc, List.cons_append] at hat
          have e1 := dropWhile_digits h1 hn2
          rw [← hat, dropWhile_digits hd hn] at e1
          exact hp ⟨_, e1⟩

/-- A word for infinity or not-a-number, in any case. -/
inductive FloatWord (neg : Bool) : Str → F64 → Prop where
  | nan {w} : w.map toAsciiLower = "nan".toList → FloatWord neg w .nan
  | inf {w} : w.map toAsciiLower = "inf".toList ∨ w.map toAsciiLower = "infinity".toList → FloatWord neg w (.inf neg)

theorem word_iff {neg : Bool} {s : Str} {v : F64} : f64Word neg s = some v ↔ FloatWord neg s v := by
  have e1 : "nan".toList ≠ "inf".toList := by decide
  have e2 : "nan".toList ≠ "infinity".toList := by decide
  unfold f64Word
  dsimp only
  constructor
  · intro h
    split at h
    · next hn => rw [← Option.some.inj h]; exact .nan hn
    · split at h
      · next hn => rw [← Option.some.inj h]; exact .inf (.inl hn)
      · split at h
        · next hn => rw [← Option.some.inj h]; exact .inf (.inr hn)
        · cases h
  · intro h
    cases h with
    | nan h => rw [if_pos h]
    | inf h =>
      rcases h with h | h
      · rw [h, if_neg e1.symm, if_pos rfl]
      · rw [h, if_neg e2.symm, if_neg (by decide), if_pos rfl]

/-- No number is a word. -/
theorem num_not_word {s : Str} {ds fs : List Nat} {e : Int} {neg : Bool} {v : F64} (h : Num s ds fs e) :
    ¬ FloatWord neg s v := by
  obtain ⟨a, t, rfl, hx, -⟩ := h
  have hc : ∃ c r, a ++ t = c :: r ∧ toAsciiLower c ≠ 'n' ∧ toAsciiLower c ≠ 'i' := by
    have hdig : ∀ d < 10, toAsciiLower (digit d) ≠ 'n' ∧ toAsciiLower (digit d) ≠ 'i' := by decide
    cases hx with
    | whole h1 =>
      obtain ⟨x, xs, rfl⟩ := List.exists_cons_of_ne_nil h1.1
      exact ⟨digit x, dtext xs ++ t, rfl, hdig x (h1.2 x (by simp))⟩
    | point h1 h2 h3 =>
      cases ds with
      | nil => exact ⟨'.', dtext fs ++ t, rfl, by decide, by decide⟩
      | cons x xs => exact ⟨digit x, _, rfl, hdig x (h1 x (by simp))⟩
  obtain ⟨c, r, hcr, h1, h2⟩ := hc
  rw [hcr]
  intro h
  cases h with
  | nan h => exact h1 (List.cons.inj h).1
  | inf h => rcases h with h | h <;> exact h2 (List.cons.inj h).1

theorem unsigned_iff {neg : Bool} {s : Str} {v : F64} :
    f64Unsigned neg s = some v ↔
      (∃ ds fs e, Num s ds fs e ∧ v = .num neg (decVal (ds ++ fs)) (e - fs.length)) ∨ FloatWord neg s v := by
  unfold f64Unsigned
  cases h : f64Number neg s with
  | some w =>
    obtain ⟨ds, fs, e, hn, hw⟩ := number_iff.1 h
    dsimp only
    constructor
    · intro h'; exact .inl (number_iff.1 (h.trans h'))
    · rintro (h' | h')
      · exact h.symm.trans (number_iff.2 h')
      · exact absurd h' (num_not_word hn)
  | none =>
    dsimp only
    rw [word_iff]
    constructor
    · exact .inr
    · rintro (h' | h')
      · rw [number_iff.2 h'] at h; cases h
      · exact h'

/-- An optional sign: the text with a sign, by what the rest must be. -/
theorem parseF64_iff {s : Str} {v : F64} :
    parseF64 s = some v ↔ ∃ sg r, s = Sign.text sg ++ r ∧
      ((∃ ds fs e, Num r ds fs e ∧ v = .num (decide (sg = .minus)) (decVal (ds ++ fs)) (e - fs.length)) ∨
        FloatWord (decide (sg = .minus)) r v) := by
  have hhead : ∀ {neg : Bool} {r : Str}, ((∃ ds fs e, Num r ds fs e ∧ v = .num neg (decVal (ds ++ fs)) (e - fs.length)) ∨
      FloatWord neg r v) → ∀ t, r ≠ '-' :: t ∧ r ≠ '+' :: t := by
    intro neg r h t
    rcases h with ⟨ds, fs, e, ⟨a, u, rfl, hx, -⟩, -⟩ | h
    · cases hx with
      | whole h1 =>
        obtain ⟨x, xs, rfl⟩ := List.exists_cons_of_ne_nil h1.1
        exact ⟨fun e => digit_ne_of (h1.2 x (by simp)) (by decide) (List.cons.inj e).1,
          fun e => digit_ne_of (h1.2 x (by simp)) (by decide) (List.cons.inj e).1⟩
      | point h1 h2 h3 =>
        cases ds with
        | nil => exact ⟨fun e => absurd (List.cons.inj e).1 (by decide), fun e => absurd (List.cons.inj e).1 (by decide)⟩
        | cons x xs =>
          exact ⟨fun e => digit_ne_of (h1 x (by simp)) (by decide) (List.cons.inj e).1,
            fun e => digit_ne_of (h1 x (by simp)) (by decide) (List.cons.inj e).1⟩
    · have : ∀ c, c = '-' ∨ c = '+' → ∀ t, ¬ FloatWord neg (c :: t) v := by
        intro c hc t hw
        have hl : toAsciiLower c ≠ 'n' ∧ toAsciiLower c ≠ 'i' := by rcases hc with rfl | rfl <;> decide
        cases hw with
        | nan e => exact hl.1 (List.cons.inj e).1
        | inf e => rcases e with e | e <;> exact hl.2 (List.cons.inj e).1
      exact ⟨fun e => this '-' (.inl rfl) t (e ▸ h), fun e => this '+' (.inr rfl) t (e ▸ h)⟩
  unfold parseF64
  constructor
  · intro h
    split at h
    · exact ⟨.minus, _, rfl, unsigned_iff.1 h⟩
    · exact ⟨.plus, _, rfl, unsigned_iff.1 h⟩
    · exact ⟨.none, _, rfl, unsigned_iff.1 h⟩
  · rintro ⟨sg, r, rfl, h⟩
    cases sg with
    | minus => exact unsigned_iff.2 h
    | plus => exact unsigned_iff.2 h
    | none =>
      simp only [Sign.text, List.nil_append]
      split
      · next t => exact absurd rfl (hhead h t).1
      · next t => exact absurd rfl (hhead h t).2
      · exact unsigned_iff.2 h

end Verif.Lemmas.Prim
