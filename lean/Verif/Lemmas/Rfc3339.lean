import Verif.Lemmas.DateTime2

/-! # Helper lemmas: RFC 3339 parsing and printing -/

namespace Verif.Lemmas.Chr

open Verif Verif.Model Verif.Spec Verif.Lemmas Verif.Lemmas.Dur Chrono

theorem decVal_append_zeros (ds : List Nat) (k : Nat) :
    decVal (ds ++ List.replicate k 0) = decVal ds * 10 ^ k := by
  rw [decVal_append]
  have : decVal (List.replicate k 0) = 0 := by
    induction k with
    | zero => rfl
    | succ k ih => rw [List.replicate_succ, decVal_cons]; simpa using ih
  simp [this]

theorem nanoOf_short {ds : List Nat} (h : ds.length ≤ 9) : nanoOf ds = decVal ds * 10 ^ (9 - ds.length) := by
  unfold nanoOf
  rw [List.take_append, List.take_of_length_le h, List.take_replicate, decVal_append_zeros]
  congr 2; omega

theorem nanoOf_long {a b : List Nat} (h : a.length = 9) : nanoOf (a ++ b) = decVal a := by
  unfold nanoOf
  rw [List.append_assoc, List.take_append, List.take_of_length_le (by omega)]
  simp [h]

theorem nanoOf_lt {ds : List Nat} (h : Digits ds) : nanoOf ds < 1000000000 := by
  unfold nanoOf
  have hd : Digits ((ds ++ List.replicate 9 0).take 9) := by
    intro d hd
    have := List.mem_of_mem_take hd
    rcases List.mem_append.1 this with h1 | h1
    · exact h d h1
    · simp at h1; omega
  have := decVal_lt hd
  have hl : ((ds ++ List.replicate 9 0).take 9).length = 9 := by simp
  rw [hl] at this
  simpa using this

theorem dropWhile_digits {ds : List Nat} (h : Digits ds) {r : Str} (hr : NoDigit r) :
    (dtext ds ++ r).dropWhile Str.isAsciiDigit = r := by
  induction ds with
  | nil =>
    cases r with
    | nil => rfl
    | cons c r =>
      rw [noDigit_cons] at hr
      simp [dtext, hr]
  | cons d ds ih =>
    have hd := isAsciiDigit_spec (h d (by simp))
    have := ih (fun x hx => h x (by simp [hx]))
    simp only [dtext, List.map_cons, List.cons_append, List.dropWhile_cons, hd, if_true] at this ⊢
    exact this

theorem noDigit_dropWhile (s : Str) : ∃ ds, Digits ds ∧ s = dtext ds ++ s.dropWhile Str.isAsciiDigit ∧
    NoDigit (s.dropWhile Str.isAsciiDigit) := by
  induction s with
  | nil => exact ⟨[], by simp [Digits], rfl, noDigit_nil⟩
  | cons c s ih =>
    by_cases hc : Str.isAsciiDigit c = true
    · obtain ⟨n, hn, rfl⟩ := isDigit_of_ascii hc
      obtain ⟨ds, h1, h2, h3⟩ := ih
      simp only [List.dropWhile_cons, hc, if_true]
      refine ⟨n :: ds, ?_, ?_, h3⟩
      · intro x hx
        rcases List.mem_cons.1 hx with rfl | hx
        · exact hn
        · exact h1 x hx
      · simp only [dtext, List.map_cons, List.cons_append, List.cons.injEq, true_and]
        exact h2
    · have hc' : Str.isAsciiDigit c = false := by simpa using hc
      refine ⟨[], by simp [Digits], ?_, ?_⟩ <;> simp only [List.dropWhile_cons, hc', Bool.false_eq_true, if_false]
      · rfl
      · exact noDigit_cons.2 hc'

theorem scanNano_iff {s r : Str} {v : Nat} :
    scanNano s = some (r, v) ↔ ∃ ds, Digits1 ds ∧ s = dtext ds ++ r ∧ NoDigit r ∧ v = nanoOf ds := by
  unfold scanNano
  simp only [Option.map_eq_some_iff, Prod.exists, Prod.mk.injEq]
  constructor
  · rintro ⟨r1, n, hn, rfl, rfl⟩
    rw [number_iff (by simp)] at hn
    obtain ⟨ds, hds, hl, rfl, rfl, -, hk, hor⟩ := hn
    have hk := hk 9 rfl
    obtain ⟨ds2, h1, h2, h3⟩ := noDigit_dropWhile r1
    have hlen : (dtext ds ++ r1).length - r1.length = ds.length := by simp [dtext]
    rw [hlen]
    refine ⟨ds ++ ds2, ⟨?_, ?_⟩, ?_, h3, ?_⟩
    · intro e; simp at e; rw [e.1] at hl; simp at hl
    · intro d hd
      rcases List.mem_append.1 hd with hd | hd
      · exact hds d hd
      · exact h1 d hd
    · conv => lhs; rw [h2]
      simp [dtext]
    · rcases hor with hor | hor
      · have h9 : ds.length = 9 := by simpa using hor.symm
        rw [nanoOf_long h9, h9]; simp
      · have : ds2 = [] := by
          cases ds2 with
          | nil => rfl
          | cons d ds2 =>
            rw [h2] at hor
            simp only [dtext, List.map_cons, List.cons_append] at hor
            rw [noDigit_cons, isAsciiDigit_spec (h1 d (by simp))] at hor
            simp at hor
        subst this
        rw [List.append_nil, nanoOf_short hk]
  · rintro ⟨ds, ⟨h0, hds⟩, rfl, hr, rfl⟩
    by_cases hl : ds.length ≤ 9
    · refine ⟨r, decVal ds, ?_, ?_, ?_⟩
      · rw [number_iff (by simp)]
        exact ⟨ds, hds, List.length_pos_iff.2 h0, rfl, rfl, decVal_le_i64 hds hl, by simpa using hl, Or.inr hr⟩
      · have := dropWhile_digits (ds := []) (by simp [Digits]) hr
        simpa [dtext] using this
      · rw [nanoOf_short hl]; simp [dtext]
    · have hsplit : ds = ds.take 9 ++ ds.drop 9 := (List.take_append_drop 9 ds).symm
      have hl9 : (ds.take 9).length = 9 := by simp; omega
      have d1 : Digits (ds.take 9) := fun d hd => hds d (List.mem_of_mem_take hd)
      have d2 : Digits (ds.drop 9) := fun d hd => hds d (List.mem_of_mem_drop hd)
      refine ⟨dtext (ds.drop 9) ++ r, decVal (ds.take 9), ?_, dropWhile_digits d2 hr, ?_⟩
      · rw [number_iff (by simp)]
        refine ⟨ds.take 9, d1, by omega, ?_, rfl, decVal_le_i64 d1 (by omega), by simp, Or.inl (by simp; omega)⟩
        rw [← List.append_assoc, dtext, dtext, dtext, ← List.map_append, ← hsplit]
      · have e : (dtext ds ++ r).length - (dtext (ds.drop 9) ++ r).length = 9 := by simp [dtext]; omega
        rw [e]
        conv => rhs; rw [hsplit]
        rw [nanoOf_long hl9]; simp

theorem twoDigits_iff {s r : Str} {v : Nat} : twoDigits s = some (r, v) ↔ v < 100 ∧ s = two v ++ r := by
  constructor
  · intro h
    match s with
    | [] => simp [twoDigits] at h
    | [a] => simp [twoDigits] at h
    | a :: b :: s =>
      simp only [twoDigits] at h
      split at h
      · rename_i hab
        obtain ⟨x, hx, rfl⟩ := isDigit_of_ascii hab.1
        obtain ⟨y, hy, rfl⟩ := isDigit_of_ascii hab.2
        simp only [Option.some.injEq, Prod.mk.injEq, digit_toNat hx, digit_toNat hy] at h
        obtain ⟨rfl, rfl⟩ := h
        have e1 : (x * 10 + y) / 10 = x := by omega
        have e2 : (x * 10 + y) % 10 = y := by omega
        exact ⟨by omega, by simp [two, e1, e2]⟩
      · simp at h
  · rintro ⟨hv, rfl⟩
    have h1 : v / 10 < 10 := by omega
    have h2 : v % 10 < 10 := by omega
    simp only [two, List.cons_append, List.nil_append, twoDigits, isAsciiDigit_spec h1, isAsciiDigit_spec h2,
      and_self, if_true, digit_toNat h1, digit_toNat h2, Option.some.injEq, Prod.mk.injEq, true_and]
    omega

theorem scanOffset_iff {s r : Str} {o : Int} :
    scanOffset s = some (r, o) ↔ ∃ t, RfcTz t o ∧ s = t ++ r := by
  constructor
  · intro h
    cases s with
    | nil => simp [scanOffset] at h
    | cons c s =>
      simp only [scanOffset] at h
      split at h
      · rename_i hc
        simp only [Option.some.injEq, Prod.mk.injEq] at h
        obtain ⟨rfl, rfl⟩ := h
        rcases hc with rfl | rfl
        · exact ⟨_, .zulu, rfl⟩
        · exact ⟨_, .zuluLower, rfl⟩
      · split at h
        · rename_i hc
          simp only [Option.bind_eq_some_iff, Prod.exists] at h
          obtain ⟨s1, hh, h1, s2, h2, s3, mm, h3, h⟩ := h
          rw [twoDigits_iff] at h1 h3
          rw [lit_iff] at h2
          obtain ⟨hh1, rfl⟩ := h1
          obtain ⟨hm1, rfl⟩ := h3
          subst h2
          split at h
          · simp at h
          · split at h
            · simp at h
            · rename_i hm hs
              simp only [Option.some.injEq, Prod.mk.injEq] at h
              obtain ⟨rfl, rfl⟩ := h
              by_cases hp : c = '+'
              · subst hp
                have := RfcTz.off (.east hh mm (by omega) (by omega))
                refine ⟨'+' :: (two hh ++ [':'] ++ two mm), ?_, ?_⟩
                · rw [if_pos rfl, show ((hh : Int) * 3600 + (mm : Int) * 60) = (3600 * (hh : Int) + 60 * (mm : Int)) by omega]
                  exact this
                · simp
              · rw [if_neg hp]
                have hc2 : c = '-' ∨ c = '−' := by
                  rcases hc with h | h | h
                  · exact absurd h hp
                  · exact Or.inl h
                  · exact Or.inr h
                have := RfcTz.off (.west c hh mm hc2 (by omega) (by omega))
                refine ⟨c :: (two hh ++ [':'] ++ two mm), ?_, ?_⟩
                · rw [show -((hh : Int) * 3600 + (mm : Int) * 60) = -(3600 * (hh : Int) + 60 * (mm : Int)) by omega]
                  exact this
                · simp
        · simp at h
  · rintro ⟨t, ht, rfl⟩
    cases ht with
    | zulu => simp [scanOffset]
    | zuluLower => simp [scanOffset]
    | off h =>
      cases h with
      | east h m h1 h2 =>
        simp only [List.cons_append, scanOffset]
        rw [if_neg (by decide), if_pos (by decide)]
        rw [show two h ++ [':'] ++ two m ++ r = two h ++ (':' :: (two m ++ r)) by simp]
        rw [twoDigits_iff.2 ⟨by omega, rfl⟩]
        simp only [Option.bind_some, lit, if_true]
        rw [twoDigits_iff.2 ⟨by omega, rfl⟩]
        simp only [Option.bind_some]
        rw [if_neg (by omega), if_neg (by omega)]
        simp; omega
      | west _ h m hc h1 h2 =>
        rename_i c
        simp only [List.cons_append, scanOffset]
        have hn : ¬ (c = 'Z' ∨ c = 'z') := by rcases hc with rfl | rfl <;> decide
        have hn2 : ¬ c = '+' := by rcases hc with rfl | rfl <;> decide
        rw [if_neg hn, if_pos (by rcases hc with h | h <;> simp [h])]
        rw [show two h ++ [':'] ++ two m ++ r = two h ++ (':' :: (two m ++ r)) by simp]
        rw [twoDigits_iff.2 ⟨by omega, rfl⟩]
        simp only [Option.bind_some, lit, if_true]
        rw [twoDigits_iff.2 ⟨by omega, rfl⟩]
        simp only [Option.bind_some]
        rw [if_neg (by omega), if_neg (by omega), if_neg hn2]
        simp; omega

theorem rfcTz_head {t : Str} {o : Int} (h : RfcTz t o) :
    ∃ c r, t = c :: r ∧ Str.isAsciiDigit c = false ∧ c ≠ '.' := by
  cases h with
  | zulu => exact ⟨_, _, rfl, by decide, by decide⟩
  | zuluLower => exact ⟨_, _, rfl, by decide, by decide⟩
  | off h =>
    cases h with
    | east h m h1 h2 => exact ⟨_, _, rfl, by decide, by decide⟩
    | west c h m hc h1 h2 =>
      rcases hc with rfl | rfl
      · exact ⟨_, _, rfl, by decide, by decide⟩
      · exact ⟨_, _, rfl, by decide, by decide⟩

theorem rfcTz_range {t : Str} {o : Int} (h : RfcTz t o) : -86400 < o ∧ o < 86400 ∧ o % 60 = 0 := by
  cases h with
  | zulu => decide
  | zuluLower => decide
  | off h => cases h <;> omega

/-- The chrono value of the components. -/
def mkDt (y m d hh mm ss nano : Nat) (o : Int) : CDateTime :=
  ⟨⟨y, m, d⟩, ⟨hh, mm, min ss 59, if ss = 60 then nano + 1000000000 else nano⟩, o⟩

theorem parseRfc3339_iff {yr : YearRange} {s : Str} {x : CDateTime} :
    parseRfc3339 yr s = some x ↔ ∃ b t sep y m d hh mm ss nano o, s = b ++ t ∧ SepOk sep ∧
      DateTimeBody b sep y m d hh mm ss nano ∧ RfcTz t o ∧ x = mkDt y m d hh mm ss nano o := by
  constructor
  · intro h
    unfold parseRfc3339 at h
    rw [Option.bind_eq_some_iff] at h; obtain ⟨⟨s1, y⟩, hy, h⟩ := h
    rw [Option.bind_eq_some_iff] at h; obtain ⟨s2, h2, h⟩ := h
    rw [Option.bind_eq_some_iff] at h; obtain ⟨⟨s3, m⟩, hm, h⟩ := h
    rw [Option.bind_eq_some_iff] at h; obtain ⟨s4, h4, h⟩ := h
    rw [Option.bind_eq_some_iff] at h; obtain ⟨⟨s5, d⟩, hd, h⟩ := h
    rw [Option.bind_eq_some_iff] at h; obtain ⟨s6, hsep, h⟩ := h
    rw [Option.bind_eq_some_iff] at h; obtain ⟨⟨s7, hh⟩, h7, h⟩ := h
    rw [Option.bind_eq_some_iff] at h; obtain ⟨s8, h8, h⟩ := h
    rw [Option.bind_eq_some_iff] at h; obtain ⟨⟨s9, mm⟩, h9, h⟩ := h
    rw [Option.bind_eq_some_iff] at h; obtain ⟨s10, h10, h⟩ := h
    rw [Option.bind_eq_some_iff] at h; obtain ⟨⟨s11, ss⟩, h11, h⟩ := h
    rw [Option.bind_eq_some_iff] at h; obtain ⟨⟨s12, nano⟩, hnano, h⟩ := h
    rw [Option.bind_eq_some_iff] at h; obtain ⟨⟨s13, o⟩, ho, h⟩ := h
    dsimp only at *
    rw [lit_iff] at h2 h4 h8 h10
    rw [number22_iff] at hm hd h7 h9 h11
    rw [number44_iff] at hy
    obtain ⟨hy, rfl⟩ := hy; subst h2; obtain ⟨hm, rfl⟩ := hm; subst h4; obtain ⟨hd, rfl⟩ := hd
    obtain ⟨h7, rfl⟩ := h7; subst h8; obtain ⟨h9, rfl⟩ := h9; subst h10; obtain ⟨h11, rfl⟩ := h11
    split at h
    · simp at h
    · rename_i hs13
      simp only [ne_eq, not_not] at hs13
      subst hs13
      simp only [Option.bind_eq_some_iff, Option.map_eq_some_iff] at h
      obtain ⟨date, hdate, time, htime, off, hoff, rfl⟩ := h
      obtain ⟨-, -, hv, rfl⟩ := fromYmdOpt_iff.1 hdate
      obtain ⟨t1, t2, t3, rfl⟩ := toNaiveTime_iff.1 htime
      rw [scanOffset_iff] at ho
      obtain ⟨t, ht, ho⟩ := ho
      rw [List.append_nil] at ho
      subst ho
      have : off = o := by
        unfold eastOpt at hoff; split at hoff
        · simpa using hoff.symm
        · simp at hoff
      subst this
      cases s5 with
      | nil => simp [scanSep] at hsep
      | cons sep s5 =>
        simp only [scanSep] at hsep
        split at hsep
        · rename_i hs
          simp only [Option.some.injEq] at hsep
          subst hsep
          have hf : ∃ f, FracText f nano ∧ s11 = f ++ s12 := by
            unfold scanFrac at hnano
            split at hnano
            · rw [scanNano_iff] at hnano
              obtain ⟨ds, h1, rfl, -, rfl⟩ := hnano
              exact ⟨_, .some ds h1, rfl⟩
            · simp only [Option.some.injEq, Prod.mk.injEq] at hnano
              obtain ⟨rfl, rfl⟩ := hnano
              exact ⟨[], .none, rfl⟩
          obtain ⟨f, hf, rfl⟩ := hf
          refine ⟨_, s12, sep, y, m, d, hh, mm, ss, nano, off, ?_, ?_,
            ⟨f, hy, hv, t1, t2, t3, hf, rfl⟩, ht, rfl⟩
          · simp
          · unfold SepOk; rcases hs with h | h | h <;> simp [h]
        · simp at hsep
  · rintro ⟨b, t, sep, y, m, d, hh, mm, ss, nano, o, rfl, hsep, ⟨f, hy, hv, t1, t2, t3, hf, rfl⟩, ht, rfl⟩
    obtain ⟨hm, hd⟩ := validDate_lt hv
    unfold parseRfc3339
    rw [show four y ++ ['-'] ++ two m ++ ['-'] ++ two d ++ [sep] ++ two hh ++ [':'] ++ two mm ++ [':'] ++
        two ss ++ f ++ t = four y ++ '-' :: (two m ++ '-' :: (two d ++ sep :: (two hh ++ ':' :: (two mm ++ ':' ::
        (two ss ++ (f ++ t)))))) by simp]
    rw [number44_iff.2 ⟨hy, rfl⟩]
    rw [Option.bind_some, lit_iff.2 rfl, Option.bind_some]
    rw [number22_iff.2 ⟨hm, rfl⟩]
    rw [Option.bind_some, lit_iff.2 rfl, Option.bind_some]
    rw [number22_iff.2 ⟨hd, rfl⟩]
    have hsep' : sep = 't' ∨ sep = 'T' ∨ sep = ' ' := by
      unfold SepOk at hsep; rcases hsep with h | h | h <;> simp [h]
    have hsc : ∀ r, scanSep (sep :: r) = some r := by intro r; simp only [scanSep]; rw [if_pos hsep']
    rw [Option.bind_some]
    dsimp only
    rw [hsc, Option.bind_some]
    rw [number22_iff.2 ⟨by omega, rfl⟩]
    rw [Option.bind_some, lit_iff.2 rfl, Option.bind_some]
    rw [number22_iff.2 ⟨by omega, rfl⟩]
    rw [Option.bind_some, lit_iff.2 rfl, Option.bind_some]
    rw [number22_iff.2 ⟨by omega, rfl⟩]
    rw [Option.bind_some]
    dsimp only
    obtain ⟨c, r, hcr, hc1, hc2⟩ := rfcTz_head ht
    have hnano : scanFrac (f ++ t) = some (t, nano) := by
      unfold scanFrac
      cases hf with
      | none =>
        subst hcr
        simp only [List.nil_append]
        split
        · rename_i r' e
          simp only [List.cons.injEq] at e
          exact absurd e.1 hc2
        · rfl
      | some ds h1 =>
        simp only [List.cons_append]
        rw [scanNano_iff]
        exact ⟨ds, h1, rfl, by rw [hcr]; exact noDigit_cons.2 hc1, rfl⟩
    rw [hnano, Option.bind_some]
    dsimp only
    rw [scanOffset_iff.2 ⟨t, ht, (List.append_nil t).symm⟩]
    simp only [Option.bind_some, ne_eq, not_true_eq_false, if_false]
    have hl := yr.lo_le; have hh' := yr.le_hi
    rw [fromYmdOpt_iff.2 ⟨by omega, by omega, hv, rfl⟩]
    simp only [Option.bind_some]
    rw [toNaiveTime_iff.2 ⟨t1, t2, t3, rfl⟩]
    simp only [Option.bind_some]
    have hr := rfcTz_range ht
    simp only [eastOpt, hr.1, hr.2.1, and_self, if_true, Option.map_some]
    rfl

/-! ### `DateTime::from_str` -/

theorem fracText_digits {f : Str} {n : Nat} (h : FracText f n) {c : Char} (hc : Str.isAsciiDigit c = false)
    (hd : c ≠ '.') : Str.countChar c f = 0 := by
  cases h with
  | none => rfl
  | some ds h1 => rw [Str.countChar_cons, countChar_dtext h1.2 hc, if_neg (Ne.symm hd)]

theorem dtBody_count {b : Str} {sep : Char} {y m d hh mm ss nano : Nat}
    (h : DateTimeBody b sep y m d hh mm ss nano) {c : Char}
    (hc : Str.isAsciiDigit c = false) (h1 : c ≠ '.') (h2 : c ≠ ':') (h3 : sep ≠ c) :
    Str.countChar c b = if c = '-' then 2 else 0 := by
  obtain ⟨f, hy, hv, t1, t2, t3, hf, rfl⟩ := h
  obtain ⟨hm, hd⟩ := validDate_lt hv
  have k : ∀ {n}, n < 100 → Str.countChar c (two n) = 0 := fun hn => Str.countChar_digits (allDigits_two hn) hc
  have e4 : Str.countChar c (four y) = 0 := by
    rw [four, Str.countChar_append, k (by omega), k (by omega)]
  simp only [Str.countChar_append, Str.countChar_cons, Str.countChar_nil, e4, k hm, k hd,
    k (show hh < 100 by omega), k (show mm < 100 by omega), k (show ss < 100 by omega), fracText_digits hf hc h1,
    if_neg h3, if_neg (Ne.symm h2)]
  by_cases hcd : c = '-'
  · subst hcd; simp
  · rw [if_neg (Ne.symm hcd), if_neg hcd]

theorem dtBody_last {b : Str} {sep : Char} {y m d hh mm ss nano : Nat}
    (h : DateTimeBody b sep y m d hh mm ss nano) : b.getLast? ≠ some 'Z' := by
  obtain ⟨f, hy, hv, t1, t2, t3, hf, rfl⟩ := h
  cases hf with
  | none =>
    rw [List.append_nil, getLast?_two_append]
    intro h; simp only [Option.some.injEq] at h
    exact digit_ne_of (by omega) (by decide) h
  | some ds h1 =>
    rw [List.getLast?_append_of_ne_nil _ (by simp)]
    intro e
    have hm := List.mem_of_getLast? e
    have : Str.countChar 'Z' ('.' :: dtext ds) = 0 :=
      fracText_digits (.some ds h1) (by decide) (by decide)
    rw [Str.countChar_eq_zero] at this
    exact this hm

theorem offText_last {c : Char} {t : Str} {o : Int} (h : OffText c t o) (b : Str) :
    (b ++ t).getLast? ≠ some 'Z' := by
  cases h with
  | east h m h1 h2 => simpa using tz_last (c := '+') (b := b) (x := h) (y := m)
  | west _ h m hc h1 h2 => simpa using tz_last (c := c) (b := b) (x := h) (y := m)

theorem offText_count {c : Char} {t : Str} {o : Int} (h : OffText c t o) {x : Char}
    (hx : Str.isAsciiDigit x = false) (hx2 : x ≠ ':') : Str.countChar x t = if x = c then 1 else 0 := by
  cases h with
  | east h m h1 h2 =>
    rw [List.append_assoc, Str.countChar_cons, List.singleton_append,
      count_tz_tail hx hx2 (by omega) (by omega)]
    by_cases e : x = '+'
    · simp [e]
    · simp [e, Ne.symm e]
  | west _ h m hc h1 h2 =>
    rw [List.append_assoc, Str.countChar_cons, List.singleton_append,
      count_tz_tail hx hx2 (by omega) (by omega)]
    by_cases e : x = c
    · simp [e]
    · simp [e, Ne.symm e]

theorem sepOk_ne {sep : Char} (h : SepOk sep) : sep ≠ '+' ∧ sep ≠ '-' ∧ sep ≠ 'Z' := by
  rcases h with rfl | rfl | rfl <;> decide

theorem offText_char {c : Char} {t : Str} {o : Int} (h : OffText c t o) : c = '+' ∨ c = '-' ∨ c = '−' := by
  cases h with
  | east => simp
  | west _ _ _ hc => rcases hc with h | h <;> simp [h]

theorem datetime_fromStr_iff {yr : YearRange} {s : Str} {x : CDateTime} :
    DateTime.fromStr yr s = .ok ⟨x⟩ ↔ ∃ b t sep y m d hh mm ss nano o, s = b ++ t ∧ SepOk sep ∧
      DateTimeBody b sep y m d hh mm ss nano ∧ DtTz t o ∧ x = mkDt y m d hh mm ss nano o := by
  have key : DateTime.fromStr yr s = .ok ⟨x⟩ ↔
      parseRfc3339 yr (if DateTime.tzProvided s then s else s ++ ['Z']) = some x := by
    unfold DateTime.fromStr
    dsimp only
    cases parseRfc3339 yr (if DateTime.tzProvided s then s else s ++ ['Z']) <;> simp
  constructor
  · intro h
    rw [key, parseRfc3339_iff] at h
    obtain ⟨b, t, sep, y, m, d, hh, mm, ss, nano, o, e, hsep, hb, ht, rfl⟩ := h
    have hs := sepOk_ne hsep
    have cp := dtBody_count hb (c := '+') (by decide) (by decide) (by decide) hs.1
    have cd := dtBody_count hb (c := '-') (by decide) (by decide) (by decide) hs.2.1
    rw [if_neg (by decide)] at cp
    rw [if_pos rfl] at cd
    by_cases hp : DateTime.tzProvided s = true
    · rw [if_pos hp] at e
      subst e
      refine ⟨b, t, sep, y, m, d, hh, mm, ss, nano, o, rfl, hsep, hb, ?_, rfl⟩
      unfold DateTime.tzProvided at hp
      simp only [Bool.or_eq_true, beq_iff_eq, Str.hasChar_iff_countChar, Str.countChar_append, cp, cd] at hp
      cases ht with
      | zulu => exact .zulu
      | zuluLower =>
        exfalso
        rcases hp with (hp | hp) | hp
        · simp at hp
        · exact absurd hp (by decide)
        · exact absurd hp (by decide)
      | @off c _ _ h =>
        rcases offText_char h with rfl | rfl | rfl
        · exact .off (Or.inl rfl) h
        · exact .off (Or.inr rfl) h
        · exfalso
          rw [offText_count h (by decide) (by decide), offText_count h (by decide) (by decide)] at hp
          rcases hp with (hp | hp) | hp
          · exact offText_last h b hp
          · exact absurd hp (by decide)
          · exact absurd hp (by decide)
    · rw [if_neg hp] at e
      have hlast : (b ++ t).getLast? = some 'Z' := by rw [← e]; simp
      have htz : t = ['Z'] ∧ o = 0 := by
        cases ht with
        | zulu => exact ⟨rfl, rfl⟩
        | zuluLower => simp at hlast
        | off h => exact absurd hlast (offText_last h b)
      obtain ⟨rfl, rfl⟩ := htz
      have : s = b := by
        have := List.append_inj_left' e rfl
        exact this
      subst this
      exact ⟨s, [], sep, y, m, d, hh, mm, ss, nano, 0, by simp, hsep, hb, .none, rfl⟩
  · rintro ⟨b, t, sep, y, m, d, hh, mm, ss, nano, o, rfl, hsep, hb, ht, rfl⟩
    have hs := sepOk_ne hsep
    have cp := dtBody_count hb (c := '+') (by decide) (by decide) (by decide) hs.1
    have cd := dtBody_count hb (c := '-') (by decide) (by decide) (by decide) hs.2.1
    rw [if_neg (by decide)] at cp
    rw [if_pos rfl] at cd
    rw [key, parseRfc3339_iff]
    have hprov : DateTime.tzProvided (b ++ t) = true ↔ t ≠ [] := by
      unfold DateTime.tzProvided
      simp only [Bool.or_eq_true, beq_iff_eq, Str.hasChar_iff_countChar, Str.countChar_append, cp, cd]
      cases ht with
      | none =>
        simp only [List.append_nil, ne_eq, not_true_eq_false, iff_false]
        rintro ((h | h) | h)
        · exact dtBody_last hb h
        · simp at h
        · simp at h
      | zulu => simp
      | @off c _ _ hc h =>
        rw [offText_count h (by decide) (by decide), offText_count h (by decide) (by decide)]
        have : t ≠ [] := by cases h <;> simp
        rcases hc with rfl | rfl <;> simp [this]
    cases ht with
    | none =>
      have : ¬ DateTime.tzProvided (b ++ []) = true := by rw [hprov]; simp
      rw [if_neg this, List.append_nil]
      exact ⟨b, ['Z'], sep, y, m, d, hh, mm, ss, nano, 0, rfl, hsep, hb, .zulu, rfl⟩
    | zulu =>
      rw [if_pos (hprov.2 (by simp))]
      exact ⟨b, ['Z'], sep, y, m, d, hh, mm, ss, nano, 0, rfl, hsep, hb, .zulu, rfl⟩
    | @off c _ _ hc h =>
      have : t ≠ [] := by cases h <;> simp
      rw [if_pos (hprov.2 this)]
      exact ⟨b, t, sep, y, m, d, hh, mm, ss, nano, o, rfl, hsep, hb, .off h, rfl⟩

theorem stamp_fromStr_iff {yr : YearRange} {s : Str} {x : CDateTime} :
    DateTimeStamp.fromStr yr s = .ok ⟨⟨x⟩⟩ ↔ parseRfc3339 yr s = some x := by
  unfold DateTimeStamp.fromStr DateTimeStamp.fromChrono DateTime.fromChrono
  cases parseRfc3339 yr s <;> simp

/-! ### `to_rfc3339` -/

theorem fmtAutoSi_frac {n : Nat} (h : n < 1000000000) : FracText (fmtAutoSi n) n := by
  have gen : ∀ {w k : Nat}, 0 < w → w ≤ 9 → n = k * 10 ^ (9 - w) → k < 10 ^ w →
      FracText ('.' :: Str.fmtPadNat w k) n := by
    intro w k hw hw9 e hk
    obtain ⟨ds, h1, hl, h2, h3⟩ := fmtPadNat_dtext (w := w) (n := k)
    have hl' : ds.length = w := by
      have := Str.length_fmtPadNat_of_lt hw hk
      rw [h2] at this; simpa [dtext] using this
    have := FracText.some ds ⟨by rintro rfl; simp at hl'; omega, h1⟩
    rw [nanoOf_short (by omega), hl', h3, ← e] at this
    rw [h2]; exact this
  unfold fmtAutoSi
  split
  · rename_i h0; subst h0; exact .none
  · split
    · exact gen (by decide) (by decide) (by simp; omega) (by simp; omega)
    · split
      · exact gen (by decide) (by decide) (by simp; omega) (by simp; omega)
      · exact gen (by decide) (by decide) (by simp) (by simpa using h)

theorem fmtOffset_text {o : Int} (h : -86400 < o ∧ o < 86400) (hm : o % 60 = 0) :
    ∃ c, (c = '+' ∨ c = '-') ∧ OffText c (fmtOffsetMinutes o) o := by
  have e0 : (o.natAbs + 30) / 60 = o.natAbs / 60 := by omega
  have h1 : o.natAbs / 60 / 60 < 24 := by omega
  have h2 : o.natAbs / 60 % 60 < 60 := by omega
  unfold fmtOffsetMinutes
  simp only [e0]
  rw [fmtPadNat_two (by omega), fmtPadNat_two (by omega)]
  by_cases hn : o < 0
  · refine ⟨'-', Or.inr rfl, ?_⟩
    rw [if_pos hn]
    have := OffText.west '-' _ _ (Or.inl rfl) h1 h2
    rw [show -(3600 * ((o.natAbs / 60 / 60 : Nat) : Int) + 60 * ((o.natAbs / 60 % 60 : Nat) : Int)) = o by omega] at this
    simpa using this
  · refine ⟨'+', Or.inl rfl, ?_⟩
    rw [if_neg hn]
    have := OffText.east _ _ h1 h2
    rw [show (3600 * ((o.natAbs / 60 / 60 : Nat) : Int) + 60 * ((o.natAbs / 60 % 60 : Nat) : Int)) = o by omega] at this
    simpa using this

/-- Values a chrono date-time can take. -/
def CdtOk (x : CDateTime) : Prop :=
  ValidDate x.date.year x.date.month x.date.day ∧ x.time.hour < 24 ∧ x.time.minute < 60 ∧
  x.time.second < 60 ∧ x.time.nano < 2000000000 ∧ (1000000000 ≤ x.time.nano → x.time.second = 59) ∧
  -86400 < x.offset ∧ x.offset < 86400

theorem toRfc3339_body {x : CDateTime} (hx : CdtOk x) (hy : 0 ≤ x.date.year ∧ x.date.year ≤ 9999) :
    ∃ b ss nano, toRfc3339 x = b ++ fmtOffsetMinutes x.offset ∧
      DateTimeBody b 'T' x.date.year.natAbs x.date.month x.date.day x.time.hour x.time.minute ss nano ∧
      x = mkDt x.date.year.natAbs x.date.month x.date.day x.time.hour x.time.minute ss nano x.offset := by
  obtain ⟨hv, h1, h2, h3, h4, h5, h6, h7⟩ := hx
  obtain ⟨hm, hd⟩ := validDate_lt hv
  have ey : ((x.date.year.natAbs : Nat) : Int) = x.date.year := by omega
  have hv' : ValidDate (x.date.year.natAbs : Nat) x.date.month x.date.day := by rw [ey]; exact hv
  have eyr : fmtYear x.date.year = four x.date.year.natAbs := by
    unfold fmtYear; rw [if_pos hy, fmtPadNat_four (by omega)]
  by_cases hl : x.time.nano ≥ 1000000000
  · have hs := h5 hl
    refine ⟨_, 60, x.time.nano - 1000000000, ?_, ⟨fmtAutoSi (x.time.nano - 1000000000), by omega, hv', h1, h2,
      by omega, fmtAutoSi_frac (by omega), rfl⟩, ?_⟩
    · unfold toRfc3339
      simp only [hl, if_true, hs]
      rw [eyr, fmtPadNat_two hm, fmtPadNat_two hd, fmtPadNat_two (by omega), fmtPadNat_two (by omega),
        fmtPadNat_two (by omega)]
      simp
    · obtain ⟨⟨y, m, d⟩, ⟨hh, mm, ss, nn⟩, o⟩ := x
      simp only [mkDt, CDateTime.mk.injEq, NaiveDate.mk.injEq, NaiveTime.mk.injEq, true_and, and_true, if_true] at *
      omega
  · refine ⟨_, x.time.second, x.time.nano, ?_, ⟨fmtAutoSi x.time.nano, by omega, hv', h1, h2,
      by omega, fmtAutoSi_frac (by omega), rfl⟩, ?_⟩
    · unfold toRfc3339
      simp only [hl, if_false]
      rw [eyr, fmtPadNat_two hm, fmtPadNat_two hd, fmtPadNat_two (by omega), fmtPadNat_two (by omega),
        fmtPadNat_two (by omega)]
      simp
    · obtain ⟨⟨y, m, d⟩, ⟨hh, mm, ss, nn⟩, o⟩ := x
      have : ¬ ss = 60 := by have := h3; simp only at this; omega
      simp only [mkDt, CDateTime.mk.injEq, NaiveDate.mk.injEq, NaiveTime.mk.injEq, true_and, and_true, this,
        if_false] at *
      omega

theorem datetime_roundtrip_iff {yr : YearRange} {x : CDateTime} (hx : CdtOk x) :
    DateTime.fromStr yr (DateTime.toStr ⟨x⟩) = .ok ⟨x⟩ ↔
      (0 ≤ x.date.year ∧ x.date.year ≤ 9999) ∧ x.offset % 60 = 0 := by
  rw [datetime_fromStr_iff]
  constructor
  · rintro ⟨b, t, sep, y, m, d, hh, mm, ss, nano, o, -, hsep, ⟨f, hy, -⟩, ht, rfl⟩
    refine ⟨by simp only [mkDt]; omega, ?_⟩
    simp only [mkDt]
    cases ht with
    | none => rfl
    | zulu => rfl
    | off _ h => exact (rfcTz_range (.off h)).2.2
  · rintro ⟨hy, ho⟩
    obtain ⟨b, ss, nano, e, hb, hval⟩ := toRfc3339_body hx hy
    obtain ⟨c, hc, ht⟩ := fmtOffset_text ⟨hx.2.2.2.2.2.2.1, hx.2.2.2.2.2.2.2⟩ ho
    exact ⟨b, _, 'T', _, _, _, _, _, ss, nano, x.offset, e, Or.inl rfl, hb, .off hc ht, hval⟩

theorem stamp_roundtrip_iff {yr : YearRange} {x : CDateTime} (hx : CdtOk x) :
    DateTimeStamp.fromStr yr (DateTimeStamp.toStr ⟨⟨x⟩⟩) = .ok ⟨⟨x⟩⟩ ↔
      (0 ≤ x.date.year ∧ x.date.year ≤ 9999) ∧ x.offset % 60 = 0 := by
  rw [stamp_fromStr_iff, parseRfc3339_iff]
  constructor
  · rintro ⟨b, t, sep, y, m, d, hh, mm, ss, nano, o, -, hsep, ⟨f, hy, -⟩, ht, rfl⟩
    exact ⟨by simp only [mkDt]; omega, (rfcTz_range ht).2.2⟩
  · rintro ⟨hy, ho⟩
    obtain ⟨b, ss, nano, e, hb, hval⟩ := toRfc3339_body hx hy
    obtain ⟨c, hc, ht⟩ := fmtOffset_text ⟨hx.2.2.2.2.2.2.1, hx.2.2.2.2.2.2.2⟩ ho
    exact ⟨b, _, 'T', _, _, _, _, _, ss, nano, x.offset, e, Or.inl rfl, hb, .off ht, hval⟩

end Verif.Lemmas.Chr
