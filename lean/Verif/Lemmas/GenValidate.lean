import Verif.Spec.Validate
import Verif.Lemmas.GenRec
import Verif.Lemmas.Duration6
import Verif.Lemmas.Integers

/-! # Lemmas about the generated validation -/

namespace Verif.Lemmas.Gen

open Verif Verif.Model Verif.Spec Verif.Lemmas Verif.Lemmas.Dur Verif.Lemmas.Chr

theorem parseDigits_iff {s : Str} {n : Nat} :
    Str.parseDigits s = some n ↔ ∃ ds, Digits1 ds ∧ s = dtext ds ∧ n = decVal ds := by
  rw [Str.parseDigits_eq_some]
  constructor
  · rintro ⟨h1, h2, h3⟩
    obtain ⟨ds, hd, rfl⟩ := dtext_of_allDigits h2
    refine ⟨ds, ⟨by rintro rfl; exact h1 rfl, hd⟩, rfl, ?_⟩
    rw [← h3]; exact decVal_eq_digitsVal hd
  · rintro ⟨ds, ⟨h1, h2⟩, rfl, rfl⟩
    refine ⟨by simpa [dtext] using h1, allDigits_dtext h2, decVal_eq_digitsVal h2⟩

theorem parseUnsigned_iff {mx : Nat} {s : Str} {n : Nat} :
    Str.parseUnsigned mx s = some n ↔ ∃ sg, sg ≠ .minus ∧ XsdInt s sg n ∧ n ≤ mx := by
  have hcap : ∀ o : Option Nat, (o.bind fun v => if v ≤ mx then some v else none) = some n ↔
      o = some n ∧ n ≤ mx := by
    intro o
    cases o with
    | none => simp
    | some v =>
      rw [Option.bind_some]
      by_cases hv : v ≤ mx
      · rw [if_pos hv]; simp; rintro rfl; exact hv
      · rw [if_neg hv]; simp; rintro rfl; exact Nat.lt_of_not_le hv
  unfold Str.parseUnsigned
  dsimp only
  constructor
  · intro h
    split at h
    · rename_i ds
      obtain ⟨h1, h2⟩ := (hcap _).1 h
      obtain ⟨ds, h3, rfl, rfl⟩ := parseDigits_iff.1 h1
      exact ⟨.plus, by simp, ⟨ds, h3, rfl, rfl⟩, h2⟩
    · obtain ⟨h1, h2⟩ := (hcap _).1 h
      obtain ⟨ds, h3, rfl, rfl⟩ := parseDigits_iff.1 h1
      exact ⟨.none, by simp, ⟨ds, h3, rfl, rfl⟩, h2⟩
  · rintro ⟨sg, hsg, ⟨ds, h1, rfl, h2⟩, h3⟩
    cases sg with
    | minus => exact absurd rfl hsg
    | plus =>
      have : n = decVal ds := by simpa [Sign.apply] using h2
      subst this
      exact (hcap _).2 ⟨parseDigits_iff.2 ⟨ds, h1, rfl, rfl⟩, h3⟩
    | none =>
      have : n = decVal ds := by simpa [Sign.apply] using h2
      subst this
      have e := parseDigits_iff.2 ⟨ds, h1, rfl, rfl⟩
      split
      · rename_i cs heq
        have := allDigits_dtext h1.2
        have h' : dtext ds = '+' :: cs := heq
        rw [h'] at this
        rw [Str.allDigits_cons, show Str.isAsciiDigit '+' = false by decide] at this
        cases this
      · exact (hcap _).2 ⟨e, h3⟩

theorem parseUnsigned_u32 {s : Str} {n : Nat} : Str.parseUnsigned u32Max s = some n ↔ U32Text s n := parseUnsigned_iff

theorem natStr_u32 {n : Nat} : ∃ ds, Digits1 ds ∧ Str.natStr n = dtext ds ∧ decVal ds = n := natStr_dtext n

theorem checks_bound {kind op expect v ty : Str} {c : Cmp} (hc : c.text = op) (hk : QuoteSafe kind)
    (he : QuoteSafe expect) (hv : QuoteSafe v) {cs : List Cond} {rest : Str} (h : Checks cs rest) :
    Checks (.value c v ty :: cs) (genBoundValidation kind op expect "0".toList v ty ++ rest) := by
  subst hc
  have hmsg : LexComplete ("format!(\"".toList ++ (kind ++ (" validation error: invalid value of ".toList ++ ("0".toList ++
      ("! \\nExpected: ".toList ++ ("0".toList ++ (" ".toList ++ (expect ++ (" ".toList ++ (v ++ (".\\nActual: ".toList ++
      ("0".toList ++ (" == {}\", self.".toList ++ ("0".toList ++ ")".toList)))))))))))))) := by
    have : LexFrom .code [] ("format!(\"".toList ++ (kind ++ (" validation error: invalid value of ".toList ++ ("0".toList ++
      ("! \\nExpected: ".toList ++ ("0".toList ++ (" ".toList ++ (expect ++ (" ".toList ++ (v ++ (".\\nActual: ".toList ++
      ("0".toList ++ (" == {}\", self.".toList ++ ("0".toList ++ ")".toList)))))))))))))) .code [] := by
      lx (lit (by decide +kernel)) .str [')']
      lx (hk.lex _) .str [')']
      lx (lit (by decide +kernel)) .str [')']
      lx (lit (by decide +kernel)) .str [')']
      lx (lit (by decide +kernel)) .str [')']
      lx (lit (by decide +kernel)) .str [')']
      lx (lit (by decide +kernel)) .str [')']
      lx (he.lex _) .str [')']
      lx (lit (by decide +kernel)) .str [')']
      lx (hv.lex _) .str [')']
      exact (lit (by decide +kernel))
    exact this []
  have := Checks.cons (pre := []) (.inl rfl) (CondText.value (c := c) (ty := ty) hv) hmsg h
  delta genBoundValidation
  simp only [List.append_assoc] at this ⊢
  exact this

theorem lex_lenMsg {kind expect v : Str} (hk : QuoteSafe kind) (he : QuoteSafe expect) (hv : QuoteSafe v) :
    LexFrom .code [] ("format!(\"".toList ++ (kind ++ (" validation error. \\nExpected: ".toList ++ ("0".toList ++
      (" length ".toList ++ (expect ++ (" ".toList ++ (v ++ (" \\nActual: ".toList ++
      ("0".toList ++ (" length == {}\", self.".toList ++ ("0".toList ++ ".len())".toList)))))))))))) .code [] := by
  lx (lit (by decide +kernel)) .str [')']
  lx (hk.lex _) .str [')']
  lx (lit (by decide +kernel)) .str [')']
  lx (lit (by decide +kernel)) .str [')']
  lx (lit (by decide +kernel)) .str [')']
  lx (he.lex _) .str [')']
  lx (lit (by decide +kernel)) .str [')']
  lx (hv.lex _) .str [')']
  exact (lit (by decide +kernel))

theorem len_split (pre kind op expect v rest : Str) :
    genLenValidation pre kind op expect "0".toList v ++ rest =
      pre ++ ("\n        if ".toList ++ (("self.0.len() ".toList ++ (op ++ (" ".toList ++ v))) ++
        (" {\n            return Err(".toList ++
        (("format!(\"".toList ++ (kind ++ (" validation error. \\nExpected: ".toList ++ ("0".toList ++
      (" length ".toList ++ (expect ++ (" ".toList ++ (v ++ (" \\nActual: ".toList ++
      ("0".toList ++ (" length == {}\", self.".toList ++ ("0".toList ++ ".len())".toList)))))))))))) ++
        (");\n        }".toList ++ rest))))) := by
  have e1 : ∀ r, ".len()));\n        }".toList ++ r = ".len())".toList ++ (");\n        }".toList ++ r) := fun _ => rfl
  have e2 : ∀ r, " {\n            return Err(format!(\"".toList ++ r =
    " {\n            return Err(".toList ++ ("format!(\"".toList ++ r) := by
    intro r
    rw [← List.append_assoc]
    exact congrArg (· ++ r) (by decide +kernel)
  have e3 : ∀ r, "\n        if self.".toList ++ ("0".toList ++ (".len() ".toList ++ r)) =
    "\n        if ".toList ++ ("self.0.len() ".toList ++ r) := by
    intro r
    simp only [← List.append_assoc]
    exact congrArg (· ++ r) (by decide +kernel)
  delta genLenValidation
  simp only [List.append_assoc]
  rw [e1, e2, e3]

theorem checks_len {pre kind op expect : Str} {n : Nat} {c : Cmp} (hc : c.text = op)
    (hp : pre = [] ∨ pre = "\n        #[allow(clippy::len_zero)]".toList) (hk : QuoteSafe kind)
    (he : QuoteSafe expect) {cs : List Cond} {rest : Str} (h : Checks cs rest) :
    Checks (.length c n :: cs) (genLenValidation pre kind op expect "0".toList (Str.natStr n) ++ rest) := by
  subst hc
  obtain ⟨ds, hd, e, rfl⟩ := natStr_u32 (n := n)
  have hv : QuoteSafe (dtext ds) := by rw [← e]; exact (natStr_word (decVal ds)).quote
  have hmsg := lex_lenMsg hk he hv []
  rw [e, len_split]
  exact Checks.cons hp (CondText.length (c := c) hd) hmsg h

private theorem q (s : String) (h : ∀ c ∈ s.toList, c ≠ '"' ∧ c ≠ '\\' ∧ c ≠ '\n') : QuoteSafe s.toList := h

/-- The checks for one facet. -/
def condsOf (ty : Str) : FacetType → List Cond
  | .length v => ((Str.parseUnsigned u32Max v).map fun n => Cond.length .ne n).toList
  | .maxExclusive v => [.value .ge v ty]
  | .maxInclusive v => [.value .gt v ty]
  | .maxLength v => ((Str.parseUnsigned u32Max v).map fun n => Cond.length .gt n).toList
  | .minExclusive v => [.value .le v ty]
  | .minInclusive v => [.value .lt v ty]
  | .minLength v => ((Str.parseUnsigned u32Max v).bind fun n => if n = 0 then none else some (Cond.length .lt n)).toList
  | _ => []

theorem condsOf_type {ty : Str} {f : FacetType} {op : Cmp} {l t : Str} (h : .value op l t ∈ condsOf ty f) : t = ty := by
  have hlen : ∀ (o : Option Nat) (c : Cmp), Cond.value op l t ∉ (o.map fun n => Cond.length c n).toList := by
    intro o c; cases o <;> simp
  cases f with
  | length v => exact absurd h (hlen _ _)
  | maxLength v => exact absurd h (hlen _ _)
  | minLength v =>
    rw [condsOf] at h
    cases hp : Str.parseUnsigned u32Max v with
    | none => rw [hp] at h; cases h
    | some n =>
      rw [hp, Option.bind_some] at h
      by_cases hn : n = 0
      · rw [if_pos hn] at h; cases h
      · rw [if_neg hn] at h; simp at h
  | maxExclusive v => simp [condsOf] at h; exact h.2.2
  | maxInclusive v => simp [condsOf] at h; exact h.2.2
  | minExclusive v => simp [condsOf] at h; exact h.2.2
  | minInclusive v => simp [condsOf] at h; exact h.2.2
  | _ => cases h

theorem facet_checks {ty t : Str} {f : FacetType} (h : genFacetValidation f "0".toList ty = .ok t)
    (hq : ∀ v, facetBound f = some v → QuoteSafe v) {cs : List Cond} {rest : Str} (hr : Checks cs rest) :
    Checks (condsOf ty f ++ cs) (t ++ rest) ∧ (condsOf ty f = [] ↔ Unchecked f) := by
  cases f with
  | maxExclusive v =>
    obtain rfl := Res.ok.inj h
    exact ⟨checks_bound rfl (q _ (by decide)) (q _ (by decide)) (hq v rfl) hr, by simp [condsOf, Unchecked]⟩
  | maxInclusive v =>
    obtain rfl := Res.ok.inj h
    exact ⟨checks_bound rfl (q _ (by decide)) (q _ (by decide)) (hq v rfl) hr, by simp [condsOf, Unchecked]⟩
  | minExclusive v =>
    obtain rfl := Res.ok.inj h
    exact ⟨checks_bound rfl (q _ (by decide)) (q _ (by decide)) (hq v rfl) hr, by simp [condsOf, Unchecked]⟩
  | minInclusive v =>
    obtain rfl := Res.ok.inj h
    exact ⟨checks_bound rfl (q _ (by decide)) (q _ (by decide)) (hq v rfl) hr, by simp [condsOf, Unchecked]⟩
  | length v =>
    rw [genFacetValidation] at h
    cases hp : Str.parseUnsigned u32Max v with
    | none => rw [hp] at h; cases h
    | some n =>
      rw [hp] at h
      obtain rfl := Res.ok.inj h
      simp only [condsOf, hp]
      exact ⟨checks_len rfl (.inl rfl) (q _ (by decide)) (q _ (by decide)) hr, by simp [Unchecked]⟩
  | maxLength v =>
    rw [genFacetValidation] at h
    cases hp : Str.parseUnsigned u32Max v with
    | none => rw [hp] at h; cases h
    | some n =>
      rw [hp] at h
      obtain rfl := Res.ok.inj h
      simp only [condsOf, hp]
      exact ⟨checks_len rfl (.inl rfl) (q _ (by decide)) (q _ (by decide)) hr, by simp [Unchecked]⟩
  | minLength v =>
    rw [genFacetValidation] at h
    cases hp : Str.parseUnsigned u32Max v with
    | none => rw [hp] at h; cases h
    | some n =>
      rw [hp] at h
      simp only [Res.unwrap, Res.ok_bind] at h
      have hu : Unchecked (.minLength v) ↔ n = 0 := by
        rw [Unchecked, ← parseUnsigned_u32, hp]; simp
      by_cases hn : n = 0
      · rw [if_pos hn] at h
        obtain rfl := Res.ok.inj h
        simp only [condsOf, hp, Option.bind_some, if_pos hn]
        exact ⟨hr, by simp [hu, hn]⟩
      · rw [if_neg hn] at h
        obtain rfl := Res.ok.inj h
        simp only [condsOf, hp, Option.bind_some, if_neg hn]
        exact ⟨checks_len rfl (.inr rfl) (q _ (by decide)) (q _ (by decide)) hr, by simp [hu, hn]⟩
  | _ => obtain rfl := Res.ok.inj h; exact ⟨hr, by simp [condsOf, Unchecked]⟩

theorem facets_checks {ty : Str} : ∀ (fs : List Facet) (t : Str), facetBodies ty fs = .ok t →
    (∀ f ∈ fs, ∀ v, facetBound f.facetType = some v → QuoteSafe v) →
    Checks (fs.flatMap fun f => condsOf ty f.facetType) t ∧
      ((fs.flatMap fun f => condsOf ty f.facetType) = [] ↔ ∀ f ∈ fs, Unchecked f.facetType)
  | [], t, h, _ => by obtain rfl := Res.ok.inj h; exact ⟨.nil, by simp⟩
  | f :: fs, t, h, hq => by
    rw [facetBodies] at h
    obtain ⟨x, h1, h⟩ := Res.bind_eq_ok.1 h
    obtain ⟨y, h2, h⟩ := Res.bind_eq_ok.1 h
    obtain rfl := Res.ok.inj h
    obtain ⟨h3, h4⟩ := facets_checks fs y h2 fun g hg => hq g (by simp [hg])
    obtain ⟨h5, h6⟩ := facet_checks h1 (hq f (by simp)) h3
    rw [List.flatMap_cons]
    exact ⟨h5, by rw [List.append_eq_nil_iff, h6, h4]; simp⟩

theorem checks_ne_nil {cs : List Cond} {t : Str} (h : Checks cs t) : cs = [] ↔ t = [] := by
  cases h with
  | nil => simp
  | cons h1 h2 h3 h4 =>
    simp

theorem facets_validate {n ty : Str} {fs : List Facet} {t : Str} (h : facetBodies ty fs = .ok t)
    (hq : ∀ f ∈ fs, ∀ v, facetBound f.facetType = some v → QuoteSafe v) :
    ValidateImpl n (fs.flatMap fun f => condsOf ty f.facetType) (genValidateImpl n t) := by
  obtain ⟨h1, -⟩ := facets_checks fs t h hq
  have h2 := checks_ne_nil h1
  rw [genValidateImpl]
  by_cases ht : t = []
  · rw [if_pos ht]
    exact .inl ⟨h2.2 ht, by rw [List.append_assoc]⟩
  · rw [if_neg ht]
    refine .inr ⟨fun e => ht (h2.1 e), t, h1, ?_⟩
    simp only [List.append_assoc]

/-! ## What the checks do -/

variable {V : Type} (S : Values V)

theorem run_facet (hl : S.Linear) (v : V) (ty : Str) (f : FacetType)
    (hp : ∀ b, facetBound f = some b → S.parse b ≠ none)
    (hok : genFacetValidation f "0".toList ty ≠ .panic)
    (cs : List Cond) :
    (Meets S v f → runChecks S v (condsOf ty f ++ cs) = runChecks S v cs) ∧
    (¬ Meets S v f → runChecks S v (condsOf ty f ++ cs) = .err) := by
  have hval : ∀ (c : Cmp) (b : Str) (P : Prop), S.parse b ≠ none → condsOf ty f = [.value c b ty] →
      (∀ x, S.parse b = some x → (P ↔ c.onValues S v x = false)) →
      (P → runChecks S v (condsOf ty f ++ cs) = runChecks S v cs) ∧
      (¬ P → runChecks S v (condsOf ty f ++ cs) = .err) := by
    intro c b P h1 h2 h3
    obtain ⟨x, hx⟩ := Option.ne_none_iff_exists'.1 h1
    rw [h2, h3 x hx]
    simp only [List.cons_append, List.nil_append, runChecks, Cond.eval, hx, Option.map_some]
    cases c.onValues S v x <;> simp
  have hlen : ∀ (c : Cmp) (n : Nat) (P : Prop), condsOf ty f = [.length c n] →
      (P ↔ c.onNat (S.len v) n = false) →
      (P → runChecks S v (condsOf ty f ++ cs) = runChecks S v cs) ∧
      (¬ P → runChecks S v (condsOf ty f ++ cs) = .err) := by
    intro c n P h2 h3
    rw [h2, h3]
    simp only [List.cons_append, List.nil_append, runChecks, Cond.eval]
    cases c.onNat (S.len v) n <;> simp
  have huniq : ∀ {t : Str} {n m : Nat}, U32Text t n → U32Text t m → n = m := by
    intro t n m h1 h2
    have := (parseUnsigned_u32.2 h1).symm.trans (parseUnsigned_u32.2 h2)
    simpa using this
  cases f with
  | maxExclusive b =>
    refine hval .ge b _ (hp b rfl) rfl fun x hx => ?_
    simp only [Meets, hx, Option.some.injEq, exists_eq_left', Cmp.onValues, hl v x]
    cases S.le x v <;> simp
  | maxInclusive b =>
    refine hval .gt b _ (hp b rfl) rfl fun x hx => ?_
    simp only [Meets, hx, Option.some.injEq, exists_eq_left', Cmp.onValues, hl x v]
    cases S.le v x <;> simp
  | minExclusive b =>
    refine hval .le b _ (hp b rfl) rfl fun x hx => ?_
    simp only [Meets, hx, Option.some.injEq, exists_eq_left', Cmp.onValues, hl x v]
    cases S.le v x <;> simp
  | minInclusive b =>
    refine hval .lt b _ (hp b rfl) rfl fun x hx => ?_
    simp only [Meets, hx, Option.some.injEq, exists_eq_left', Cmp.onValues, hl v x]
    cases S.le x v <;> simp
  | length t =>
    cases hq : Str.parseUnsigned u32Max t with
    | none => exact absurd (by rw [genFacetValidation, hq]; rfl) hok
    | some n =>
      have hu := parseUnsigned_u32.1 hq
      refine hlen .ne n _ (by simp [condsOf, hq]) ?_
      simp only [Meets, Cmp.onNat]
      constructor
      · rintro ⟨m, h1, h2⟩; rw [huniq hu h1, h2]; simp
      · intro h; exact ⟨n, hu, by simpa using h⟩
  | maxLength t =>
    cases hq : Str.parseUnsigned u32Max t with
    | none => exact absurd (by rw [genFacetValidation, hq]; rfl) hok
    | some n =>
      have hu := parseUnsigned_u32.1 hq
      refine hlen .gt n _ (by simp [condsOf, hq]) ?_
      simp only [Meets, Cmp.onNat]
      constructor
      · rintro ⟨m, h1, h2⟩; rw [huniq hu h1]; simpa using h2
      · intro h; exact ⟨n, hu, by simpa using h⟩
  | minLength t =>
    cases hq : Str.parseUnsigned u32Max t with
    | none => exact absurd (by rw [genFacetValidation, hq]; rfl) hok
    | some n =>
      have hu := parseUnsigned_u32.1 hq
      by_cases hz : n = 0
      · subst hz
        have e : condsOf ty (.minLength t) = [] := by simp [condsOf, hq]
        rw [e]
        exact ⟨fun _ => rfl, fun h => absurd ⟨0, hu, Nat.zero_le _⟩ h⟩
      refine hlen .lt n _ (by simp [condsOf, hq, hz]) ?_
      simp only [Meets, Cmp.onNat]
      constructor
      · rintro ⟨m, h1, h2⟩; rw [huniq hu h1]; simpa using h2
      · intro h; exact ⟨n, hu, by simpa using h⟩
  | _ => exact ⟨fun _ => rfl, fun h => absurd trivial h⟩

theorem run_facets (hl : S.Linear) (v : V) (ty : Str) : ∀ fs : List Facet,
    (∀ f ∈ fs, ∀ b, facetBound f.facetType = some b → S.parse b ≠ none) →
    (∀ f ∈ fs, genFacetValidation f.facetType "0".toList ty ≠ .panic) →
    ((∀ f ∈ fs, Meets S v f.facetType) → runChecks S v (fs.flatMap fun f => condsOf ty f.facetType) = .ok ()) ∧
    (¬ (∀ f ∈ fs, Meets S v f.facetType) → runChecks S v (fs.flatMap fun f => condsOf ty f.facetType) = .err)
  | [], _, _ => by simp [runChecks]
  | f :: fs, h1, h2 => by
    obtain ⟨h3, h4⟩ := run_facets hl v ty fs (fun g hg => h1 g (by simp [hg])) (fun g hg => h2 g (by simp [hg]))
    obtain ⟨h5, h6⟩ := run_facet S hl v ty f.facetType (h1 f (by simp)) (h2 f (by simp))
      (fs.flatMap fun f => condsOf ty f.facetType)
    rw [List.flatMap_cons]
    by_cases hm : Meets S v f.facetType
    · rw [h5 hm]
      simp only [List.forall_mem_cons, hm, true_and]
      exact ⟨h3, h4⟩
    · rw [h6 hm]
      simp [hm]

end Verif.Lemmas.Gen
