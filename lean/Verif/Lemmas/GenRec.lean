import Verif.Lemmas.GenLex

/-! # Induction over the entities -/

namespace Verif.Lemmas.Gen

open Verif Verif.Model Verif.Spec Inflector

variable {g : GenCtx}

attribute [local irreducible] genBoundValidation genLenValidation structText enumText genField genCase

theorem genAlias_neutral {n o : Str} {c : Option Str} (hn : PrefixSafe n) (ho : PrefixSafe o) :
    Neutral (genAlias g n o c) := by
  delta genAlias
  simp only [List.append_assoc]
  lx (lit (by decide +kernel)) .comment []
  rcases lex_comment_in_comment c [] with ⟨-, h⟩ | ⟨-, h⟩
  · lx h .comment []
    have hw : ∀ {t : Str}, WordText t → LexFrom .comment [] t .comment [] := by
      intro t h
      apply lex_comment
      intro hc; exact h _ hc (by decide)
    lx (lit (by decide +kernel)) .comment []
    lx (hw (typeName_word g hn)) .comment []
    lx (lit (by decide +kernel)) .comment []
    lx (hw (typeName_word g ho)) .comment []
    exact lit (by decide +kernel)
  · lx h .code []
    lx (lit (by decide +kernel)) .code []
    lx (neutral_typeName g hn) .code []
    lx (lit (by decide +kernel)) .code []
    lx (neutral_typeName g ho) .code []
    exact lit (by decide +kernel)

theorem genImport_neutral {i : Import} (h1 : '\n' ∉ i.location) (h2 : '\n' ∉ i.name) : Neutral (genImport i) := by
  delta genImport
  simp only [List.append_assoc]
  lx (lit (by decide +kernel)) .comment []
  lx (lex_comment h1 _) .comment []
  lx (lit (by decide +kernel)) .comment []
  lx (lex_comment h2 _) .comment []
  exact lit (by decide +kernel)

theorem natStr_word (n : Nat) : WordText (Str.natStr n) := by
  apply wordText_alnum
  intro c hc
  have := Nat.isDigit_of_mem_toDigits (b := 10) (by decide) (by decide) hc
  simp only [Char.isDigit, Bool.and_eq_true, decide_eq_true_eq] at this
  rw [asciiAlnum_iff]
  left
  have h1 := this.1
  have h2 := this.2
  simp only [UInt32.le_iff_toNat_le] at h1 h2
  exact ⟨h1, h2⟩

theorem facet_neutral {f : FacetType} {n t : Str} (hn : WordText n) (ht : Neutral t)
    (hv : ∀ v, facetBound f = some v → QuoteSafe v) {r : Str} (h : genFacetValidation f n t = .ok r) : Neutral r := by
  have hlit : ∀ {s : Str}, lexRun (.code, []) s = some (.code, []) → Neutral s := fun h => lit h
  have q : ∀ s : String, (∀ c ∈ s.toList, c ≠ '"' ∧ c ≠ '\\' ∧ c ≠ '\n') → QuoteSafe s.toList := fun _ h => h
  cases f <;> simp only [genFacetValidation] at h
  case maxExclusive v =>
    obtain rfl := Res.ok.inj h
    exact neutral_bound (q _ (by decide +kernel)) (lit (by decide +kernel)) (q _ (by decide +kernel)) hn (hv v rfl) ht
  case maxInclusive v =>
    obtain rfl := Res.ok.inj h
    exact neutral_bound (q _ (by decide +kernel)) (lit (by decide +kernel)) (q _ (by decide +kernel)) hn (hv v rfl) ht
  case minExclusive v =>
    obtain rfl := Res.ok.inj h
    exact neutral_bound (q _ (by decide +kernel)) (lit (by decide +kernel)) (q _ (by decide +kernel)) hn (hv v rfl) ht
  case minInclusive v =>
    obtain rfl := Res.ok.inj h
    exact neutral_bound (q _ (by decide +kernel)) (lit (by decide +kernel)) (q _ (by decide +kernel)) hn (hv v rfl) ht
  case length v =>
    obtain ⟨k, -, h2⟩ := Res.bind_eq_ok.1 h
    obtain rfl := Res.ok.inj h2
    exact neutral_len neutral_nil (q _ (by decide +kernel)) (lit (by decide +kernel)) (q _ (by decide +kernel)) hn (natStr_word k)
  case maxLength v =>
    obtain ⟨k, -, h2⟩ := Res.bind_eq_ok.1 h
    obtain rfl := Res.ok.inj h2
    exact neutral_len neutral_nil (q _ (by decide +kernel)) (lit (by decide +kernel)) (q _ (by decide +kernel)) hn (natStr_word k)
  case minLength v =>
    obtain ⟨k, -, h2⟩ := Res.bind_eq_ok.1 h
    split at h2
    · obtain rfl := Res.ok.inj h2; exact neutral_nil
    · obtain rfl := Res.ok.inj h2
      exact neutral_len (lit (by decide +kernel)) (q _ (by decide +kernel)) (lit (by decide +kernel)) (q _ (by decide +kernel)) hn
        (natStr_word k)
  all_goals (obtain rfl := Res.ok.inj h; exact neutral_nil)

theorem facetBodies_neutral {t : Str} (ht : Neutral t) {fs : List Facet}
    (hv : ∀ f ∈ fs, ∀ v, facetBound f.facetType = some v → QuoteSafe v) {r : Str} (h : facetBodies t fs = .ok r) :
    Neutral r := by
  induction fs generalizing r with
  | nil => obtain rfl := Res.ok.inj h; exact neutral_nil
  | cons f fs ih =>
    rw [facetBodies] at h
    obtain ⟨a, h1, h⟩ := Res.bind_eq_ok.1 h
    obtain ⟨b, h2, h⟩ := Res.bind_eq_ok.1 h
    obtain rfl := Res.ok.inj h
    exact .app (facet_neutral (by intro c hc; revert c; decide) ht (hv f (by simp)) h1)
      (ih (fun f hf => hv f (by simp [hf])) h2)

theorem tupleText_neutral {n : Str} {c : Option Str} {t : Str} {ms : List TypeModifier} {fs : List Facet} {sub : Str}
    (hn : PrefixSafe n) (ht : PrefixSafe t)
    (hv : ∀ f ∈ fs, ∀ v, facetBound f.facetType = some v → QuoteSafe v) (hs : Neutral sub) {r : Str}
    (h : tupleText g n c t ms fs sub = .ok r) : Neutral r := by
  rw [tupleText] at h
  obtain ⟨body, h1, h⟩ := Res.bind_eq_ok.1 h
  obtain rfl := Res.ok.inj h
  have htn : Neutral (tupleTypeName g t ms) := neutral_modifyType (typeName_word g ht) ms
  simp only [List.append_assoc]
  lx (neutral_comment _ _) .code []
  lx (lit (by decide +kernel)) .code []
  lx (lit (by decide +kernel)) .code []
  lx (neutral_typeName g hn) .code []
  lx (lit (by decide +kernel)) .code [')']
  lx (htn.at _) .code [')']
  lx (lit (by decide +kernel)) .code []
  lx hs .code []
  lx (lit (by decide +kernel)) .code []
  lx (neutral_validate (neutral_typeName g hn) (facetBodies_neutral htn hv h1)) .code []
  exact lit (by decide +kernel)

mutual
theorem generate_neutral (ht : SafeNamespace g.targetNs) : ∀ (e : RsEntity) (r : Str),
    (∀ x ∈ generated e, SafeTexts x) → generate g e = .ok r → Neutral r
  | .struct (.mk n c fs a ss), r, hs, h => by
    rw [generate] at h
    obtain ⟨x, h1, h⟩ := Res.bind_eq_ok.1 h
    obtain ⟨y, h2, h⟩ := Res.bind_eq_ok.1 h
    obtain rfl := Res.ok.inj h
    have hself := hs (.struct (.mk n c fs a ss)) (by simp [generated])
    refine neutral_structText hself.1 hself.2 ht (neutral_flatten ?_) (neutral_joinWith (lit (by decide +kernel)) ?_)
    · exact genFieldSubtypes_neutral ht fs x (fun z hz => hs z (by simp [generated, hz])) h1
    · exact genList_neutral ht ss y (fun z hz => hs z (by simp [generated, hz])) h2
  | .tupleStruct (.mk n c t ss m fs), r, hs, h => by
    rw [generate] at h
    obtain ⟨y, h2, h⟩ := Res.bind_eq_ok.1 h
    have hself := hs (.tupleStruct (.mk n c t ss m fs)) (by simp [generated])
    refine tupleText_neutral hself.1 hself.2.1 hself.2.2 (neutral_joinWith (lit (by decide +kernel)) ?_) h
    exact genList_neutral ht ss y (fun z hz => hs z (by simp [generated, hz])) h2
  | .enum (.mk n cs c t ss src), r, hs, h => by
    rw [generate] at h
    obtain ⟨y, h2, h⟩ := Res.bind_eq_ok.1 h
    obtain rfl := Res.ok.inj h
    have hself := hs (.enum (.mk n cs c t ss src)) (by simp [generated])
    refine neutral_enumText hself.1 hself.2.1 hself.2.2 ht (neutral_joinWith (lit (by decide +kernel)) ?_)
    exact genList_neutral ht ss y (fun z hz => hs z (by simp [generated, hz])) h2
  | .structField f, r, hs, h => by
    rw [generate] at h
    obtain rfl := Res.ok.inj h
    exact neutral_genField (hs (.structField f) (by simp [generated])) ht
  | .enumCase c, r, hs, h => by
    rw [generate] at h
    obtain rfl := Res.ok.inj h
    exact neutral_genCase (hs (.enumCase c) (by simp [generated]))
  | .alias (.mk n o c ss), r, hs, h => by
    rw [generate] at h
    obtain rfl := Res.ok.inj h
    have hself := hs (.alias (.mk n o c ss)) (by simp [generated])
    exact genAlias_neutral hself.1 hself.2
  | .import i, r, hs, h => by
    rw [generate] at h
    obtain rfl := Res.ok.inj h
    have hself := hs (.import i) (by simp [generated])
    exact genImport_neutral hself.1 hself.2
theorem genList_neutral (ht : SafeNamespace g.targetNs) : ∀ (es : List RsEntity) (rs : List Str),
    (∀ x ∈ generatedList es, SafeTexts x) → genList g es = .ok rs → ∀ r ∈ rs, Neutral r
  | [], rs, _, h => by rw [genList] at h; obtain rfl := Res.ok.inj h; simp
  | e :: es, rs, hs, h => by
    rw [genList] at h
    obtain ⟨x, h1, h⟩ := Res.bind_eq_ok.1 h
    obtain ⟨y, h2, h⟩ := Res.bind_eq_ok.1 h
    obtain rfl := Res.ok.inj h
    intro r hr
    rcases List.mem_cons.1 hr with rfl | hr
    · exact generate_neutral ht e _ (fun z hz => hs z (by simp [generatedList, hz])) h1
    · exact genList_neutral ht es y (fun z hz => hs z (by simp [generatedList, hz])) h2 r hr
theorem genFieldSubtypes_neutral (ht : SafeNamespace g.targetNs) : ∀ (fs : List StructField) (rs : List Str),
    (∀ x ∈ generatedFields fs, SafeTexts x) → genFieldSubtypes g fs = .ok rs → ∀ r ∈ rs, Neutral r
  | [], rs, _, h => by rw [genFieldSubtypes] at h; obtain rfl := Res.ok.inj h; simp
  | .mk n t c ss src m :: fs, rs, hs, h => by
    rw [genFieldSubtypes] at h
    obtain ⟨x, h1, h⟩ := Res.bind_eq_ok.1 h
    obtain ⟨y, h2, h⟩ := Res.bind_eq_ok.1 h
    obtain rfl := Res.ok.inj h
    intro r hr
    rcases List.mem_cons.1 hr with rfl | hr
    · refine neutral_joinWith (lit (by decide +kernel)) ?_
      exact genList_neutral ht ss x (fun z hz => hs z (by simp [generatedFields, hz])) h1
    · exact genFieldSubtypes_neutral ht fs y (fun z hz => hs z (by simp [generatedFields, hz])) h2 r hr
end

/-! ## Panics -/

theorem unwrap_bind_panic {α β : Type} (o : Option α) (f : α → Res β) (hf : ∀ a, ∃ b, f a = .ok b) :
    ((Res.unwrap o).bind f = .panic ↔ o = none) ∧ (Res.unwrap o).bind f ≠ .err := by
  cases o with
  | none => exact ⟨⟨fun _ => rfl, fun _ => rfl⟩, fun h => by cases h⟩
  | some a =>
    obtain ⟨b, hb⟩ := hf a
    show (f a = .panic ↔ _) ∧ f a ≠ .err
    rw [hb]
    exact ⟨⟨fun h => (Res.noConfusion rfl (heq_of_eq h)), fun h => by cases h⟩, fun h => Res.noConfusion rfl (heq_of_eq h)⟩

/-- The number which a facet needs, and is not one. -/
def BadLength (f : FacetType) : Prop :=
  ∃ v, (f = .length v ∨ f = .maxLength v ∨ f = .minLength v) ∧ Str.parseUnsigned u32Max v = none

theorem facet_panic (f : FacetType) (n t : Str) :
    (genFacetValidation f n t = .panic ↔ BadLength f) ∧ genFacetValidation f n t ≠ .err := by
  have hbad : ∀ v : Str, (f = .length v ∨ f = .maxLength v ∨ f = .minLength v) →
      (BadLength f ↔ Str.parseUnsigned u32Max v = none) := by
    intro v hv
    constructor
    · rintro ⟨w, h1, h2⟩
      rcases hv with rfl | rfl | rfl <;> rcases h1 with h1 | h1 | h1 <;>
        first | (injection h1 with h1; subst h1; exact h2) | (exact FacetType.noConfusion h1)
    · intro h; exact ⟨v, hv, h⟩
  have hgood : ∀ b : Str, (∀ v, ¬ (f = .length v ∨ f = .maxLength v ∨ f = .minLength v)) →
      genFacetValidation f n t = .ok b →
      (genFacetValidation f n t = .panic ↔ BadLength f) ∧ genFacetValidation f n t ≠ .err := by
    intro b h1 h2
    rw [h2]
    refine ⟨⟨fun h => Res.noConfusion rfl (heq_of_eq h), ?_⟩, fun h => Res.noConfusion rfl (heq_of_eq h)⟩
    rintro ⟨v, h, -⟩
    exact absurd h (h1 v)
  have hno : ∀ v : Str, FacetType.enumeration v ≠ .length v := fun _ h => FacetType.noConfusion h
  cases f with
  | length v =>
    rw [hbad v (.inl rfl)]
    exact unwrap_bind_panic _ _ fun a => ⟨_, rfl⟩
  | maxLength v =>
    rw [hbad v (.inr (.inl rfl))]
    exact unwrap_bind_panic _ _ fun a => ⟨_, rfl⟩
  | minLength v =>
    rw [hbad v (.inr (.inr rfl))]
    refine unwrap_bind_panic _ _ fun a => ?_
    by_cases h : a = 0
    · exact ⟨[], if_pos h⟩
    · exact ⟨_, if_neg h⟩
  | _ => exact hgood _ (by intro v h; rcases h with h | h | h <;> exact FacetType.noConfusion h) rfl

theorem facetBodies_panic (t : Str) (fs : List Facet) :
    (facetBodies t fs = .panic ↔ ∃ f ∈ fs, BadLength f.facetType) ∧ facetBodies t fs ≠ .err := by
  induction fs with
  | nil => simp [facetBodies]
  | cons f fs ih =>
    obtain ⟨h1, h2⟩ := facet_panic f.facetType "0".toList t
    obtain ⟨h3, h4⟩ := ih
    rw [facetBodies]
    generalize genFacetValidation f.facetType "0".toList t = x at h1 h2
    generalize facetBodies t fs = y at h3 h4
    simp only [List.mem_cons, exists_eq_or_imp, ← h1, ← h3]
    cases x <;> cases y <;> simp_all

/-- The entity has such a facet. -/
def BadTuple : RsEntity → Prop
  | .tupleStruct t => ∃ f ∈ t.facets, BadLength f.facetType
  | _ => False

mutual
theorem generate_panic : ∀ e : RsEntity,
    (generate g e = .panic ↔ ∃ x ∈ generated e, BadTuple x) ∧ generate g e ≠ .err
  | .struct (.mk n c fs a ss) => by
    obtain ⟨h1, h2⟩ := genFieldSubtypes_panic fs
    obtain ⟨h3, h4⟩ := genList_panic ss
    rw [generate]
    have e : (∃ x ∈ generated (.struct (.mk n c fs a ss)), BadTuple x) ↔
        (∃ x ∈ generatedFields fs, BadTuple x) ∨ ∃ x ∈ generatedList ss, BadTuple x := by
      have h0 : ¬ BadTuple (.struct (.mk n c fs a ss)) := fun h => h
      simp only [generated, List.mem_cons, List.mem_append, exists_eq_or_imp, h0, false_or]
      simp only [or_and_right, exists_or]
      exact or_comm
    rw [e, ← h1, ← h3]
    generalize genFieldSubtypes g fs = x at h1 h2
    generalize genList g ss = y at h3 h4
    cases x <;> cases y <;> simp_all
  | .tupleStruct (.mk n c t ss m fs) => by
    obtain ⟨h3, h4⟩ := genList_panic ss
    obtain ⟨h1, h2⟩ := facetBodies_panic (tupleTypeName g t m) fs
    rw [generate]
    have e : (∃ x ∈ generated (.tupleStruct (.mk n c t ss m fs)), BadTuple x) ↔
        (∃ f ∈ fs, BadLength f.facetType) ∨ ∃ x ∈ generatedList ss, BadTuple x := by
      simp only [generated, List.mem_cons, exists_eq_or_imp, BadTuple, TupleStruct.facets]
    rw [e, ← h1, ← h3]
    simp only [tupleText]
    generalize facetBodies (tupleTypeName g t m) fs = x at h1 h2
    generalize genList g ss = y at h3 h4
    cases x <;> cases y <;> simp_all
  | .enum (.mk n cs c t ss src) => by
    obtain ⟨h3, h4⟩ := genList_panic ss
    rw [generate]
    have e : (∃ x ∈ generated (.enum (.mk n cs c t ss src)), BadTuple x) ↔ ∃ x ∈ generatedList ss, BadTuple x := by
      simp only [generated, List.mem_cons, exists_eq_or_imp, BadTuple, false_or]
    rw [e, ← h3]
    generalize genList g ss = y at h3 h4
    cases y <;> simp_all
  | .structField f => by simp [generate, generated, BadTuple]
  | .enumCase c => by simp [generate, generated, BadTuple]
  | .alias (.mk n o c ss) => by simp [generate, generated, BadTuple]
  | .import i => by simp [generate, generated, BadTuple]
theorem genList_panic : ∀ es : List RsEntity,
    (genList g es = .panic ↔ ∃ x ∈ generatedList es, BadTuple x) ∧ genList g es ≠ .err
  | [] => by simp [genList, generatedList]
  | e :: es => by
    obtain ⟨h1, h2⟩ := generate_panic e
    obtain ⟨h3, h4⟩ := genList_panic es
    rw [genList]
    simp only [generatedList, List.mem_append, or_and_right, exists_or, ← h1, ← h3]
    generalize generate g e = x at h1 h2
    generalize genList g es = y at h3 h4
    cases x <;> cases y <;> simp_all
theorem genFieldSubtypes_panic : ∀ fs : List StructField,
    (genFieldSubtypes g fs = .panic ↔ ∃ x ∈ generatedFields fs, BadTuple x) ∧ genFieldSubtypes g fs ≠ .err
  | [] => by simp [genFieldSubtypes, generatedFields]
  | .mk n t c ss src m :: fs => by
    obtain ⟨h1, h2⟩ := genList_panic ss
    obtain ⟨h3, h4⟩ := genFieldSubtypes_panic fs
    rw [genFieldSubtypes]
    simp only [generatedFields, List.mem_append, or_and_right, exists_or, ← h1, ← h3]
    generalize genList g ss = x at h1 h2
    generalize genFieldSubtypes g fs = y at h3 h4
    cases x <;> cases y <;> simp_all
end

end Verif.Lemmas.Gen
