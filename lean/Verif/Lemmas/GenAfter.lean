import Verif.Lemmas.GenMembers
import Verif.Lemmas.GenValidate
import Verif.Model.Builder
import Mathlib.Data.List.TakeWhile

/-! # Lemmas: generating twice, inline types, aliases, the builder -/

namespace Verif.Lemmas.Gen

open Verif Verif.Model Verif.Spec Verif.Lemmas Inflector

variable {g : GenCtx}

/-- A struct with a field which has subtypes. -/
def NestsTypes : RsEntity → Prop
  | .struct s => ∃ f ∈ s.fields, f.subtypes ≠ []
  | _ => False

theorem qualified_ne (m t : Str) : m ++ "::".toList ++ t ≠ t := by
  intro h
  have := congrArg List.length h
  simp only [List.length_append] at this
  have h2 : "::".toList.length = 2 := rfl
  omega

mutual
theorem after_iff : ∀ e : RsEntity, afterGenerate g e = e ↔ ∀ x ∈ generated e, ¬ NestsTypes x
  | .struct (.mk n c fs a ss) => by
    rw [afterGenerate]
    simp only [generated, List.mem_cons, List.mem_append, forall_eq_or_imp, NestsTypes, RStruct.fields,
      RsEntity.struct.injEq, RStruct.mk.injEq, true_and]
    have h1 := afterList_iff ss
    have h2 := afterFields_iff (g.name n) fs
    rw [h1, h2]
    simp only [or_imp, forall_and]
    constructor
    · rintro ⟨⟨h3, h4⟩, h5⟩
      exact ⟨by rintro ⟨f, hf, hne⟩; exact hne (h3 f hf), h5, h4⟩
    · rintro ⟨h3, h5, h4⟩
      exact ⟨⟨fun f hf => by by_contra hne; exact h3 ⟨f, hf, hne⟩, h4⟩, h5⟩
  | .tupleStruct (.mk n c t ss m f) => by
    rw [afterGenerate]
    simp [generated, NestsTypes, afterList_iff ss]
  | .enum (.mk n cs c t ss s) => by
    rw [afterGenerate]
    simp [generated, NestsTypes, afterList_iff ss]
  | .structField f => by simp [afterGenerate, generated, NestsTypes]
  | .enumCase c => by simp [afterGenerate, generated, NestsTypes]
  | .alias (.mk n o c ss) => by simp [afterGenerate, generated, NestsTypes]
  | .import i => by simp [afterGenerate, generated, NestsTypes]
theorem afterList_iff : ∀ es : List RsEntity, afterList g es = es ↔ ∀ x ∈ generatedList es, ¬ NestsTypes x
  | [] => by simp [afterList, generatedList]
  | e :: es => by
    rw [afterList]
    simp only [List.cons.injEq, generatedList, List.mem_append, or_imp, forall_and]
    rw [after_iff e, afterList_iff es]
theorem afterFields_iff (m : Str) : ∀ fs : List StructField, afterFields g m fs = fs ↔
    (∀ f ∈ fs, f.subtypes = []) ∧ ∀ x ∈ generatedFields fs, ¬ NestsTypes x
  | [] => by simp [afterFields, generatedFields]
  | .mk n t c ss src md :: fs => by
    rw [afterFields]
    simp only [List.cons.injEq, generatedFields, List.mem_append, or_imp, forall_and, StructField.mk.injEq,
      true_and, and_true, List.mem_cons, forall_eq]
    rw [afterList_iff ss, afterFields_iff m fs, show StructField.subtypes (.mk n t c ss src md) = ss from rfl]
    cases ss with
    | nil => simp only [List.isEmpty_nil, if_true, true_and]; tauto
    | cons s ss =>
      constructor
      · rintro ⟨⟨h, -⟩, -⟩; exact absurd h (qualified_ne m t)
      · rintro ⟨⟨h, -⟩, -⟩; cases h
end

/-! ## Inline types -/

theorem pascal_colon (U : UnicodeTable) (t : Str) : toPascalCase U (':' :: t) = toPascalCase U t := by
  have ha : U.isAlphanumeric ':' = false := by
    rw [U.alnum_ascii ':' (by decide)]; decide
  have htr : trimRight U (':' :: t) = ':' :: trimRight U t ∨
      (trimRight U (':' :: t) = [] ∧ trimRight U t = []) := by
    rw [trimRight, trimRight, List.reverse_cons]
    by_cases h : ∀ c ∈ t.reverse, (!U.isAlphanumeric c) = true
    · right
      rw [List.dropWhile_eq_nil_iff.2 h, List.dropWhile_eq_nil_iff.2]
      · exact ⟨rfl, rfl⟩
      · intro c hc
        rcases List.mem_append.1 hc with hc | hc
        · exact h c hc
        · simp at hc; subst hc; simp [ha]
    · left
      simp only [not_forall] at h
      obtain ⟨c, hc, hn⟩ := h
      rw [List.dropWhile_append, if_neg]
      · simp
      · simp only [List.isEmpty_iff, List.dropWhile_eq_nil_iff]
        intro h; exact hn (h c hc)
  rw [toPascalCase, toPascalCase]
  rcases htr with h | ⟨h1, h2⟩
  · rw [h, pascalGo]; simp [ha]
  · rw [h1, h2]

theorem name_no_colon (n : Str) : ':' ∉ g.name n :=
  (name_nameText g.U n).not_mem (by decide) (by decide) (by decide)

theorem builtInRow_colon (t : Str) : builtInRow (':' :: t) = [] := by
  unfold builtInRow
  simp

theorem keyword_no_colon : ∀ k ∈ rsKeywords, ':' ∉ k := by decide

/-- The type of a field with a type defined inside the struct. -/
theorem inline_typeName (n t : Str) :
    g.typeName (g.name n ++ "::".toList ++ t) =
      if g.targetNs.bind (·.name) = some (g.name n) then sanitize g.U (filterTypeName g.U (toPascalCase g.U t))
      else g.name n ++ "::".toList ++ filterTypeName g.U (toPascalCase g.U t) := by
  have hs : splitName (g.name n ++ "::".toList ++ t) = (some (g.name n), ':' :: t) := by
    rw [splitName_iff]
    have : g.name n ++ "::".toList ++ t = g.name n ++ ':' :: (':' :: t) := by simp
    rw [this]
    exact .prefixed (name_no_colon n)
  rw [GenCtx.typeName, formatTypeName, matchBuiltInType, hs]
  dsimp only
  rw [builtInRow_colon, if_pos rfl, ite_self]
  dsimp only
  rw [defaultFormatType, hs]
  dsimp only
  rw [pascal_colon]
  have hsan : sanitize g.U (g.name n ++ "::".toList ++ filterTypeName g.U (toPascalCase g.U t)) =
      g.name n ++ "::".toList ++ filterTypeName g.U (toPascalCase g.U t) := by
    apply sanitize_neg
    · intro c hc
      cases hn : g.name n with
      | nil =>
        rw [hn] at hc
        have : c = ':' := by simpa using hc.symm
        subst this
        rw [g.U.numeric_ascii ':' (by decide)]; decide
      | cons d ds =>
        rw [hn] at hc
        refine sanitize_head g.U (toSnakeCase g.U (lastSegment n)) c ?_
        have : sanitize g.U (toSnakeCase g.U (lastSegment n)) = d :: ds := hn
        rw [this]
        simpa using hc
    · intro h
      exact keyword_no_colon _ h (by simp)
  cases hp : nsPrefix g.targetNs with
  | none =>
    have : Option.bind g.targetNs (·.name) = none := hp
    dsimp only
    rw [this, if_neg (by simp)]
    exact hsan
  | some q =>
    have : Option.bind g.targetNs (·.name) = some q := hp
    dsimp only
    rw [this]
    by_cases hq : g.name n = q
    · rw [if_pos hq, if_pos (by rw [hq])]
    · rw [if_neg hq, if_neg (by simpa using fun h => hq h.symm)]
      exact hsan

end Verif.Lemmas.Gen
