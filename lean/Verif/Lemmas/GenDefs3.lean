import Verif.Lemmas.GenDefs2

/-! # The definitions which are read from generated code: induction -/

namespace Verif.Lemmas.Gen

open Verif Verif.Model Verif.Spec Inflector

attribute [local irreducible] genBoundValidation genLenValidation structText enumText genField genCase

variable {g : GenCtx}

/-- The comment of the documentation is not empty. -/
def hasDoc (c : Option Str) : Bool := decide (GenCtx.formatComment c 0 ≠ [])

abbrev eDefs (g : GenCtx) (e : RsEntity) : Defs := fun p => defsOf g.typeName g.name hasDoc p e

/-- Text and definitions of an entity. -/
def Good (t : Str) (f : Defs) : Prop := Seg [] t [] f ∧ Starts t

theorem Good.ne {t : Str} {f : Defs} (h : Good t f) : t ≠ [] := by
  rintro rfl
  rcases h.2 with h | h <;> cases h

theorem good_segs {ts : List Str} {fs : List Defs} (h : List.Forall₂ Good ts fs) :
    List.Forall₂ (fun t f => Seg [] t [] f) ts fs := h.imp fun _ _ h => h.1

theorem good_starts {ts : List Str} {fs : List Defs} (h : List.Forall₂ Good ts fs) :
    joinWith "\n".toList ts = [] ∨ Starts (joinWith "\n".toList ts) := by
  cases h with
  | nil => left; rfl
  | cons h _ => right; exact h.2.append _

theorem good_join_nil {ts : List Str} {fs : List Defs} (h : List.Forall₂ Good ts fs) :
    joinWith "\n".toList ts = [] ↔ fs = [] := by
  cases h with
  | nil => simp [joinWith]
  | cons h _ =>
    simp only [joinWith, List.append_eq_nil_iff, reduceCtorEq, iff_false, not_and]
    intro h0; exact absurd h0 h.ne

theorem defsList_eq (p : List Str) (es : List RsEntity) :
    ((es.map (eDefs g)).map (· p)).flatten = defsList g.typeName g.name hasDoc p es := by
  induction es with
  | nil => rfl
  | cons e es ih => rw [List.map_cons, List.map_cons, List.flatten_cons, ih, defsList]

mutual
theorem generate_defs (ht : SafeNamespace g.targetNs) : ∀ (e : RsEntity) (r : Str),
    (∀ x ∈ generated e, SafeTexts x ∧ IsItem x) → generate g e = .ok r → Good r (eDefs g e)
  | .struct (.mk n c fs a ss), r, hs, h => by
    rw [generate] at h
    obtain ⟨x, h1, h⟩ := Res.bind_eq_ok.1 h
    obtain ⟨y, h2, h⟩ := Res.bind_eq_ok.1 h
    obtain rfl := Res.ok.inj h
    have hself := (hs (.struct (.mk n c fs a ss)) (by simp [generated])).1
    obtain ⟨hf1, hf2⟩ := genFieldSubtypes_defs ht fs x (fun z hz => hs z (by simp [generated, hz])) h1
    have hl := genList_defs ht ss y (fun z hz => hs z (by simp [generated, hz])) h2
    obtain ⟨k1, k2⟩ := seg_structText (c := c) hself.1 hself.2 ht hf1 (Seg.joinWith (good_segs hl)) (good_starts hl)
    refine ⟨k1.congr fun p => ?_, k2⟩
    have hi : (x.flatten ≠ [] ∨ joinWith "\n".toList y ≠ []) ↔ hasInner fs ss = true := by
      rw [ne_eq, ne_eq, hf2, good_join_nil hl, hasInner]
      simp only [List.map_eq_nil_iff, Bool.or_eq_true, Bool.not_eq_eq_eq_not, Bool.not_true, List.isEmpty_eq_false_iff,
        ne_eq, List.any_eq_true]
      rw [or_comm]
      simp
    rw [eDefs, defsOf]
    simp only [hi, defsList_eq]
    rfl
  | .tupleStruct (.mk n c t ss m fs), r, hs, h => by
    rw [generate] at h
    obtain ⟨y, h2, h⟩ := Res.bind_eq_ok.1 h
    have hself := (hs (.tupleStruct (.mk n c t ss m fs)) (by simp [generated])).1
    have hl := genList_defs ht ss y (fun z hz => hs z (by simp [generated, hz])) h2
    obtain ⟨k1, k2⟩ := seg_tupleText hself.1 hself.2.1 hself.2.2 (Seg.joinWith (good_segs hl)) h
    refine ⟨k1.congr fun p => ?_, k2⟩
    rw [eDefs, defsOf, defsList_eq]
    rfl
  | .enum (.mk n cs c t ss src), r, hs, h => by
    rw [generate] at h
    obtain ⟨y, h2, h⟩ := Res.bind_eq_ok.1 h
    obtain rfl := Res.ok.inj h
    have hself := (hs (.enum (.mk n cs c t ss src)) (by simp [generated])).1
    have hl := genList_defs ht ss y (fun z hz => hs z (by simp [generated, hz])) h2
    obtain ⟨k1, k2⟩ := seg_enumText (c := c) (src := src) hself.1 hself.2.1 hself.2.2 ht (Seg.joinWith (good_segs hl))
    refine ⟨k1.congr fun p => ?_, k2⟩
    rw [eDefs, defsOf, defsList_eq]
    rfl
  | .structField f, r, hs, h => absurd (hs (.structField f) (by simp [generated])).2 fun h => h
  | .enumCase c, r, hs, h => absurd (hs (.enumCase c) (by simp [generated])).2 fun h => h
  | .alias (.mk n o c ss), r, hs, h => by
    rw [generate] at h
    obtain rfl := Res.ok.inj h
    have hself := (hs (.alias (.mk n o c ss)) (by simp [generated])).1
    obtain ⟨k1, k2⟩ := seg_genAlias (g := g) (c := c) hself.1 hself.2
    refine ⟨k1.congr fun p => ?_, k2⟩
    rw [eDefs, defsOf, hasDoc]
    rfl
  | .import i, r, hs, h => by
    rw [generate] at h
    obtain rfl := Res.ok.inj h
    have hself := (hs (.import i) (by simp [generated])).1
    obtain ⟨k1, k2⟩ := seg_genImport hself.1 hself.2
    refine ⟨k1.congr fun p => ?_, k2⟩
    rw [eDefs, defsOf, none'] <;> simp
theorem genList_defs (ht : SafeNamespace g.targetNs) : ∀ (es : List RsEntity) (rs : List Str),
    (∀ x ∈ generatedList es, SafeTexts x ∧ IsItem x) → genList g es = .ok rs → List.Forall₂ Good rs (es.map (eDefs g))
  | [], rs, _, h => by rw [genList] at h; obtain rfl := Res.ok.inj h; exact .nil
  | e :: es, rs, hs, h => by
    rw [genList] at h
    obtain ⟨x, h1, h⟩ := Res.bind_eq_ok.1 h
    obtain ⟨y, h2, h⟩ := Res.bind_eq_ok.1 h
    obtain rfl := Res.ok.inj h
    exact .cons (generate_defs ht e x (fun z hz => hs z (by simp [generatedList, hz])) h1)
      (genList_defs ht es y (fun z hz => hs z (by simp [generatedList, hz])) h2)
theorem genFieldSubtypes_defs (ht : SafeNamespace g.targetNs) : ∀ (fs : List StructField) (rs : List Str),
    (∀ x ∈ generatedFields fs, SafeTexts x ∧ IsItem x) → genFieldSubtypes g fs = .ok rs →
    (Seg [] rs.flatten [] fun p => defsFields g.typeName g.name hasDoc p fs) ∧
    (rs.flatten = [] ↔ ∀ f ∈ fs, f.subtypes = [])
  | [], rs, _, h => by
    rw [genFieldSubtypes] at h; obtain rfl := Res.ok.inj h
    exact ⟨(seg_nil _).congr fun p => by rw [none', defsFields], by simp⟩
  | .mk n t c ss src m :: fs, rs, hs, h => by
    rw [genFieldSubtypes] at h
    obtain ⟨x, h1, h⟩ := Res.bind_eq_ok.1 h
    obtain ⟨y, h2, h⟩ := Res.bind_eq_ok.1 h
    obtain rfl := Res.ok.inj h
    have hl := genList_defs ht ss x (fun z hz => hs z (by simp [generatedFields, hz])) h1
    obtain ⟨k1, k2⟩ := genFieldSubtypes_defs ht fs y (fun z hz => hs z (by simp [generatedFields, hz])) h2
    refine ⟨?_, ?_⟩
    · rw [List.flatten_cons]
      exact ((Seg.joinWith (good_segs hl)).app k1).congr fun p => by rw [defsFields, defsList_eq]
    · rw [List.flatten_cons, List.append_eq_nil_iff, k2, good_join_nil hl]
      simp [StructField.subtypes]
end

theorem hasDefs_of_seg {t : Str} {f : Defs} (h : Seg [] t [] f) : HasDefs t (f []) := by
  have hb := h.block []
  exact ⟨lns t, lines_lns t, hb.2, hb.1⟩

end Verif.Lemmas.Gen
