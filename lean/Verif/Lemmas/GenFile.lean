import Verif.Lemmas.GenMembers
import Verif.Spec.Fields

/-! # Where the structs are in the code of a file -/

namespace Verif.Lemmas.Gen

open Verif Verif.Model Verif.Spec Inflector

attribute [local irreducible] genBoundValidation genLenValidation structText enumText genField genCase

variable {g : GenCtx}

/-- A struct after complete definitions. -/
theorem hasStruct_text {n : Str} {c : Option Str} {fs : List StructField} {a b u v : Str} {d : Defs} (hu : Seg [] u [] d)
    (hn : PrefixSafe n) (hf : ∀ f ∈ fs, FieldSafe f) (ht : SafeNamespace g.targetNs) :
    ∃ ms, HasStruct (u ++ (structText g n c fs a b ++ v)) (g.typeName n) ms ∧
      List.Forall₂ (FieldMember (GenCtx.naming g) (nsPrefix g.targetNs) (g.name n))
        (fs.filter fun f => !f.typeModifiers.contains .empty) ms := by
  have hw := typeName_word g hn
  obtain ⟨ms, h1, h2⟩ := mseg_genFields (n := n) hf ht
  obtain ⟨ls, e, hls, hst⟩ := (hu.app ((seg_comment c 0).app (seg_structMacros ht)))
  have hst := (hst []).1
  have hhead : '\n' ∉ "pub struct ".toList ++ (g.typeName n ++ " {".toList) :=
    nl_append (by decide) (nl_append hw.nl (by decide))
  refine ⟨ms, ?_, h1⟩
  have hl : ∀ rest, lns (u ++ (GenCtx.formatComment c 0 ++ (structMacros g ++ rest))) = ls ++ lns rest := by
    intro rest
    rw [← lns_lined hls, ← e]
    simp only [List.append_assoc]
  delta structText
  simp only [List.append_assoc]
  rcases h2 with ⟨h2, rfl⟩ | ⟨w, h2, us, hw', husn, hus⟩
  · rw [h2]
    generalize hrest : genValidateImpl (g.typeName n) [] ++ _ = rest
    have e1 : "pub struct ".toList ++ (g.typeName n ++ (" {".toList ++ ([] ++ ("}\n\n".toList ++ rest)))) =
        ("pub struct ".toList ++ (g.typeName n ++ " {}".toList)) ++ '\n' :: ('\n' :: rest) := by
      simp only [List.append_assoc, List.cons_append, List.nil_append]; rfl
    rw [e1]
    have hL := lines_lns (u ++ (GenCtx.formatComment c 0 ++ (structMacros g ++
      (("pub struct ".toList ++ (g.typeName n ++ " {}".toList)) ++ '\n' :: ('\n' :: rest)))))
    have hk : lns (u ++ (GenCtx.formatComment c 0 ++ (structMacros g ++
        (("pub struct ".toList ++ (g.typeName n ++ " {}".toList)) ++ '\n' :: ('\n' :: rest))))) =
        ls ++ ("pub struct ".toList ++ (g.typeName n ++ " {}".toList)) :: lns ('\n' :: rest) := by
      rw [hl, lns_append_nl, lns_single (nl_append (by decide) (nl_append hw.nl (by decide)))]
      rfl
    exact .empty (hk ▸ hL) hst
  · rw [h2]
    generalize hrest : genValidateImpl (g.typeName n) [] ++ _ = rest
    have e1 : "pub struct ".toList ++ (g.typeName n ++ (" {".toList ++ ('\n' :: w ++ ("}\n\n".toList ++ rest)))) =
        ("pub struct ".toList ++ (g.typeName n ++ " {".toList)) ++ '\n' :: (w ++ (['}'] ++ '\n' :: ('\n' :: rest))) := by
      simp only [List.append_assoc, List.cons_append, List.nil_append]; rfl
    rw [e1]
    have hL := lines_lns (u ++ (GenCtx.formatComment c 0 ++ (structMacros g ++
      (("pub struct ".toList ++ (g.typeName n ++ " {".toList)) ++ '\n' :: (w ++ (['}'] ++ '\n' :: ('\n' :: rest)))))))
    have hk : lns (u ++ (GenCtx.formatComment c 0 ++ (structMacros g ++
        (("pub struct ".toList ++ (g.typeName n ++ " {".toList)) ++ '\n' :: (w ++ (['}'] ++ '\n' :: ('\n' :: rest))))))) =
        ls ++ ("pub struct ".toList ++ (g.typeName n ++ " {".toList)) :: (us ++ ['}'] :: lns ('\n' :: rest)) := by
      rw [hl, lns_append_nl, lns_single hhead, hw', lns_lined fun l hl => (husn l hl).1, lns_append_nl,
        lns_single (by decide)]
      rfl
    have hb : (us ++ ['}'] :: lns ('\n' :: rest)).takeWhile (· ≠ ['}']) = us := by
      clear hk hus hw' h2 e1
      induction us with
      | nil => simp
      | cons x us ih =>
        rw [List.cons_append, List.takeWhile_cons_of_pos (by simpa using (husn x (by simp)).2.1.ne),
          ih fun y hy => husn y (by simp [hy])]
    have := HasStruct.block (name := g.typeName n) (hk ▸ hL) hst
    rw [hb] at this
    have h3 := hus []
    rw [List.append_nil, show readFieldLines none [] = [] from rfl, List.append_nil] at h3
    rw [h3] at this
    exact this

/-- The text of an entity in the text of a list. -/
theorem genList_at (ht : SafeNamespace g.targetNs) : ∀ {es : List RsEntity} {ts : List Str} {i : Nat} {e : RsEntity},
    (∀ x ∈ generatedList es, SafeTexts x ∧ IsItem x) → genList g es = .ok ts → es[i]? = some e →
    ∃ u r v d, ts.flatten = u ++ (r ++ v) ∧ Seg [] u [] d ∧ generate g e = .ok r
  | [], ts, i, e, _, _, h => by simp at h
  | e' :: es, ts, i, e, hs, hg, h => by
    rw [genList] at hg
    obtain ⟨x, h1, hg⟩ := Res.bind_eq_ok.1 hg
    obtain ⟨y, h2, hg⟩ := Res.bind_eq_ok.1 hg
    obtain rfl := Res.ok.inj hg
    cases i with
    | zero =>
      rw [List.getElem?_cons_zero] at h
      obtain rfl := Option.some.inj h
      exact ⟨[], x, y.flatten, _, by simp, seg_nil _, h1⟩
    | succ i =>
      rw [List.getElem?_cons_succ] at h
      obtain ⟨u, r, v, d, k1, k2, k3⟩ := genList_at ht (fun z hz => hs z (by simp [generatedList, hz])) h2 h
      have hd := generate_defs ht e' x (fun z hz => hs z (by simp [generatedList, hz])) h1
      exact ⟨x ++ u, r, v, _, by rw [List.flatten_cons, k1, List.append_assoc], hd.1.app k2, k3⟩

/-- The structs of a file with their fields. -/
theorem file_struct {U : UnicodeTable} {f : RsFile} {r : Str} (ht : SafeNamespace f.targetNs)
    (hs : ∀ x ∈ generatedList f.types, SafeTexts x ∧ IsItem x) (h : (generateRsFile U f).1 = .ok r) {i : Nat} {n : Str}
    {c : Option Str} {fs : List StructField} {ag : List RAlias} {ss : List RsEntity}
    (hi : f.types[i]? = some (.struct (.mk n c fs ag ss))) :
    ∃ ms, HasStruct r (formatTypeName U f.targetNs f.xsdNs n) ms ∧
      List.Forall₂ (FieldMember (GenCtx.naming ⟨U, f.targetNs, f.xsdNs⟩) (nsPrefix f.targetNs) (defaultFormatName U n))
        (fs.filter fun f => !f.typeModifiers.contains .empty) ms := by
  obtain ⟨ts, h1, h⟩ := Res.bind_eq_ok.1 h
  obtain rfl := Res.ok.inj h
  obtain ⟨u, r, v, d, k1, k2, k3⟩ := genList_at (g := ⟨U, f.targetNs, f.xsdNs⟩) ht hs h1 hi
  have hx : SafeTexts (.struct (.mk n c fs ag ss)) := by
    refine (hs _ ?_).1
    have := List.mem_of_getElem? hi
    clear hi h1 hs k1
    generalize f.types = es at this
    induction es with
    | nil => cases this
    | cons e es ih =>
      rw [generatedList]
      rcases List.mem_cons.1 this with rfl | h
      · exact List.mem_append_left _ (by simp [generated])
      · exact List.mem_append_right _ (ih h)
  rw [generate] at k3
  obtain ⟨x, -, k3⟩ := Res.bind_eq_ok.1 k3
  obtain ⟨y, -, k3⟩ := Res.bind_eq_ok.1 k3
  obtain rfl := Res.ok.inj k3
  rw [k1]
  exact hasStruct_text (g := ⟨U, f.targetNs, f.xsdNs⟩) k2 hx.1 hx.2 ht

end Verif.Lemmas.Gen
