import Verif.Lemmas.GenItems

/-! # The items which are read from generated code: the entities -/

namespace Verif.Lemmas.Gen

open Verif Verif.Model Verif.Spec Inflector

attribute [local irreducible] genBoundValidation genLenValidation structText enumText genField genCase

variable {g : GenCtx}

/-! ## Readers of members -/

theorem readFieldLines_norm (ls : List Str) : ∀ a, readFieldLines a (norm ls) = readFieldLines a ls := by
  induction ls with
  | nil => intro a; rfl
  | cons l ls ih =>
    intro a
    rw [norm_cons]
    by_cases h : dropSpaces l = []
    · rw [if_pos h, List.nil_append, ih, readFieldLines, show l.dropWhile (· = ' ') = [] from h]
      rfl
    · have e : (dropSpaces l).dropWhile (· = ' ') = l.dropWhile (· = ' ') := dropSpaces_idem l
      rw [if_neg h, List.singleton_append, readFieldLines, readFieldLines, e]
      simp only [ih]

theorem readCaseLines_norm (ls : List Str) : ∀ a, readCaseLines a (norm ls) = readCaseLines a ls := by
  induction ls with
  | nil => intro a; rfl
  | cons l ls ih =>
    intro a
    rw [norm_cons]
    by_cases h : dropSpaces l = []
    · rw [if_pos h, List.nil_append, ih, readCaseLines, show l.dropWhile (· = ' ') = [] from h]
      rfl
    · have e : (dropSpaces l).dropWhile (· = ' ') = l.dropWhile (· = ' ') := dropSpaces_idem l
      rw [if_neg h, List.singleton_append, readCaseLines, readCaseLines, e]
      simp only [ih]

/-! ## Attributes of definitions -/

theorem nsAttr_none : nsAttr none = "#[yaserde()]".toList := rfl

theorem nsAttr_uri (uri : Str) : nsAttr (some ⟨none, uri⟩) = '#' :: ("[yaserde(namespace = \"".toList ++ (uri ++ "\")]".toList)) := by
  show "#[yaserde(".toList ++ List.intercalate ", ".toList ["namespace".toList ++ " = \"".toList ++ uri ++ "\"".toList] ++
    ")]".toList = _
  rw [inter1]; simp only [List.append_assoc]; rfl

theorem nsAttr_prefix (p uri : Str) : nsAttr (some ⟨some p, uri⟩) = '#' :: ("[yaserde(prefix = \"".toList ++ (p ++
    ("\", namespace = \"".toList ++ (p ++ (": ".toList ++ (uri ++ "\")]".toList)))))) := by
  show "#[yaserde(".toList ++ List.intercalate ", ".toList ["prefix".toList ++ " = \"".toList ++ p ++ "\"".toList,
    "namespace".toList ++ " = \"".toList ++ (p ++ ": ".toList ++ uri) ++ "\"".toList] ++ ")]".toList = _
  rw [inter2]; simp only [List.append_assoc]; rfl

/-- The line with the namespace, after other attributes. -/
theorem iseg_nsAttr {d t : Str} {as : List Str} (hd : d = [] ∨ ∃ s, d = '#' :: s ∧ '\n' ∉ s) (ht : SafeNamespace g.targetNs)
    (e : t = d ++ (nsAttr g.targetNs ++ ['\n'])) : ISeg [] as t [] (as ++ [d ++ nsAttr g.targetNs]) [] := by
  obtain ⟨s, hs, he, hn⟩ : ∃ s, nsAttr g.targetNs = '#' :: s ∧ Ends s ∧ '\n' ∉ s := by
    cases hn : g.targetNs with
    | none => exact ⟨_, nsAttr_none, by decide, by decide⟩
    | some ns =>
      obtain ⟨o, uri⟩ := ns
      have hns := ht ⟨o, uri⟩ hn
      cases o with
      | none => exact ⟨_, nsAttr_uri uri, by ends, nl_append (by decide) (nl_append hns.1.nl (by decide))⟩
      | some p =>
        have hp := (hns.2 p rfl).nl
        exact ⟨_, nsAttr_prefix p uri, by ends, nl_append (by decide) (nl_append hp (nl_append (by decide)
          (nl_append hp (nl_append (by decide) (nl_append hns.1.nl (by decide))))))⟩
  rcases hd with rfl | ⟨d, rfl, hd⟩
  · rw [List.nil_append] at e ⊢
    rw [hs] at e ⊢
    exact iseg_attr hn he e
  · rw [hs] at e ⊢
    refine iseg_attr (s := d ++ '#' :: s) (nl_append hd (by simpa using hn)) ?_ (by rw [e]; simp)
    exact Ends.app (Ends.app he ['#']) d

theorem iseg_structMacros (ht : SafeNamespace g.targetNs) : ISeg [] [] (structMacros g) []
    ["#[derive(Default, Clone, PartialEq, Debug, YaSerialize, YaDeserialize)]".toList, nsAttr g.targetNs] [] := by
  have h1 : ISeg [] [] "#[derive(Default, Clone, PartialEq, Debug, YaSerialize, YaDeserialize)]\n".toList [] _ [] :=
    iseg_attr (s := "[derive(Default, Clone, PartialEq, Debug, YaSerialize, YaDeserialize)]".toList) (by decide) (by decide) rfl
  have h2 := h1.none_app (iseg_nsAttr (.inl rfl) ht rfl)
  have e : structMacros g = "#[derive(Default, Clone, PartialEq, Debug, YaSerialize, YaDeserialize)]\n".toList ++
      ([] ++ (nsAttr g.targetNs ++ ['\n'])) := by
    rw [structMacros, List.nil_append]
    cases g.targetNs with
    | none => rfl
    | some ns =>
      obtain ⟨o, uri⟩ := ns
      cases o with
      | none => rw [nsAttr_uri]; simp only [List.append_assoc, List.cons_append]; rfl
      | some p => rw [nsAttr_prefix]; simp only [List.append_assoc, List.cons_append]; rfl
  rw [e]
  exact h2

theorem iseg_enumMacros (ht : SafeNamespace g.targetNs) (src : EnumSource) : ISeg [] [] (enumMacros g src ++ ['\n']) []
    (if src = .union then ["#[derive(PartialEq, Debug, UtilsUnionSerDe)]".toList]
      else ["#[derive(PartialEq, Debug, Clone, YaSerialize, YaDeserialize)]".toList ++ nsAttr g.targetNs]) [] := by
  rw [enumMacros]
  split
  · exact iseg_attr (s := "[derive(PartialEq, Debug, UtilsUnionSerDe)]".toList) (by decide) (by decide) rfl
  · have h := iseg_nsAttr (g := g) (d := "#[derive(PartialEq, Debug, Clone, YaSerialize, YaDeserialize)]".toList) (as := [])
      (.inr ⟨"[derive(PartialEq, Debug, Clone, YaSerialize, YaDeserialize)]".toList, rfl, by decide⟩) ht rfl
    rw [List.nil_append] at h
    refine ISeg.none_app ?_ (iseg_empty _ rfl)
    convert h using 1
    cases g.targetNs with
    | none => rfl
    | some ns =>
      obtain ⟨o, uri⟩ := ns
      cases o with
      | none => rw [nsAttr_uri]; simp only [List.append_assoc, List.cons_append]; rfl
      | some p => rw [nsAttr_prefix]; simp only [List.append_assoc, List.cons_append]; rfl

/-! ## Implementations -/

theorem fit_close (n : Nat) : Fit (List.replicate n ' ' ++ ['}']) := fit_head rfl (by decide) (by decide)

theorem iseg_validate {n body : Str} {cs : List Cond} (hn : WordText n) (hb : NlBlock body) (hc : Checks cs body) :
    ∃ i, ISeg [] [] (genValidateImpl n body ++ ['\n']) [] [] [i] ∧ i.path = [] ∧ ValidateItem n cs i := by
  rw [genValidateImpl]
  split
  · rename_i h0
    refine ⟨_, iseg_implLine (l := "impl Validate for ".toList ++ n ++ " {}".toList) (s := "Validate for ".toList ++ n ++ " {}".toList) ?_ ?_ ?_ rfl,
      rfl, rfl, .inl ⟨(checks_ne_nil hc).2 h0, ?_, rfl⟩⟩
    · simp only [List.append_assoc]; rfl
    · exact (Ends.app (b := " {}".toList) (by decide) _).1
    · exact nl_append (nl_append (by decide) hn.nl) (by decide)
    · simp only [List.append_assoc]
  · rename_i h0
    obtain ⟨ls, rfl, hnl, hin⟩ := hb
    have hw : Inner ("    fn validate(&self) -> Result<(), String> { ".toList :: ((ls ++ ["        Ok(())".toList]) ++ ["    }".toList])) := by
      refine Inner.wrap ?_ ?_ (hin.app (inner_quiet (quiet_head (n := 8) (c := 'O') (s := "k(()".toList) (d := ')') rfl (by decide) (by decide))
        (fit_head (n := 8) rfl (by decide) (by decide)))) (closes_lit 4) (fit_close 4)
      · exact opens_other (i := 4) (c := 'f') (s := "n validate(&self) -> Result<(), String> { ".toList) rfl (by decide) (by decide)
      · exact fit_head (n := 4) (c := 'f') rfl (by decide) (by decide)
    have hseg : ISeg [] [] _ [] [] _ := iseg_block (as := []) (o := "impl Validate for ".toList ++ (n ++ " {".toList))
      (c := ['}']) (heads_impl (s := "Validate for ".toList ++ (n ++ " {".toList)) ?_ ?_) hw (closes_lit 0) (fit_close 0) ?_ ?_ (by decide) rfl
    · refine ⟨⟨[], [], "impl Validate for ".toList ++ (n ++ " {".toList), norm ("    fn validate(&self) -> Result<(), String> { ".toList ::
          ((ls ++ ["        Ok(())".toList]) ++ ["    }".toList]))⟩, ?_, rfl, rfl, .inr ⟨?_, rfl, _, ls, hc, rfl, fun l hl => (hnl l hl).1, ?_⟩⟩
      rotate_left
      · exact (checks_ne_nil hc).not.2 h0
      · have hls : (ls.map dropSpaces).filter (· ≠ []) = ls.map dropSpaces := by
          rw [List.filter_eq_self]
          intro x hx
          obtain ⟨l, hl, rfl⟩ := List.mem_map.1 hx
          simpa using (hnl l hl).2
        dsimp only
        rw [norm_cons, norm_append, norm_append, show norm ls = ls.map dropSpaces from hls]
        simp only [List.append_assoc]
        rfl
      · have h := hseg.app_none (iseg_empty _ rfl)
        convert h using 1
        have e := nl_rotate ls
        have e2 : "impl Validate for ".toList ++ n ++ " {\n    fn validate(&self) -> Result<(), String> { ".toList ++
            ls.flatMap ('\n' :: ·) ++ "\n        Ok(())\n    }\n}\n".toList ++ ['\n'] =
          "impl Validate for ".toList ++ (n ++ (" {\n    fn validate(&self) -> Result<(), String> { ".toList ++
            ((ls.flatMap ('\n' :: ·) ++ ['\n']) ++ ("        Ok(())\n    }\n}\n".toList ++ ['\n'])))) := by
          simp only [List.append_assoc]
          rfl
        rw [e2, ← e]
        simp only [List.flatMap_cons, List.flatMap_append, List.flatMap_nil, List.append_assoc, List.cons_append, List.nil_append]
        rfl
    · rfl
    · have := lastIsOpen_open ("impl Validate for ".toList ++ n)
      rw [List.append_assoc] at this; exact this
    · exact nl_append (by decide) (nl_append hn.nl (by decide))
    · intro l hl
      simp only [List.mem_cons, List.mem_append, List.not_mem_nil, or_false] at hl
      rcases hl with rfl | (hl | rfl) | rfl
      · decide
      · exact (hnl l hl).1
      · decide
      · decide

theorem iseg_enumDefault {n : Str} (hn : WordText n) : ISeg [] [] (enumDefault n ++ ['\n']) [] []
    [⟨[], [], "impl Default for ".toList ++ (n ++ " {".toList), ["fn default() -> ".toList ++ (n ++ " {".toList),
      "Self::__Unknown__(\"No valid variants\".into())".toList, "}".toList]⟩] := by
  have ho : lastIsOpen ("fn default() -> ".toList ++ (n ++ " {".toList)) = true := by
    have := lastIsOpen_open ("fn default() -> ".toList ++ n)
    rw [List.append_assoc] at this; exact this
  have hw : Inner ((List.replicate 4 ' ' ++ ("fn default() -> ".toList ++ (n ++ " {".toList))) ::
      (["        Self::__Unknown__(\"No valid variants\".into())".toList] ++ ["    }".toList])) := by
    refine Inner.wrap ?_ ?_ (inner_quiet (quiet_head (n := 8) (c := 'S') (s := "elf::__Unknown__(\"No valid variants\".into()".toList)
      (d := ')') rfl (by decide) (by decide)) (fit_head (n := 8) rfl (by decide) (by decide))) (closes_lit 4) (fit_close 4)
    · exact opens_other (i := 4) (c := 'f') (s := "n default() -> ".toList ++ (n ++ " {".toList)) rfl (by decide) ho
    · exact fit_head (n := 4) (c := 'f') (s := "n default() -> ".toList ++ (n ++ " {".toList)) rfl (by decide) (by decide)
  have h := iseg_block (as := []) (o := "impl Default for ".toList ++ (n ++ " {".toList)) (c := ['}'])
    (t := enumDefault n ++ ['\n']) (heads_impl (s := "Default for ".toList ++ (n ++ " {".toList)) rfl ?_) hw (closes_lit 0)
    (fit_close 0) ?_ ?_ (by decide) ?_
  · convert h using 4
    have e1 : dropSpaces (List.replicate 4 ' ' ++ ("fn default() -> ".toList ++ (n ++ " {".toList))) =
        "fn default() -> ".toList ++ (n ++ " {".toList) := by
      rw [show dropSpaces _ = _ from dropSpaces_replicate 4 _]
      exact dropSpaces_of_head (by simp)
    rw [norm_cons, e1, if_neg (by simp)]
    rfl
  · have := lastIsOpen_open ("impl Default for ".toList ++ n)
    rw [List.append_assoc] at this; exact this
  · exact nl_append (by decide) (nl_append hn.nl (by decide))
  · intro l hl
    simp only [List.mem_cons, List.mem_append, List.not_mem_nil, or_false] at hl
    rcases hl with rfl | rfl | rfl
    · exact nl_append (by decide) (nl_append (by decide) (nl_append hn.nl (by decide)))
    · decide
    · decide
  · delta enumDefault
    simp only [List.flatMap_cons, List.flatMap_nil, List.append_assoc, List.cons_append, List.nil_append]
    rfl

/-! ## Entities -/

theorem iseg_cast {a b : List (Option Str)} {as bs : List Str} {t u : Str} {is : List Item} (h : ISeg a as t b bs is)
    (e : u = t) : ISeg a as u b bs is := e ▸ h

abbrev Fits (g : GenCtx) (xs : List (List Str × Origin)) (is : List Item) : Prop :=
  List.Forall₂ (ItemFor (GenCtx.naming g) g.targetNs) xs is

theorem cond_value (ty b : Str) (f : FacetType) : (∃ op t, Cond.value op b t ∈ condsOf ty f) ↔ facetBound f = some b := by
  have hlen : ∀ (o : Option Nat) (c op : Cmp) (t : Str), Cond.value op b t ∉ (o.map fun n => Cond.length c n).toList := by
    intro o c op t; cases o <;> simp
  cases f with
  | length v => exact ⟨fun ⟨op, t, h⟩ => absurd h (hlen _ _ _ _), fun h => by cases h⟩
  | maxLength v => exact ⟨fun ⟨op, t, h⟩ => absurd h (hlen _ _ _ _), fun h => by cases h⟩
  | minLength v =>
    refine ⟨fun ⟨op, t, h⟩ => ?_, fun h => by cases h⟩
    rw [condsOf] at h
    cases hp : Str.parseUnsigned u32Max v with
    | none => rw [hp] at h; cases h
    | some n =>
      rw [hp, Option.bind_some] at h
      by_cases hn : n = 0
      · rw [if_pos hn] at h; cases h
      · rw [if_neg hn] at h; simp at h
  | _ => simp [condsOf, facetBound, eq_comm]

theorem cond_length (ty : Str) (n : Nat) (f : FacetType) : (∃ op, Cond.length op n ∈ condsOf ty f) ↔
    ∃ t, facetLength f = some t ∧ U32Text t n ∧ ¬ Unchecked f := by
  have hlen : ∀ (v : Str) (c : Cmp), (∃ op, Cond.length op n ∈ ((Str.parseUnsigned u32Max v).map fun n => Cond.length c n).toList) ↔
      U32Text v n := by
    intro v c
    rw [← parseUnsigned_u32]
    cases Str.parseUnsigned u32Max v <;> simp [eq_comm]
  cases f with
  | length v => rw [condsOf, hlen]; simp [facetLength, Unchecked]
  | maxLength v => rw [condsOf, hlen]; simp [facetLength, Unchecked]
  | minLength v =>
    simp only [condsOf, facetLength, Unchecked, ← parseUnsigned_u32]
    cases hp : Str.parseUnsigned u32Max v with
    | none => simp [hp]
    | some m =>
      by_cases hm : m = 0
      · subst hm; simp [hp]
      · simp [hp, hm, eq_comm]
  | _ => simp [condsOf, facetLength]

theorem checkedBy_conds (ty : Str) (fs : List Facet) : CheckedBy fs (fs.flatMap fun f => condsOf ty f.facetType) := by
  constructor
  · intro b
    simp only [List.mem_flatMap, ← cond_value ty]
    constructor
    · rintro ⟨op, t, f, hf, h⟩; exact ⟨f, hf, op, t, h⟩
    · rintro ⟨f, hf, op, t, h⟩; exact ⟨op, t, f, hf, h⟩
  · intro n
    simp only [List.mem_flatMap, ← cond_length ty]
    constructor
    · rintro ⟨op, f, hf, h⟩; exact ⟨f, hf, op, h⟩
    · rintro ⟨f, hf, op, h⟩; exact ⟨op, f, hf, h⟩

theorem enforces_nil : Enforces [] [] := by
  intro V S _ _ v
  exact ⟨fun _ => rfl, fun h => absurd (by simp) h⟩

theorem validate_plain {n : Str} (hn : WordText (g.typeName n)) : ∃ i, ISeg [] [] (genValidateImpl (g.typeName n) [] ++ ['\n']) [] [] [i] ∧
    ItemFor (GenCtx.naming g) g.targetNs ([], .validate n [] [] []) i := by
  obtain ⟨i, h1, h2, h3⟩ := iseg_validate hn nlBlock_nil .nil
  exact ⟨i, h1, h2, [], enforces_nil, h3, by simp, checkedBy_conds [] []⟩

theorem fits_inside {xs : List (List Str × Origin)} {is : List Item} (h : Fits g xs is) (m : Str) :
    Fits g (xs.map (inside m)) (is.map (atPath [m])) := by
  induction h with
  | nil => exact .nil
  | @cons x i xs is h _ ih =>
    refine .cons ⟨?_, ?_⟩ ih
    · show [m] ++ i.path = m :: x.1
      rw [h.1]; rfl
    · obtain ⟨p, o⟩ := x
      have := h.2
      cases o with
      | entity e =>
        cases e with
        | struct s => obtain ⟨_, _, _, _, _⟩ := s; exact this
        | enum e => obtain ⟨_, _, _, _, _, _⟩ := e; exact this
        | tupleStruct t => obtain ⟨_, _, _, _, _, _⟩ := t; exact this
        | «alias» a => obtain ⟨_, _, _, _⟩ := a; exact this
        | structField _ => exact this
        | enumCase _ => exact this
        | «import» _ => exact this
      | inner n => exact this
      | validate n t ms fs => exact this
      | default n => exact this

theorem iseg_structSubtypes {n a b : Str} {ia ib : List Item} (ha : ISeg [] [] a [] [] ia) (hb : ISeg [] [] b [] [] ib)
    (hs : b = [] ∨ Starts b) :
    ISeg [] [] (structSubtypes g n a b ++ ['\n']) [] []
      (if a ≠ [] ∨ b ≠ [] then ⟨[], [], "pub mod ".toList ++ (g.name n ++ " {".toList), ["use super::*;".toList]⟩ ::
        ((ib ++ ia).map (atPath [g.name n])) else []) := by
  delta structSubtypes
  by_cases h : a ≠ [] ∨ b ≠ []
  · simp only [if_pos h]
    have hm : WordText (g.name n) := (name_nameText g.U n).word
    have h1 := iseg_mod (as := []) (l := "pub mod ".toList ++ (g.name n ++ ' ' :: ['{']))
      (s := "ub mod ".toList ++ (g.name n ++ ' ' :: ['{'])) rfl (readHead_mod hm.sp _)
      (by have := lastIsOpen_open ("pub mod ".toList ++ g.name n)
          rw [List.append_assoc] at this; exact this)
      (nl_append (by decide) (nl_append hm.nl (by decide))) hb hs
    have h3 := (iseg_shift ha 4).inMod (g.name n)
    have h4 : ISeg [some (g.name n)] [] ("}".toList ++ ['\n']) [] [] [] := iseg_close rfl
    have h := (iseg_empty [] rfl).none_app (h1.app (h3.app_none (h4.none_app (iseg_empty [] rfl))))
    rw [List.map_append]
    simp only [List.append_assoc, List.cons_append, List.nil_append] at h ⊢
    exact h
  · simp only [if_neg h]
    simp only [not_or, not_not] at h
    obtain ⟨rfl, rfl⟩ := h
    exact (iseg_empty [] rfl).none_app (iseg_empty [] rfl)

theorem iseg_struct {n : Str} {c : Option Str} {fs : List StructField} (hn : PrefixSafe n) (hf : ∀ f ∈ fs, FieldSafe f)
    (ht : SafeNamespace g.targetNs) (ag : List RAlias) (ss : List RsEntity) :
    ∃ i, ISeg [] [] (GenCtx.formatComment c 0 ++ (structMacros g ++
        ("pub struct ".toList ++ (g.typeName n ++ (" {".toList ++ (genFields g n fs ++ "}\n".toList)))))) [] [] [i] ∧
      ItemFor (GenCtx.naming g) g.targetNs ([], .entity (.struct (.mk n c fs ag ss))) i := by
  have hw := typeName_word g hn
  have h0 := (iseg_comment [] c 0).none_app (iseg_structMacros ht)
  obtain ⟨ms, h1, h2⟩ := mseg_genFields (n := n) hf ht
  rcases h2 with ⟨h2, rfl⟩ | ⟨u, h2, us, rfl, husn, hus⟩
  · have hnil : written fs = [] := by
      generalize hg : written fs = gs
      rw [show (fs.filter fun f => !f.typeModifiers.contains .empty) = gs from hg] at h1
      cases h1; rfl
    have h3 := iseg_def (i := 0) (k := .struct) (n := g.typeName n) (l := "pub struct ".toList ++ (g.typeName n ++ ' ' :: "{}".toList))
      (as := ["#[derive(Default, Clone, PartialEq, Debug, YaSerialize, YaDeserialize)]".toList, nsAttr g.targetNs])
      (s := "ub struct ".toList ++ (g.typeName n ++ ' ' :: "{}".toList)) rfl (by decide) (readHead_struct hw.sp _)
      (by have : Ends ("pub struct ".toList ++ (g.typeName n ++ " {}".toList)) := by ends
          exact this.1)
      (nl_append (by decide) (nl_append hw.nl (by decide))) rfl
    refine ⟨_, iseg_cast (h0.none_app h3) ?_, rfl, rfl, ?_, ?_⟩
    · rw [h2]
      simp only [List.append_assoc, List.cons_append, List.nil_append, List.replicate_zero]
      rfl
    · exact h1
    · rw [hnil, if_pos rfl]; rfl
  · have hne : written fs ≠ [] := by
      intro hnil
      have : (fs.map fun f => genField g (qualifyField (g.name n) f)).filter (· ≠ []) = [] := by
        rw [List.filter_eq_nil_iff]
        intro x hx
        obtain ⟨f, hf', rfl⟩ := List.mem_map.1 hx
        have he : .empty ∈ f.typeModifiers := by
          by_contra hne
          have : f ∈ written fs := List.mem_filter.2 ⟨hf', by simpa using hne⟩
          rw [hnil] at this; cases this
        have := (genField_nil (g := g) (qualifyField (g.name n) f)).2 (by rw [(qualifyField_props _ f).2.1]; exact he)
        simp [this]
      rw [genFields, this] at h2
      exact absurd h2 (by simp [joinWith])
    have h3 := iseg_block (o := "pub struct ".toList ++ (g.typeName n ++ ' ' :: ['{'])) (c := ['}'])
      (as := ["#[derive(Default, Clone, PartialEq, Debug, YaSerialize, YaDeserialize)]".toList, nsAttr g.targetNs])
      (heads_def (k := .struct) (n := g.typeName n) (s := "ub struct ".toList ++ (g.typeName n ++ ' ' :: ['{'])) rfl (by decide)
        (readHead_struct hw.sp _) (by
          have := lastIsOpen_open ("pub struct ".toList ++ g.typeName n)
          rw [List.append_assoc] at this; exact this))
      (inner_lines fun l hl => (husn l hl).2) (closes_lit 0) (fit_close 0)
      (nl_append (by decide) (nl_append hw.nl (by decide))) (fun l hl => (husn l hl).1) (by decide) rfl
    refine ⟨_, iseg_cast (h0.none_app h3) ?_, rfl, rfl, ?_, ?_⟩
    · rw [h2]
      simp only [List.append_assoc, List.cons_append, List.nil_append]
      rfl
    · show List.Forall₂ _ _ (readFieldLines none (norm us))
      rw [readFieldLines_norm]
      have := hus []
      rw [List.append_nil, show readFieldLines none [] = [] from rfl, List.append_nil] at this
      rw [this]
      exact h1
    · rw [if_neg hne]; rfl

theorem iseg_structText {n : Str} {c : Option Str} {fs : List StructField} {a b : Str} {ia ib : List Item} (hn : PrefixSafe n)
    (hf : ∀ f ∈ fs, FieldSafe f) (ht : SafeNamespace g.targetNs) (ag : List RAlias) (ss : List RsEntity)
    {xa xb : List (List Str × Origin)} (ha : ISeg [] [] a [] [] ia) (hfa : Fits g xa ia)
    (hb : ISeg [] [] b [] [] ib) (hfb : Fits g xb ib) (hs : b = [] ∨ Starts b) :
    ∃ is, ISeg [] [] (structText g n c fs a b) [] [] is ∧
      Fits g (([], .entity (.struct (.mk n c fs ag ss))) :: ([], .validate n [] [] []) ::
        (if a ≠ [] ∨ b ≠ [] then ([], .inner n) :: ((xb ++ xa).map (inside (g.name n))) else [])) is := by
  obtain ⟨i, h1, h2⟩ := iseg_struct (c := c) hn hf ht ag ss
  obtain ⟨j, h3, h4⟩ := validate_plain (g := g) (typeName_word g hn)
  have h5 := iseg_structSubtypes (g := g) (n := n) ha hb hs
  have h := h1.app ((iseg_empty [] rfl).none_app (h3.app h5))
  refine ⟨_, iseg_cast h ?_, .cons h2 (.cons h4 ?_)⟩
  · delta structText
    simp only [List.append_assoc, List.cons_append, List.nil_append]
    rfl
  · split
    · refine .cons ⟨rfl, rfl, rfl, rfl⟩ ?_
      exact fits_inside (List.rel_append hfb hfa) _
    · exact .nil

theorem iseg_enumText {n t : Str} {cs : List EnumCase} {c : Option Str} {src : EnumSource} {a : Str} {ia : List Item}
    {xa : List (List Str × Origin)} (hn : PrefixSafe n) (htn : PrefixSafe t) (hc : ∀ c ∈ cs, CaseSafe c)
    (ht : SafeNamespace g.targetNs) (ss : List RsEntity) (ha : ISeg [] [] a [] [] ia) (hfa : Fits g xa ia) :
    ∃ is, ISeg [] [] (enumText g n cs c t src a) [] [] is ∧
      Fits g (([], .entity (.enum (.mk n cs c t ss src))) :: ([], .default n) :: ([], .validate n [] [] []) :: xa) is := by
  have hw := typeName_word g hn
  obtain ⟨ms, us, hus0, h1, husn, hus⟩ : ∃ ms us, joinWith "\n".toList (cs.map (genCase g)) ++ ['\n'] ++
      (List.replicate 4 ' ' ++ ("__Unknown__".toList ++ ('(' :: (g.typeName t ++ [')', ',']))) ++ ['\n']) =
        us.flatMap (· ++ ['\n']) ∧ List.Forall₂ (CaseMember (GenCtx.naming g)) cs ms ∧
      (∀ l ∈ us, '\n' ∉ l ∧ Quiet l ∧ Fit l) ∧
      readCaseLines none us = ms ++ [⟨none, "__Unknown__".toList, some (g.typeName t)⟩] := by
    obtain ⟨ms, k1, us, k2, k3, k4⟩ := mseg_cases (g := g) htn hc
    refine ⟨ms, us, k2, k1, k3, ?_⟩
    have := k4 []
    rwa [List.append_nil, show readCaseLines none [] = [] from rfl, List.append_nil] at this
  have h0 := (iseg_comment [] c 0).none_app (iseg_enumMacros ht src)
  have h2 := iseg_block (o := "pub enum ".toList ++ (g.typeName n ++ ' ' :: ['{'])) (c := ['}'])
    (as := if src = .union then ["#[derive(PartialEq, Debug, UtilsUnionSerDe)]".toList]
      else ["#[derive(PartialEq, Debug, Clone, YaSerialize, YaDeserialize)]".toList ++ nsAttr g.targetNs])
    (heads_def (k := .enum) (n := g.typeName n) (s := "ub enum ".toList ++ (g.typeName n ++ ' ' :: ['{'])) rfl (by decide)
      (readHead_enum hw.sp _) (by
        have := lastIsOpen_open ("pub enum ".toList ++ g.typeName n)
        rw [List.append_assoc] at this; exact this))
    (inner_lines fun l hl => (husn l hl).2) (closes_lit 0) (fit_close 0)
    (nl_append (by decide) (nl_append hw.nl (by decide))) (fun l hl => (husn l hl).1) (by decide) rfl
  have hdef := iseg_enumDefault hw
  obtain ⟨j, hval, h4⟩ := validate_plain (g := g) hw
  have e : ISeg [] [] ['\n'] [] [] [] := iseg_empty [] rfl
  rw [← hus0] at h2
  have h := (h0.none_app h2).app (e.none_app (hdef.app (e.none_app (hval.app (e.none_app (ha.app_none (e.app_none e)))))))
  refine ⟨_, iseg_cast h ?_, .cons ⟨rfl, rfl, rfl, ms, h1, ?_⟩ (.cons ⟨rfl, rfl, rfl, rfl⟩ (.cons h4 hfa))⟩
  · delta enumText
    simp only [List.append_assoc, List.cons_append, List.nil_append]
    rfl
  · show readCaseLines none (norm us) = _
    rw [readCaseLines_norm, hus]; rfl

theorem iseg_tupleText {n : Str} {c : Option Str} {t : Str} {ms : List TypeModifier} {fs : List Facet} {sub : Str}
    {ia : List Item} {xa : List (List Str × Origin)} (hn : PrefixSafe n) (ht : PrefixSafe t)
    (hv : ∀ f ∈ fs, ∀ v, facetBound f.facetType = some v → QuoteSafe v) (ss : List RsEntity)
    (ha : ISeg [] [] sub [] [] ia) (hfa : Fits g xa ia) {r : Str} (h : tupleText g n c t ms fs sub = .ok r) :
    ∃ is, ISeg [] [] r [] [] is ∧
      Fits g (([], .entity (.tupleStruct (.mk n c t ss ms fs))) :: (xa ++ [([], .validate n t ms fs)])) is := by
  rw [tupleText] at h
  obtain ⟨body, hb, h⟩ := Res.bind_eq_ok.1 h
  obtain rfl := Res.ok.inj h
  have hw := typeName_word g hn
  have htn : '\n' ∉ tupleTypeName g t ms := modifyType_nl (typeName_word g ht) ms
  have hm : ISeg [] [] "#[derive(Default, Clone, PartialEq, Debug, UtilsTupleIo, UtilsDefaultSerde)]\n".toList [] _ [] :=
    iseg_attr (s := "[derive(Default, Clone, PartialEq, Debug, UtilsTupleIo, UtilsDefaultSerde)]".toList) (by decide) (by decide) rfl
  have hd := iseg_def (i := 0) (k := .struct) (n := g.typeName n)
    (l := "pub struct ".toList ++ (g.typeName n ++ ' ' :: ("(pub ".toList ++ (tupleTypeName g t ms ++ ");".toList))))
    (as := ["#[derive(Default, Clone, PartialEq, Debug, UtilsTupleIo, UtilsDefaultSerde)]".toList])
    (s := "ub struct ".toList ++ (g.typeName n ++ ' ' :: ("(pub ".toList ++ (tupleTypeName g t ms ++ ");".toList)))) rfl
    (by decide) (readHead_struct hw.sp _)
    (by have : Ends ("pub struct ".toList ++ (g.typeName n ++ (" (pub ".toList ++ (tupleTypeName g t ms ++ ");".toList)))) := by ends
        exact this.1)
    (nl_append (by decide) (nl_append hw.nl (nl_append (a := " (pub ".toList) (by decide) (nl_append htn (by decide))))) rfl
  obtain ⟨j, hval, k1, k2⟩ := iseg_validate hw (nlBlock_facets htn hv hb) (facets_checks fs body hb hv).1
  have h := ((iseg_comment [] c 0).none_app (hm.none_app hd)).app ((ha.app ((iseg_empty [] rfl).none_app hval)))
  refine ⟨_, iseg_cast h ?_, .cons ⟨rfl, rfl, rfl, rfl⟩ (List.rel_append hfa (.cons ⟨k1, _, ?_, k2, ?_, checkedBy_conds _ fs⟩ .nil))⟩
  · simp only [List.append_assoc, List.cons_append, List.nil_append, List.replicate_zero]
    rfl
  · intro V S hl hp v
    refine run_facets S hl v _ fs hp ?_
    intro f hf hpan
    have := (facetBodies_panic (tupleTypeName g t ms) fs).1.2 ⟨f, hf, (facet_panic _ _ _).1.1 hpan⟩
    rw [hb] at this
    cases this
  · intro c hc op l ty e
    obtain ⟨f, -, hc⟩ := List.mem_flatMap.1 hc
    subst e
    exact condsOf_type hc

theorem iseg_genAlias {n o : Str} {c : Option Str} (hn : PrefixSafe n) (ho : PrefixSafe o) (ss : List RsEntity) :
    ∃ is, ISeg [] [] (genAlias g n o c) [] [] is ∧
      Fits g (if decide (GenCtx.formatComment c 0 ≠ []) then [([], .entity (.alias (.mk n o c ss)))] else []) is := by
  have hw := typeName_word g hn
  have hwo := typeName_word g ho
  delta genAlias
  obtain ⟨ls, h1, h2⟩ := comment_lines c 0
  have hq : ∀ {l s : Str}, '\n' ∉ l → trimLine l = '/' :: '/' :: s → ISeg [] [] (l ++ ['\n']) [] [] [] := by
    intro l s hl ht
    refine iseg_line hl (fun stk rest _ => ⟨?_, ?_, ?_⟩) rfl
    · rw [lineStack, ht]; rfl
    · exact lineItem_none _ _ (.inl (by rw [ht]; rfl))
    · rw [attrsAfter, ht]; rfl
  cases ls with
  | nil =>
    have e : GenCtx.formatComment c 0 = [] := h1
    simp only [e, ne_eq, not_true_eq_false, decide_false, Bool.false_eq_true, if_false]
    refine ⟨[], ?_, .nil⟩
    have := hq (l := "//".toList ++ (" pub type ".toList ++ (g.typeName n ++ (" = ".toList ++ (g.typeName o ++ ";".toList)))))
      (s := " pub type ".toList ++ (g.typeName n ++ (" = ".toList ++ (g.typeName o ++ ";".toList)))) ?_ ?_
    · simp only [List.append_assoc, List.nil_append] at this ⊢; exact this
    · exact nl_append (by decide) (nl_append (by decide) (nl_append hw.nl (nl_append (by decide) (nl_append hwo.nl (by decide)))))
    · exact trimLine_of_head (by simp) (by simp)
  | cons l ls =>
    have e : GenCtx.formatComment c 0 ≠ [] := by rw [h1]; simp
    simp only [decide_eq_true e, if_true]
    have hrest : ISeg [] [] (ls.flatMap (· ++ ['\n'])) [] [] [] := by
      clear h1
      induction ls with
      | nil => exact iseg_nil _ _
      | cons m ls ih =>
        rw [List.flatMap_cons]
        obtain ⟨rest, er⟩ := (h2 m (by simp)).2
        refine ISeg.none_app (hq (h2 m (by simp)).1 (s := rest) ?_) (ih fun x hx => h2 x (by
          rcases List.mem_cons.1 hx with rfl | hx <;> simp [*]))
        rw [er, trimLine_spaces]
        exact trimLine_of_head (by simp) (by simp)
    have hc : ISeg [] [] ("//".toList ++ GenCtx.formatComment c 0) [] [] [] := by
      rw [h1, List.flatMap_cons, ← List.append_assoc, ← List.append_assoc]
      refine ISeg.none_app (hq (nl_append (by decide) (h2 l (by simp)).1) (s := l) ?_) hrest
      exact trimLine_of_head (by simp) (by simp)
    have hd := iseg_def (i := 1) (k := .type) (n := g.typeName n) (as := [])
      (l := "pub type ".toList ++ (g.typeName n ++ ' ' :: ("= ".toList ++ (g.typeName o ++ ";".toList))))
      (s := "ub type ".toList ++ (g.typeName n ++ ' ' :: ("= ".toList ++ (g.typeName o ++ ";".toList)))) rfl (by decide)
      (readHead_type hw.sp _)
      (by have : Ends ("pub type ".toList ++ (g.typeName n ++ (" = ".toList ++ (g.typeName o ++ ";".toList)))) := by ends
          exact this.1)
      (nl_append (by decide) (nl_append hw.nl (nl_append (a := " = ".toList) (by decide) (nl_append hwo.nl (by decide))))) rfl
    have h := hc.none_app hd
    refine ⟨_, iseg_cast h ?_, .cons ⟨rfl, rfl, rfl, rfl⟩ .nil⟩
    simp only [List.append_assoc, List.cons_append]
    rfl

theorem iseg_genImport {i : Import} (h1 : '\n' ∉ i.location) (h2 : '\n' ∉ i.name) : ISeg [] [] (genImport i) [] [] [] := by
  have ht : trimLine ("//use ".toList ++ (i.location ++ ("  ".toList ++ (i.name ++ ";".toList)))) =
      '/' :: '/' :: ("use ".toList ++ (i.location ++ ("  ".toList ++ (i.name ++ ";".toList)))) :=
    trimLine_of_head (by simp) (by simp)
  refine iseg_line (l := "//use ".toList ++ (i.location ++ ("  ".toList ++ (i.name ++ ";".toList)))) ?_ (fun stk rest _ => ⟨?_, ?_, ?_⟩) ?_
  · exact nl_append (by decide) (nl_append h1 (nl_append (by decide) (nl_append h2 (by decide))))
  · rw [lineStack, ht]; rfl
  · exact lineItem_none _ _ (.inl (by rw [ht]; rfl))
  · rw [attrsAfter, ht]; rfl
  · delta genImport; simp only [List.append_assoc]; rfl

/-! ## The recursion -/

theorem iseg_joinWith {ts : List Str} {xss : List (List (List Str × Origin))}
    (h : List.Forall₂ (fun t xs => ∃ is, ISeg [] [] t [] [] is ∧ Fits g xs is) ts xss) :
    ∃ is, ISeg [] [] (joinWith "\n".toList ts) [] [] is ∧ Fits g xss.flatten is := by
  cases h with
  | nil => exact ⟨[], iseg_nil _ _, .nil⟩
  | @cons t xs ts xss h hs =>
    obtain ⟨is, h1, h2⟩ := h
    obtain ⟨js, h3, h4⟩ : ∃ js, ISeg [] [] (ts.flatMap ("\n".toList ++ ·)) [] [] js ∧ Fits g xss.flatten js := by
      clear h1 h2
      induction hs with
      | nil => exact ⟨[], iseg_nil _ _, .nil⟩
      | @cons t xs ts xss h _ ih =>
        obtain ⟨is, k1, k2⟩ := h
        obtain ⟨js, k3, k4⟩ := ih
        refine ⟨is ++ js, ?_, ?_⟩
        · rw [List.flatMap_cons]
          exact (ISeg.none_app (iseg_empty [] rfl) k1).app k3
        · rw [List.flatten_cons]; exact List.rel_append k2 k4
    exact ⟨is ++ js, h1.app h3, by rw [List.flatten_cons]; exact List.rel_append h2 h4⟩

theorem originsList_eq (es : List RsEntity) :
    (es.map (originsOf g.name hasDoc)).flatten = originsList g.name hasDoc es := by
  induction es with
  | nil => rfl
  | cons e es ih => rw [List.map_cons, List.flatten_cons, ih, originsList]

mutual
theorem generate_items (ht : SafeNamespace g.targetNs) : ∀ (e : RsEntity) (r : Str),
    (∀ x ∈ generated e, SafeTexts x ∧ IsItem x) → generate g e = .ok r →
    ∃ is, ISeg [] [] r [] [] is ∧ Fits g (originsOf g.name hasDoc e) is
  | .struct (.mk n c fs a ss), r, hs, h => by
    rw [generate] at h
    obtain ⟨x, h1, h⟩ := Res.bind_eq_ok.1 h
    obtain ⟨y, h2, h⟩ := Res.bind_eq_ok.1 h
    obtain rfl := Res.ok.inj h
    have hself := (hs (.struct (.mk n c fs a ss)) (by simp [generated])).1
    obtain ⟨-, hf2⟩ := genFieldSubtypes_defs ht fs x (fun z hz => hs z (by simp [generated, hz])) h1
    have hl := genList_defs ht ss y (fun z hz => hs z (by simp [generated, hz])) h2
    obtain ⟨ia, k1, k2⟩ := genFieldSubtypes_items ht fs x (fun z hz => hs z (by simp [generated, hz])) h1
    obtain ⟨ib, k3, k4⟩ := iseg_joinWith (genList_items ht ss y (fun z hz => hs z (by simp [generated, hz])) h2)
    have hi : (x.flatten ≠ [] ∨ joinWith "\n".toList y ≠ []) ↔ hasInner fs ss = true := by
      rw [ne_eq, ne_eq, hf2, good_join_nil hl, hasInner]
      simp only [List.map_eq_nil_iff, Bool.or_eq_true, Bool.not_eq_eq_eq_not, Bool.not_true, List.isEmpty_eq_false_iff,
        ne_eq, List.any_eq_true]
      rw [or_comm]
      simp
    obtain ⟨is, k5, k6⟩ := iseg_structText (c := c) hself.1 hself.2 ht a ss k1 k2 k3 k4 (good_starts hl)
    refine ⟨is, k5, ?_⟩
    rw [originsOf, ← originsList_eq]
    by_cases hh : hasInner fs ss = true
    · rw [if_pos (hi.2 hh)] at k6; rw [if_pos hh]; exact k6
    · rw [if_neg (mt hi.1 hh)] at k6; rw [if_neg hh]; exact k6
  | .tupleStruct (.mk n c t ss m fs), r, hs, h => by
    rw [generate] at h
    obtain ⟨y, h2, h⟩ := Res.bind_eq_ok.1 h
    have hself := (hs (.tupleStruct (.mk n c t ss m fs)) (by simp [generated])).1
    obtain ⟨ib, k3, k4⟩ := iseg_joinWith (genList_items ht ss y (fun z hz => hs z (by simp [generated, hz])) h2)
    obtain ⟨is, k5, k6⟩ := iseg_tupleText hself.1 hself.2.1 hself.2.2 ss k3 k4 h
    refine ⟨is, k5, ?_⟩
    rw [originsOf, ← originsList_eq]
    exact k6
  | .enum (.mk n cs c t ss src), r, hs, h => by
    rw [generate] at h
    obtain ⟨y, h2, h⟩ := Res.bind_eq_ok.1 h
    obtain rfl := Res.ok.inj h
    have hself := (hs (.enum (.mk n cs c t ss src)) (by simp [generated])).1
    obtain ⟨ib, k3, k4⟩ := iseg_joinWith (genList_items ht ss y (fun z hz => hs z (by simp [generated, hz])) h2)
    obtain ⟨is, k5, k6⟩ := iseg_enumText (c := c) (src := src) hself.1 hself.2.1 hself.2.2 ht ss k3 k4
    refine ⟨is, k5, ?_⟩
    rw [originsOf, ← originsList_eq]
    exact k6
  | .structField f, r, hs, h => absurd (hs (.structField f) (by simp [generated])).2 fun h => h
  | .enumCase c, r, hs, h => absurd (hs (.enumCase c) (by simp [generated])).2 fun h => h
  | .alias (.mk n o c ss), r, hs, h => by
    rw [generate] at h
    obtain rfl := Res.ok.inj h
    have hself := (hs (.alias (.mk n o c ss)) (by simp [generated])).1
    obtain ⟨is, k5, k6⟩ := iseg_genAlias (g := g) (c := c) hself.1 hself.2 ss
    refine ⟨is, k5, ?_⟩
    rw [originsOf, hasDoc]
    exact k6
  | .import i, r, hs, h => by
    rw [generate] at h
    obtain rfl := Res.ok.inj h
    have hself := (hs (.import i) (by simp [generated])).1
    refine ⟨[], iseg_genImport hself.1 hself.2, ?_⟩
    rw [originsOf] <;> first | exact .nil | simp
theorem genList_items (ht : SafeNamespace g.targetNs) : ∀ (es : List RsEntity) (rs : List Str),
    (∀ x ∈ generatedList es, SafeTexts x ∧ IsItem x) → genList g es = .ok rs →
    List.Forall₂ (fun t xs => ∃ is, ISeg [] [] t [] [] is ∧ Fits g xs is) rs (es.map (originsOf g.name hasDoc))
  | [], rs, _, h => by rw [genList] at h; obtain rfl := Res.ok.inj h; exact .nil
  | e :: es, rs, hs, h => by
    rw [genList] at h
    obtain ⟨x, h1, h⟩ := Res.bind_eq_ok.1 h
    obtain ⟨y, h2, h⟩ := Res.bind_eq_ok.1 h
    obtain rfl := Res.ok.inj h
    exact .cons (generate_items ht e x (fun z hz => hs z (by simp [generatedList, hz])) h1)
      (genList_items ht es y (fun z hz => hs z (by simp [generatedList, hz])) h2)
theorem genFieldSubtypes_items (ht : SafeNamespace g.targetNs) : ∀ (fs : List StructField) (rs : List Str),
    (∀ x ∈ generatedFields fs, SafeTexts x ∧ IsItem x) → genFieldSubtypes g fs = .ok rs →
    ∃ is, ISeg [] [] rs.flatten [] [] is ∧ Fits g (originsFields g.name hasDoc fs) is
  | [], rs, _, h => by
    rw [genFieldSubtypes] at h; obtain rfl := Res.ok.inj h
    refine ⟨[], iseg_nil _ _, ?_⟩
    rw [originsFields]; exact .nil
  | .mk n t c ss src m :: fs, rs, hs, h => by
    rw [genFieldSubtypes] at h
    obtain ⟨x, h1, h⟩ := Res.bind_eq_ok.1 h
    obtain ⟨y, h2, h⟩ := Res.bind_eq_ok.1 h
    obtain rfl := Res.ok.inj h
    obtain ⟨ia, k1, k2⟩ := iseg_joinWith (genList_items ht ss x (fun z hz => hs z (by simp [generatedFields, hz])) h1)
    obtain ⟨ib, k3, k4⟩ := genFieldSubtypes_items ht fs y (fun z hz => hs z (by simp [generatedFields, hz])) h2
    refine ⟨ia ++ ib, by rw [List.flatten_cons]; exact k1.app k3, ?_⟩
    rw [originsFields, ← originsList_eq]
    exact List.rel_append k2 k4
end

/-- The items of a file. -/
theorem file_items {U : UnicodeTable} {f : RsFile} {r : Str} (ht : SafeNamespace f.targetNs)
    (hs : ∀ x ∈ generatedList f.types, SafeTexts x ∧ IsItem x) (h : (generateRsFile U f).1 = .ok r) :
    ∃ is, HasItems r is ∧ List.Forall₂ (ItemFor (GenCtx.naming ⟨U, f.targetNs, f.xsdNs⟩) f.targetNs)
      (originsList (defaultFormatName U) hasDoc f.types) is := by
  obtain ⟨ts, h1, h2⟩ := Res.bind_eq_ok.1 h
  clear h
  obtain rfl := Res.ok.inj h2
  have hl := genList_items (g := ⟨U, f.targetNs, f.xsdNs⟩) ht f.types ts hs h1
  obtain ⟨is, k1, k2⟩ : ∃ is, ISeg [] [] ts.flatten [] [] is ∧
      Fits ⟨U, f.targetNs, f.xsdNs⟩ (f.types.map (originsOf (GenCtx.name ⟨U, f.targetNs, f.xsdNs⟩) hasDoc)).flatten is := by
    generalize f.types.map (originsOf (GenCtx.name ⟨U, f.targetNs, f.xsdNs⟩) hasDoc) = xss at hl
    clear h1 h2
    induction hl with
    | nil => exact ⟨[], iseg_nil _ _, .nil⟩
    | cons h _ ih =>
      obtain ⟨is, k1, k2⟩ := h
      obtain ⟨js, k3, k4⟩ := ih
      exact ⟨is ++ js, k1.app k3, List.rel_append k2 k4⟩
  rw [originsList_eq] at k2
  obtain ⟨ls, e, hn, hb⟩ := k1
  refine ⟨is, ⟨lns ts.flatten, lines_lns _, ?_⟩, k2⟩
  have hl : lns ts.flatten = ls ++ [[]] := by
    have := lns_lined hn []
    rw [List.append_nil, ← e] at this
    rw [this]; rfl
  rw [hl]
  have := hb [] [[]] (by simp)
  rw [List.append_nil] at this
  rw [this, show modPath [] = [] from rfl, atPath_nil]
  show is ++ [] = is
  simp

end Verif.Lemmas.Gen
