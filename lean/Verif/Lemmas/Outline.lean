import Verif.Lemmas.GenItems2
import Verif.Spec.Outline

/-! # The outline of generated code -/

namespace Verif.Lemmas.Gen

open Verif Verif.Model Verif.Spec Inflector

attribute [local irreducible] genBoundValidation genLenValidation structText enumText genField genCase

variable {g : GenCtx}

/-- Complete lines with this outline. -/
def OSeg (t : Str) (ms : List Mark) : Prop :=
  ∃ ls : List Str, t = ls.flatMap (· ++ ['\n']) ∧ (∀ l ∈ ls, '\n' ∉ l) ∧ ls.filterMap readMark = ms

theorem OSeg.app {t u : Str} {ms ns : List Mark} (h1 : OSeg t ms) (h2 : OSeg u ns) : OSeg (t ++ u) (ms ++ ns) := by
  obtain ⟨ls, rfl, hn, rfl⟩ := h1
  obtain ⟨ls', rfl, hm, rfl⟩ := h2
  refine ⟨ls ++ ls', by rw [List.flatMap_append], ?_, by rw [List.filterMap_append]⟩
  intro l hl
  rcases List.mem_append.1 hl with h | h
  · exact hn l h
  · exact hm l h

theorem OSeg.app_none {t u : Str} {ms : List Mark} (h1 : OSeg t ms) (h2 : OSeg u []) : OSeg (t ++ u) ms := by
  have := h1.app h2
  rwa [List.append_nil] at this

theorem OSeg.none_app {t u : Str} {ms : List Mark} (h1 : OSeg t []) (h2 : OSeg u ms) : OSeg (t ++ u) ms := h1.app h2

theorem oseg_nil : OSeg [] [] := ⟨[], rfl, by simp, rfl⟩

theorem oseg_cast {t u : Str} {ms : List Mark} (h : OSeg t ms) (e : u = t) : OSeg u ms := e ▸ h

theorem oseg_line {l t : Str} {o : Option Mark} (hn : '\n' ∉ l) (h : readMark l = o) (ht : t = l ++ ['\n']) : OSeg t o.toList := by
  refine ⟨[l], by simp [ht], by simpa using hn, ?_⟩
  rw [List.filterMap_cons, h]
  cases o <;> rfl

theorem oseg_mark {l t : Str} {m : Mark} (hn : '\n' ∉ l) (h : readMark l = some m) (ht : t = l ++ ['\n']) : OSeg t [m] :=
  oseg_line hn h ht

theorem oseg_silent {l t : Str} (hn : '\n' ∉ l) (h : readMark l = none) (ht : t = l ++ ['\n']) : OSeg t [] :=
  oseg_line hn h ht

theorem oseg_empty : OSeg ['\n'] [] := oseg_silent (l := []) (by simp) rfl rfl

/-! ## Lines -/

theorem readMark_spaces (n : Nat) (l : Str) : readMark (List.replicate n ' ' ++ l) = readMark l := by
  rw [readMark, trimLine_spaces, readMark]

theorem readMark_dropSpaces (l : Str) : readMark (dropSpaces l) = readMark l := by
  rw [readMark, trimLine_dropSpaces, readMark]

theorem readMark_blank {l : Str} (h : dropSpaces l = []) : readMark l = none := by
  rw [readMark, trimLine_blank h]; rfl

theorem filterMap_norm (ls : List Str) : (norm ls).filterMap readMark = ls.filterMap readMark := by
  induction ls with
  | nil => rfl
  | cons l ls ih =>
    rw [norm_cons, List.filterMap_append, ih]
    by_cases h : dropSpaces l = []
    · rw [if_pos h, List.filterMap_cons, readMark_blank h]; rfl
    · rw [if_neg h, List.filterMap_cons, List.filterMap_cons, readMark_dropSpaces]
      cases readMark l <;> rfl

/-- A line which is none of these. -/
theorem readMark_none {l s : Str} {n : Nat} {c : Char} (hl : l = List.replicate n ' ' ++ c :: s)
    (hc : c ≠ ' ' ∧ c ≠ 'u' ∧ c ≠ 'p' ∧ c ≠ '/') (hs : (c :: s).getLast? ≠ some ',') : readMark l = none := by
  subst hl
  obtain ⟨h1, h2, h3, h4⟩ := hc
  have ht : trimLine (c :: s) = c :: s := trimLine_of_head (by simpa using h1) (by simpa using h2)
  have ha : afterPrefix "//".toList (c :: s) = none := afterPrefix_head (p := '/') (by simpa using h4)
  have hb : afterPrefix "pub ".toList (c :: s) = none := afterPrefix_head (p := 'p') (by simpa using h3)
  rw [readMark_spaces, readMark, ht, ha, readHead_of_head (by simpa using h3), hb]
  exact if_neg hs

theorem readMark_comment (n : Nat) (s : Str) :
    readMark (List.replicate n ' ' ++ '/' :: '/' :: s) = some (.comment (s.dropWhile (· = '/'))) := by
  have ht : trimLine ('/' :: '/' :: s) = '/' :: '/' :: s := trimLine_of_head (by simp) (by simp)
  have ha : afterPrefix "//".toList ('/' :: '/' :: s) = some s := afterPrefix_append ['/', '/'] s
  rw [readMark_spaces, readMark, ht, ha]

theorem readMark_head {l s : Str} {n : Nat} {k : DefKind} {m : Str} (hl : l = List.replicate n ' ' ++ 'p' :: s)
    (h : readHead ('p' :: s) = some (k, m)) : readMark l = some (.item k m) := by
  subst hl
  have ht : trimLine ('p' :: s) = 'p' :: s := trimLine_of_head (by simp) (by simp)
  have ha : afterPrefix "//".toList ('p' :: s) = none := afterPrefix_head (p := '/') (by simp)
  rw [readMark_spaces, readMark, ht, ha, h]

theorem readMark_field {U : UnicodeTable} {n ty : Str} (hname : NameText U n) :
    readMark (List.replicate 4 ' ' ++ ("pub ".toList ++ (n ++ ':' :: ty))) = some (.member n) := by
  have hsp : ' ' ∉ n := hname.word.sp
  have hpub : ∀ (w : Str), ':' ∉ w → ' ' ∈ w → afterPrefix ("pub ".toList ++ w) ("pub ".toList ++ (n ++ ':' :: ty)) = none := by
    intro w h1 h2
    rw [afterPrefix_common]
    exact afterPrefix_none h1 h2 hsp
  have ht : trimLine ("pub ".toList ++ (n ++ ':' :: ty)) = "pub ".toList ++ (n ++ ':' :: ty) :=
    trimLine_of_head (by simp) (by simp)
  have ha : afterPrefix "//".toList ("pub ".toList ++ (n ++ ':' :: ty)) = none := rfl
  have hh : readHead ("pub ".toList ++ (n ++ ':' :: ty)) = none := by
    have h1 := hpub "struct ".toList (by decide) (by decide)
    have h2 := hpub "enum ".toList (by decide) (by decide)
    have h3 := hpub "mod ".toList (by decide) (by decide)
    have h4 := hpub "type ".toList (by decide) (by decide)
    rw [readHead, show afterPrefix "pub struct ".toList _ = none from h1, show afterPrefix "pub enum ".toList _ = none from h2,
      show afterPrefix "pub mod ".toList _ = none from h3, show afterPrefix "pub type ".toList _ = none from h4]
  rw [readMark_spaces, readMark, ht, ha, hh, afterPrefix_append]
  dsimp only
  rw [takeWhile_until (hname.not_mem (by decide) (by decide) (by decide))]

theorem readMark_case {n r : Str} (hn : ∀ d ∈ n, asciiAlnum d = true ∨ d = '_')
    (hr : r = [','] ∨ ∃ y, r = '(' :: (y ++ [')', ','])) :
    readMark (List.replicate 4 ' ' ++ (n ++ r)) = some (.member n) := by
  have hbad : ∀ d, asciiAlnum d = false → d ≠ '_' → d ∉ n := by
    intro d h1 h2 hd
    rcases hn d hd with h | h
    · rw [h1] at h; cases h
    · exact h2 h
  obtain ⟨d, r', hd, e⟩ : ∃ d r', (d = '(' ∨ d = ',') ∧ r = d :: r' := by
    rcases hr with rfl | ⟨y, rfl⟩
    · exact ⟨',', [], .inr rfl, rfl⟩
    · exact ⟨'(', _, .inl rfl, rfl⟩
  have hlast : (n ++ r).getLast? = some ',' := by
    rcases hr with rfl | ⟨y, rfl⟩
    · simp
    · rw [show n ++ '(' :: (y ++ [')', ',']) = (n ++ '(' :: (y ++ [')'])) ++ [','] by simp, List.getLast?_append]; rfl
  have hno : ∀ w : Str, '(' ∉ w → ',' ∉ w → ' ' ∈ w → afterPrefix w (n ++ r) = none := by
    intro w h1 h2 h3
    rw [e]
    refine afterPrefix_none ?_ h3 (hbad _ (by decide) (by decide))
    rcases hd with rfl | rfl
    · exact h1
    · exact h2
  have hhead : ∀ c, asciiAlnum c = false → c ≠ '_' → c ≠ '(' → c ≠ ',' → (n ++ r).head? ≠ some c := by
    intro c h1 h2 h3 h4
    cases n with
    | nil =>
      rw [e]; rcases hd with rfl | rfl
      · simpa using fun h => h3 h.symm
      · simpa using fun h => h4 h.symm
    | cons x n =>
      simp only [List.cons_append, List.head?_cons, ne_eq, Option.some.injEq]
      rintro rfl; exact hbad x h1 h2 (by simp)
  have ht : trimLine (n ++ r) = n ++ r :=
    trimLine_of (hhead _ (by decide) (by decide) (by decide) (by decide)) (hno _ (by decide) (by decide) (by decide))
  have ha : afterPrefix "//".toList (n ++ r) = none :=
    afterPrefix_head (p := '/') (hhead _ (by decide) (by decide) (by decide) (by decide))
  have hh : readHead (n ++ r) = none := by
    rw [readHead, hno "pub struct ".toList (by decide) (by decide) (by decide), hno "pub enum ".toList (by decide) (by decide) (by decide),
      hno "pub mod ".toList (by decide) (by decide) (by decide), hno "pub type ".toList (by decide) (by decide) (by decide)]
  rw [readMark_spaces, readMark, ht, ha, hh, hno "pub ".toList (by decide) (by decide) (by decide)]
  dsimp only
  rw [if_pos hlast]
  congr 2
  rw [e]
  have hall : ∀ x ∈ n, x ≠ '(' ∧ x ≠ ',' := by
    intro x hx
    constructor <;> rintro rfl <;> exact hbad _ (by decide) (by decide) hx
  clear hno hhead hbad hn e hr hlast ht ha hh
  induction n with
  | nil => rcases hd with rfl | rfl <;> rfl
  | cons x n ih =>
    rw [List.cons_append, List.takeWhile_cons_of_pos (by simpa using hall x (by simp)), ih fun y hy => hall y (by simp [hy])]

/-! ## Comments and attributes -/

/-- The comments for a documentation. -/
def docMarks (i : Nat) (doc : Option Str) : List Mark := (lns (GenCtx.formatComment doc i)).filterMap readMark

theorem oseg_comment (doc : Option Str) (i : Nat) : OSeg (GenCtx.formatComment doc i) (docMarks i doc) := by
  obtain ⟨ls, h1, h2⟩ := comment_lines doc i
  refine ⟨ls, h1, fun l hl => (h2 l hl).1, ?_⟩
  have hl : lns (GenCtx.formatComment doc i) = ls ++ [[]] := by
    have := lns_lined (fun l hl => (h2 l hl).1) []
    rw [List.append_nil, ← h1] at this
    rw [this]; rfl
  rw [docMarks, hl, List.filterMap_append]
  show _ = _ ++ []
  rw [List.append_nil]

theorem docMarks_nil (i : Nat) (doc : Option Str) : docMarks i doc = [] ↔ GenCtx.formatComment doc i = [] := by
  obtain ⟨ls, h1, h2⟩ := comment_lines doc i
  have hl : lns (GenCtx.formatComment doc i) = ls ++ [[]] := by
    have := lns_lined (fun l hl => (h2 l hl).1) []
    rw [List.append_nil, ← h1] at this
    rw [this]; rfl
  rw [docMarks, hl, List.filterMap_append]
  cases ls with
  | nil => rw [h1]; exact ⟨fun _ => rfl, fun _ => rfl⟩
  | cons l ls =>
    obtain ⟨s, e⟩ := (h2 l (by simp)).2
    rw [List.filterMap_cons, e, readMark_comment, h1]
    simp

theorem explains (i : Nat) (doc : Option Str) : Explains 80 i doc (docMarks i doc) := by
  obtain ⟨per, h1, h2, h3⟩ := Props.C34_comment doc 80 i
  refine ⟨per, h1, ?_, h3⟩
  have hw : ∀ p ∈ per, ∀ g ∈ p.2, ∀ w ∈ g, Word w := by
    intro p hp g hg w hw
    by_cases hd : Dropped p.1
    · rw [(h3 p hp).2.1 hd] at hg; cases hg
    · obtain ⟨ws, k1, k2⟩ := (h3 p hp).2.2 hd
      refine words_word k1 w ?_
      rw [← k2.2.1]
      exact List.mem_flatten.2 ⟨g, hg, hw⟩
  have hnl : ∀ g : List Str, (∀ w ∈ g, Word w) → '\n' ∉ g.flatMap (' ' :: ·) := by
    intro g hg hm
    obtain ⟨w, hw, hm⟩ := List.mem_flatMap.1 hm
    rcases List.mem_cons.1 hm with h | h
    · cases h
    · exact absurd (hg w hw) (by
        intro hW
        exact absurd (hW.2 _ h) (by simp [Space]))
  have hmark : ∀ g : List Str, readMark (commentLine i g) = some (.comment (g.flatMap (' ' :: ·))) := by
    intro g
    rw [commentLine, List.append_assoc]
    refine (readMark_comment i _).trans ?_
    cases g with
    | nil => rfl
    | cons w g => rfl
  have hl : lns (GenCtx.formatComment doc i) = per.flatMap (fun p => p.2.map (commentLine i)) ++ [[]] := by
    have hn : ∀ l ∈ per.flatMap (fun p => p.2.map (commentLine i)), '\n' ∉ l := by
      intro l hl
      obtain ⟨p, hp, hl⟩ := List.mem_flatMap.1 hl
      obtain ⟨g, hg, rfl⟩ := List.mem_map.1 hl
      rw [commentLine]
      refine nl_append (nl_append ?_ (by decide)) (hnl g (hw p hp g hg))
      intro h; have := List.mem_replicate.1 h; revert this; simp
    have := lns_lined hn []
    rw [List.append_nil] at this
    rw [show GenCtx.formatComment doc i = _ from h2]
    rw [show (per.flatMap fun p => p.2.flatMap fun g => commentLine i g ++ ['\n']) =
      (per.flatMap fun p => p.2.map (commentLine i)).flatMap (· ++ ['\n']) by
        rw [List.flatMap_assoc]; congr 1; funext p; rw [List.flatMap_map], this]
    rfl
  rw [docMarks, hl, List.filterMap_append, List.filterMap_flatMap]
  show _ ++ [] = _
  rw [List.append_nil]
  congr 1
  funext p
  rw [List.filterMap_map]
  generalize p.2 = gs
  induction gs with
  | nil => rfl
  | cons g gs ih => rw [List.filterMap_cons, List.map_cons, ← ih]; simp only [Function.comp, hmark]

theorem oseg_attr {n : Nat} {s t : Str} (hs : '\n' ∉ s) (ht : t = List.replicate n ' ' ++ '#' :: (s ++ "]\n".toList)) : OSeg t [] := by
  refine oseg_silent (l := List.replicate n ' ' ++ '#' :: (s ++ [']'])) ?_ (readMark_none rfl (by decide) ?_) (by rw [ht]; simp)
  · refine nl_append ?_ (nl_append (a := ['#']) (by decide) (nl_append hs (by decide)))
    intro h; have := List.mem_replicate.1 h; revert this; simp
  · rw [show '#' :: (s ++ [']']) = ('#' :: s) ++ [']'] by simp, List.getLast?_append]; simp

theorem oseg_fieldMacros {f : StructField} (h : QuoteSafe f.name) (ht : SafeNamespace g.targetNs) : OSeg (fieldMacros g f) [] := by
  rw [fieldMacros]
  cases f.source with
  | choice => exact oseg_attr (n := 4) (s := "[yaserde(flatten)".toList) (by decide) rfl
  | «attribute» =>
    dsimp only
    rw [yaserdeForAttribute]
    cases hs : splitName f.name with
    | mk o m =>
      obtain ⟨h1, h2⟩ := h.split hs
      cases o with
      | none =>
        refine oseg_attr (n := 4) (s := "[yaserde(attribute, rename = \"".toList ++ (f.name ++ "\")".toList)) ?_ ?_
        · exact nl_append (by decide) (nl_append h.nl (by decide))
        · simp only [List.append_assoc]; rfl
      | some p =>
        refine oseg_attr (n := 4) (s := "[yaserde(attribute, prefix = \"".toList ++ (p ++ ("\", rename = \"".toList ++ (m ++ "\")".toList)))) ?_ ?_
        · exact nl_append (by decide) (nl_append (h2 p rfl).nl (nl_append (by decide) (nl_append h1.nl (by decide))))
        · simp only [List.append_assoc]; rfl
  | element =>
    dsimp only
    rw [yaserdeForElement]
    have hp : ∀ p n : Str, '\n' ∉ p → '\n' ∉ n →
        OSeg (GenCtx.indent ++ "#[yaserde(prefix = \"".toList ++ p ++ "\", rename = \"".toList ++ n ++ "\")]\n".toList) [] := by
      intro p n h1 h2
      refine oseg_attr (n := 4) (s := "[yaserde(prefix = \"".toList ++ (p ++ ("\", rename = \"".toList ++ (n ++ "\")".toList)))) ?_ ?_
      · exact nl_append (by decide) (nl_append h1 (nl_append (by decide) (nl_append h2 (by decide))))
      · simp only [List.append_assoc]; rfl
    cases hs : splitName f.name with
    | mk o m =>
      obtain ⟨h1, h2⟩ := h.split hs
      cases o with
      | some p => exact hp p m (h2 p rfl).nl h1.nl
      | none =>
        dsimp only
        cases hq : nsPrefix g.targetNs with
        | some p => exact hp p f.name (ht.pre hq).nl h.nl
        | none =>
          refine oseg_attr (n := 4) (s := "[yaserde(rename = \"".toList ++ (f.name ++ "\")".toList)) ?_ ?_
          · exact nl_append (by decide) (nl_append h.nl (by decide))
          · simp only [List.append_assoc]; rfl
  | base => exact oseg_nil
  | na => exact oseg_nil

theorem oseg_caseMacros {c : EnumCase} (h : QuoteSafe c.name) : OSeg (caseMacros g c) [] := by
  cases hs : splitName c.name with
  | mk o m =>
    obtain ⟨h1, h2⟩ := h.split hs
    rw [caseMacros, hs]
    by_cases hu : c.source = .union
    · rw [if_pos hu]; exact oseg_nil
    · rw [if_neg hu]
      cases o with
      | some p =>
        refine oseg_attr (n := 4) (s := "[yaserde(prefix = \"".toList ++ (p ++ ("\", rename = \"".toList ++ (m ++ "\")".toList)))) ?_ ?_
        · exact nl_append (by decide) (nl_append (h2 p rfl).nl (nl_append (by decide) (nl_append h1.nl (by decide))))
        · simp only [List.append_assoc]; rfl
      | none =>
        dsimp only
        by_cases hm : m = caseName g c
        · rw [if_pos hm]; exact oseg_nil
        · rw [if_neg hm]
          refine oseg_attr (n := 4) (s := "[yaserde(rename = \"".toList ++ (m ++ "\")".toList)) ?_ ?_
          · exact nl_append (by decide) (nl_append h1.nl (by decide))
          · simp only [List.append_assoc]; rfl

/-! ## Members -/

theorem oseg_genField {f : StructField} (h : FieldSafe f) (ht : SafeNamespace g.targetNs) (he : .empty ∉ f.typeModifiers) :
    OSeg (genField g f ++ ['\n']) (docMarks 4 f.comment ++ [.member (g.name f.name)]) := by
  have hname := name_nameText g.U f.name
  have hty : '\n' ∉ fieldTypeName g f := modifyType_nl (typeName_word g h.2) f.typeModifiers
  rw [genField, if_neg (by simpa using he)]
  have hl : OSeg (List.replicate 4 ' ' ++ ("pub ".toList ++ (g.name f.name ++ ':' :: (' ' :: (fieldTypeName g f ++ [','])))) ++ ['\n'])
      [.member (g.name f.name)] := by
    refine oseg_mark ?_ (readMark_field hname) rfl
    refine nl_append (by decide) (nl_append (by decide) (nl_append hname.word.nl ?_))
    exact nl_append (a := ": ".toList) (by decide) (nl_append hty (by decide))
  have h := (oseg_comment f.comment 4).app ((oseg_fieldMacros h.1 ht).none_app hl)
  simp only [List.append_assoc, List.cons_append, List.nil_append] at h ⊢
  exact h

theorem oseg_genCase {c : EnumCase} (h : CaseSafe c) :
    OSeg (genCase g c ++ ['\n']) (docMarks 4 c.comment ++ [.member (caseName g c)]) := by
  have hbad : '\n' ∉ caseName g c := by
    intro hm
    rcases caseName_chars g c _ hm with h | h <;> revert h <;> decide
  rw [genCase]
  cases hty : c.typeName with
  | none =>
    have hl : OSeg (List.replicate 4 ' ' ++ (caseName g c ++ [',']) ++ ['\n']) [.member (caseName g c)] :=
      oseg_mark (nl_append (by decide) (nl_append hbad (by decide))) (readMark_case (caseName_chars g c) (.inl rfl)) rfl
    have h := (oseg_comment c.comment 4).app ((oseg_caseMacros (g := g) h.1).none_app hl)
    simp only [List.append_assoc, List.cons_append, List.nil_append] at h ⊢
    exact h
  | some t =>
    have hnl := modifyType_nl (typeName_word g (h.2 t hty)) c.typeModifiers
    have hl : OSeg (List.replicate 4 ' ' ++ (caseName g c ++ '(' :: (defaultModifyType (g.typeName t) c.typeModifiers ++ [')', ','])) ++ ['\n'])
        [.member (caseName g c)] :=
      oseg_mark (nl_append (by decide) (nl_append hbad (nl_append (a := ['(']) (by decide) (nl_append hnl (by decide)))))
        (readMark_case (caseName_chars g c) (.inr ⟨_, rfl⟩)) rfl
    have h := (oseg_comment c.comment 4).app ((oseg_caseMacros (g := g) h.1).none_app hl)
    simp only [List.append_assoc, List.cons_append, List.nil_append] at h ⊢
    exact h

/-- Texts with line ends between them, and one at the end. -/
theorem oseg_join {α : Type} {s : Str} (hs : OSeg s []) {text : α → Str} {marks : α → List Mark} {xs : List α}
    (h : ∀ x ∈ xs, OSeg (text x ++ ['\n']) (marks x)) (hne : xs ≠ []) :
    OSeg (joinWith ('\n' :: s) (xs.map text) ++ ['\n']) (xs.flatMap marks) := by
  cases xs with
  | nil => exact absurd rfl hne
  | cons x xs =>
    have key : ∃ u, '\n' :: u = (xs.map text).flatMap (('\n' :: s) ++ ·) ++ ['\n'] ∧ OSeg u (xs.flatMap marks) := by
      have h' := fun y hy => h y (List.mem_cons_of_mem x hy)
      clear h hne
      induction xs with
      | nil => exact ⟨[], rfl, oseg_nil⟩
      | cons y ys ih =>
        obtain ⟨u, e, hu⟩ := ih fun z hz => h' z (by simp only [List.mem_cons] at hz ⊢; tauto)
        refine ⟨s ++ ((text y ++ ['\n']) ++ u), ?_, ?_⟩
        · rw [List.map_cons, List.flatMap_cons, List.append_assoc (('\n' :: s) ++ text y), ← e]
          simp only [List.cons_append, List.append_assoc, List.nil_append]
        · exact hs.none_app ((h' y (by simp)).app hu)
    obtain ⟨u, e, hu⟩ := key
    rw [List.map_cons, joinWith, List.append_assoc, ← e, List.flatMap_cons]
    have := (h x (by simp)).app hu
    simpa using this

theorem oseg_genFields {n : Str} {fs : List StructField} (h : ∀ f ∈ fs, FieldSafe f) (ht : SafeNamespace g.targetNs) :
    (genFields g n fs = [] ∧ memberMarks (docMarks 4) (·.comment) (fun f => g.name f.name) (written fs) = []) ∨
    ∃ u, genFields g n fs = '\n' :: u ∧ OSeg u (memberMarks (docMarks 4) (·.comment) (fun f => g.name f.name) (written fs)) := by
  have hts : (fs.map fun f => genField g (qualifyField (g.name n) f)).filter (· ≠ []) =
      (written fs).map fun f => genField g (qualifyField (g.name n) f) := by
    rw [List.filter_map]
    congr 1
    apply List.filter_congr
    intro f _
    have := genField_nil (g := g) (qualifyField (g.name n) f)
    rw [(qualifyField_props _ f).2.1] at this
    simp only [Function.comp, ne_eq, this]
    by_cases hm : .empty ∈ f.typeModifiers <;> simp [hm]
  have hgs : ∀ f ∈ written fs, FieldSafe f ∧ .empty ∉ f.typeModifiers := by
    intro f hf
    obtain ⟨k1, k2⟩ := List.mem_filter.1 hf
    exact ⟨h f k1, by simpa using k2⟩
  rw [genFields, hts]
  generalize written fs = gs at hgs
  cases gs with
  | nil => exact .inl ⟨rfl, rfl⟩
  | cons f gs =>
    right
    have hall : ∀ f' ∈ f :: gs, OSeg (genField g (qualifyField (g.name n) f') ++ ['\n'])
        (docMarks 4 f'.comment ++ [.member (g.name f'.name)]) := by
      intro f' hf'
      obtain ⟨q1, q2, q3, q4⟩ := qualifyField_props (g.name n) f'
      obtain ⟨k1, k2⟩ := hgs f' hf'
      have := oseg_genField (g := g) (f := qualifyField (g.name n) f') (qualifyField_safe k1) ht (by rw [q2]; exact k2)
      rw [q1] at this
      have hc : (qualifyField (g.name n) f').comment = f'.comment := by
        obtain ⟨_, _, _, s, _, _⟩ := f'
        cases s <;> rfl
      rwa [hc] at this
    have := oseg_join (s := ['\n']) oseg_empty hall (by simp)
    have hj : joinWith "\n\n".toList ((f :: gs).map fun f => genField g (qualifyField (g.name n) f)) ≠ [] := by
      rw [List.map_cons, joinWith]
      intro h0
      have := (genField_nil _).1 (List.append_eq_nil_iff.1 h0).1
      rw [(qualifyField_props _ f).2.1] at this
      exact (hgs f (by simp)).2 this
    rw [if_neg hj]
    exact ⟨joinWith "\n\n".toList _ ++ ['\n'], rfl, this⟩

theorem oseg_cases {t : Str} {cs : List EnumCase} (htn : PrefixSafe t) (hc : ∀ c ∈ cs, CaseSafe c) :
    OSeg (joinWith "\n".toList (cs.map (genCase g)) ++ ['\n'] ++
        (List.replicate 4 ' ' ++ ("__Unknown__".toList ++ ('(' :: (g.typeName t ++ [')', ',']))) ++ ['\n']))
      (memberMarks (docMarks 4) (·.comment) (fun c => (GenCtx.naming g).case c.name) cs ++ [.member "__Unknown__".toList]) := by
  refine OSeg.app ?_ (oseg_mark ?_ (readMark_case (by decide) (.inr ⟨_, rfl⟩)) rfl)
  · by_cases he : cs = []
    · subst he; exact oseg_empty
    · exact oseg_join (s := []) oseg_nil (fun c h => oseg_genCase (hc c h)) he
  · exact nl_append (by decide) (nl_append (by decide) (nl_append (a := ['(']) (by decide) (nl_append (typeName_word g htn).nl (by decide))))

/-! ## Implementations -/

/-- Lines each after a line end, without anything in the outline. -/
def Silent (t : Str) : Prop := ∃ ls : List Str, t = ls.flatMap ('\n' :: ·) ∧ (∀ l ∈ ls, '\n' ∉ l) ∧ ∀ l ∈ ls, readMark l = none

theorem silent_nil : Silent [] := ⟨[], rfl, by simp, by simp⟩

theorem Silent.app {a b : Str} (ha : Silent a) (hb : Silent b) : Silent (a ++ b) := by
  obtain ⟨ls, rfl, h1, h2⟩ := ha
  obtain ⟨ms, rfl, h3, h4⟩ := hb
  refine ⟨ls ++ ms, by rw [List.flatMap_append], ?_, ?_⟩
  · intro l hl
    rcases List.mem_append.1 hl with h | h
    · exact h1 l h
    · exact h3 l h
  · intro l hl
    rcases List.mem_append.1 hl with h | h
    · exact h2 l h
    · exact h4 l h

theorem silent_if {o q t : Str} {i j k : Nat} (ho : '\n' ∉ o) (hq : '\n' ∉ q)
    (ht : t = '\n' :: (List.replicate i ' ' ++ ("if ".toList ++ o ++ " {".toList)) ++
      ('\n' :: (List.replicate j ' ' ++ ('r' :: q ++ [';'])) ++ ('\n' :: (List.replicate k ' ' ++ ['}'])))) : Silent t := by
  have hsp : ∀ n, '\n' ∉ List.replicate n ' ' := by
    intro n h; have := List.mem_replicate.1 h; revert this; simp
  refine ⟨[List.replicate i ' ' ++ ("if ".toList ++ o ++ " {".toList), List.replicate j ' ' ++ ('r' :: q ++ [';']),
    List.replicate k ' ' ++ ['}']], ?_, ?_, ?_⟩
  · rw [ht]; simp
  · intro l hl
    simp only [List.mem_cons, List.not_mem_nil, or_false] at hl
    rcases hl with rfl | rfl | rfl
    · exact nl_append (hsp i) (nl_append (nl_append (by decide) ho) (by decide))
    · exact nl_append (hsp j) (nl_append (by simpa using hq) (by decide))
    · exact nl_append (hsp k) (by decide)
  · intro l hl
    simp only [List.mem_cons, List.not_mem_nil, or_false] at hl
    rcases hl with rfl | rfl | rfl
    · refine readMark_none (n := i) (c := 'i') (s := "f ".toList ++ o ++ " {".toList) rfl (by decide) ?_
      rw [show 'i' :: ("f ".toList ++ o ++ " {".toList) = ('i' :: ("f ".toList ++ o ++ " ".toList)) ++ ['{'] by simp, List.getLast?_append]
      simp
    · refine readMark_none (n := j) (c := 'r') (s := q ++ [';']) rfl (by decide) ?_
      rw [show 'r' :: (q ++ [';']) = ('r' :: q) ++ [';'] by simp, List.getLast?_append]
      simp
    · exact readMark_none (n := k) (c := '}') (s := []) rfl (by decide) (by decide)

theorem silent_bound {kind op expect n v t : Str} (hk : '\n' ∉ kind) (hop : '\n' ∉ op) (he : '\n' ∉ expect)
    (hn : '\n' ∉ n) (hv : '\n' ∉ v) (ht : '\n' ∉ t) : Silent (genBoundValidation kind op expect n v t) := by
  refine silent_if (i := 8) (j := 12) (k := 8)
    (o := "self.".toList ++ n ++ " ".toList ++ op ++ " \"".toList ++ v ++ "\".parse::<".toList ++ t ++ ">().unwrap()".toList)
    (q := "eturn Err(format!(\"".toList ++ kind ++
    " validation error: invalid value of ".toList ++ n ++ "! \\nExpected: ".toList ++ n ++ " ".toList ++ expect ++
    " ".toList ++ v ++ ".\\nActual: ".toList ++ n ++ " == {}\", self.".toList ++ n ++ "))".toList) ?_ ?_ ?_
  · repeat' first | apply nl_append | assumption | decide
  · repeat' first | apply nl_append | assumption | decide
  · delta genBoundValidation
    simp only [List.append_assoc, List.cons_append]
    rfl

theorem silent_len {pre kind op expect n v : Str} (hp : Silent pre) (hk : '\n' ∉ kind) (hop : '\n' ∉ op)
    (he : '\n' ∉ expect) (hn : '\n' ∉ n) (hv : '\n' ∉ v) : Silent (genLenValidation pre kind op expect n v) := by
  have key : Silent ("\n        if self.".toList ++ (n ++ (".len() ".toList ++ (op ++ (" ".toList ++ (v ++
    (" {\n            return Err(format!(\"".toList ++ (kind ++ (" validation error. \\nExpected: ".toList ++ (n ++
    (" length ".toList ++ (expect ++ (" ".toList ++ (v ++ (" \\nActual: ".toList ++ (n ++
    (" length == {}\", self.".toList ++ (n ++ ".len()));\n        }".toList)))))))))))))))))) := by
    refine silent_if (i := 8) (j := 12) (k := 8)
      (o := "self.".toList ++ n ++ ".len() ".toList ++ op ++ " ".toList ++ v)
      (q := "eturn Err(format!(\"".toList ++ kind ++ " validation error. \\nExpected: ".toList ++ n ++
      " length ".toList ++ expect ++ " ".toList ++ v ++ " \\nActual: ".toList ++ n ++
      " length == {}\", self.".toList ++ n ++ ".len()))".toList) ?_ ?_ ?_
    · repeat' first | apply nl_append | assumption | decide
    · repeat' first | apply nl_append | assumption | decide
    · simp only [List.append_assoc, List.cons_append]
      rfl
  have := hp.app key
  delta genLenValidation
  simp only [List.append_assoc] at this ⊢
  exact this

theorem silent_facet {f : FacetType} {t : Str} (ht : '\n' ∉ t)
    (hv : ∀ v, facetBound f = some v → QuoteSafe v) {r : Str} (h : genFacetValidation f "0".toList t = .ok r) : Silent r := by
  have hpre : Silent "\n        #[allow(clippy::len_zero)]".toList :=
    ⟨["        #[allow(clippy::len_zero)]".toList], rfl, by decide, by decide +kernel⟩
  cases f <;> simp only [genFacetValidation] at h
  case maxExclusive v =>
    obtain rfl := Res.ok.inj h
    exact silent_bound (by decide) (by decide) (by decide) (by decide) (hv v rfl).nl ht
  case maxInclusive v =>
    obtain rfl := Res.ok.inj h
    exact silent_bound (by decide) (by decide) (by decide) (by decide) (hv v rfl).nl ht
  case minExclusive v =>
    obtain rfl := Res.ok.inj h
    exact silent_bound (by decide) (by decide) (by decide) (by decide) (hv v rfl).nl ht
  case minInclusive v =>
    obtain rfl := Res.ok.inj h
    exact silent_bound (by decide) (by decide) (by decide) (by decide) (hv v rfl).nl ht
  case length v =>
    obtain ⟨k, -, h2⟩ := Res.bind_eq_ok.1 h
    obtain rfl := Res.ok.inj h2
    exact silent_len silent_nil (by decide) (by decide) (by decide) (by decide) (natStr_word k).nl
  case maxLength v =>
    obtain ⟨k, -, h2⟩ := Res.bind_eq_ok.1 h
    obtain rfl := Res.ok.inj h2
    exact silent_len silent_nil (by decide) (by decide) (by decide) (by decide) (natStr_word k).nl
  case minLength v =>
    obtain ⟨k, -, h2⟩ := Res.bind_eq_ok.1 h
    split at h2
    · obtain rfl := Res.ok.inj h2; exact silent_nil
    · obtain rfl := Res.ok.inj h2
      exact silent_len hpre (by decide) (by decide) (by decide) (by decide) (natStr_word k).nl
  all_goals (obtain rfl := Res.ok.inj h; exact silent_nil)

theorem silent_facets {t : Str} (ht : '\n' ∉ t) {fs : List Facet}
    (hv : ∀ f ∈ fs, ∀ v, facetBound f.facetType = some v → QuoteSafe v) {r : Str} (h : facetBodies t fs = .ok r) :
    Silent r := by
  induction fs generalizing r with
  | nil => obtain rfl := Res.ok.inj h; exact silent_nil
  | cons f fs ih =>
    rw [facetBodies] at h
    obtain ⟨a, h1, h⟩ := Res.bind_eq_ok.1 h
    obtain ⟨b, h2, h⟩ := Res.bind_eq_ok.1 h
    obtain rfl := Res.ok.inj h
    exact .app (silent_facet ht (hv f (by simp)) h1) (ih (fun f hf => hv f (by simp [hf])) h2)

theorem readMark_brace {s : Str} {c : Char} (n : Nat) (hc : c ≠ ' ' ∧ c ≠ 'u' ∧ c ≠ 'p' ∧ c ≠ '/') (a : Str) (d : Char) (hd : d ≠ ',') (e : a = c :: (s ++ [d])) :
    readMark (List.replicate n ' ' ++ a) = none := by
  subst e
  refine readMark_none rfl hc ?_
  rw [show c :: (s ++ [d]) = (c :: s) ++ [d] by simp, List.getLast?_append]
  simpa using hd

theorem oseg_validate {n body : Str} (hn : WordText n) (hb : Silent body) : OSeg (genValidateImpl n body ++ ['\n']) [] := by
  rw [genValidateImpl]
  split
  · refine oseg_silent (l := "impl Validate for ".toList ++ n ++ " {}".toList) ?_ ?_ rfl
    · exact nl_append (nl_append (by decide) hn.nl) (by decide)
    · exact readMark_brace (s := "mpl Validate for ".toList ++ n ++ " {".toList) (c := 'i') 0 (by decide) _ '}' (by decide)
        (by simp only [List.append_assoc]; rfl)
  · obtain ⟨ls, rfl, hnl, hq⟩ := hb
    have h1 : OSeg ("impl Validate for ".toList ++ n ++ " {".toList ++ ['\n']) [] := by
      refine oseg_silent ?_ ?_ rfl
      · exact nl_append (nl_append (by decide) hn.nl) (by decide)
      · exact readMark_brace (s := "mpl Validate for ".toList ++ n ++ " ".toList) (c := 'i') 0 (by decide) _ '{' (by decide)
          (by simp only [List.append_assoc]; rfl)
    have h2 : OSeg ("    fn validate(&self) -> Result<(), String> { ".toList ++ ['\n']) [] :=
      oseg_silent (by decide) (by decide +kernel) rfl
    have h3 : OSeg (ls.flatMap (· ++ ['\n'])) [] :=
      ⟨ls, rfl, hnl, by rw [List.filterMap_eq_nil_iff]; exact hq⟩
    have h4 : OSeg ("        Ok(())".toList ++ ['\n']) [] := oseg_silent (by decide) (by decide +kernel) rfl
    have h5 : OSeg ("    }".toList ++ ['\n']) [] := oseg_silent (by decide) (by decide +kernel) rfl
    have h6 : OSeg ("}".toList ++ ['\n']) [] := oseg_silent (by decide) (by decide +kernel) rfl
    have h := h1.none_app (h2.none_app (h3.none_app (h4.none_app (h5.none_app (h6.none_app oseg_empty)))))
    refine oseg_cast h ?_
    have e := nl_rotate ls
    have e2 : "impl Validate for ".toList ++ n ++ " {\n    fn validate(&self) -> Result<(), String> { ".toList ++
        ls.flatMap ('\n' :: ·) ++ "\n        Ok(())\n    }\n}\n".toList ++ ['\n'] =
      "impl Validate for ".toList ++ (n ++ (" {\n    fn validate(&self) -> Result<(), String> { ".toList ++
        ((ls.flatMap ('\n' :: ·) ++ ['\n']) ++ ("        Ok(())\n    }\n}\n".toList ++ ['\n'])))) := by
      simp only [List.append_assoc]
      rfl
    rw [e2, ← e]
    simp only [List.append_assoc, List.cons_append, List.nil_append]
    rfl

theorem oseg_enumDefault {n : Str} (hn : WordText n) : OSeg (enumDefault n ++ ['\n']) [] := by
  have h1 : OSeg ("impl Default for ".toList ++ n ++ " {".toList ++ ['\n']) [] := by
    refine oseg_silent ?_ ?_ rfl
    · exact nl_append (nl_append (by decide) hn.nl) (by decide)
    · exact readMark_brace (s := "mpl Default for ".toList ++ n ++ " ".toList) (c := 'i') 0 (by decide) _ '{' (by decide)
        (by simp only [List.append_assoc]; rfl)
  have h2 : OSeg (List.replicate 4 ' ' ++ ("fn default() -> ".toList ++ n ++ " {".toList) ++ ['\n']) [] := by
    refine oseg_silent ?_ ?_ rfl
    · exact nl_append (by decide) (nl_append (nl_append (by decide) hn.nl) (by decide))
    · exact readMark_brace (s := "n default() -> ".toList ++ n ++ " ".toList) (c := 'f') 4 (by decide) _ '{' (by decide)
        (by simp only [List.append_assoc]; rfl)
  have h3 : OSeg ("        Self::__Unknown__(\"No valid variants\".into())".toList ++ ['\n']) [] :=
    oseg_silent (by decide) (by decide +kernel) rfl
  have h5 : OSeg ("    }".toList ++ ['\n']) [] := oseg_silent (by decide) (by decide +kernel) rfl
  have h6 : OSeg ("}".toList ++ ['\n']) [] := oseg_silent (by decide) (by decide +kernel) rfl
  refine oseg_cast (h1.none_app (h2.none_app (h3.none_app (h5.none_app h6)))) ?_
  delta enumDefault
  simp only [List.append_assoc, List.cons_append, List.nil_append]
  rfl

/-! ## Attributes of definitions -/

theorem nsAttr_shape (ht : SafeNamespace g.targetNs) : ∃ s, nsAttr g.targetNs = '#' :: (s ++ [']']) ∧ '\n' ∉ s := by
  cases hn : g.targetNs with
  | none => exact ⟨"[yaserde()".toList, nsAttr_none, by decide⟩
  | some ns =>
    obtain ⟨o, uri⟩ := ns
    have hns := ht ⟨o, uri⟩ hn
    cases o with
    | none =>
      refine ⟨"[yaserde(namespace = \"".toList ++ (uri ++ "\")".toList), ?_, nl_append (by decide) (nl_append hns.1.nl (by decide))⟩
      rw [nsAttr_uri]; simp only [List.append_assoc]; rfl
    | some p =>
      have hp := (hns.2 p rfl).nl
      refine ⟨"[yaserde(prefix = \"".toList ++ (p ++ ("\", namespace = \"".toList ++ (p ++ (": ".toList ++ (uri ++ "\")".toList))))), ?_,
        nl_append (by decide) (nl_append hp (nl_append (by decide) (nl_append hp (nl_append (by decide) (nl_append hns.1.nl (by decide))))))⟩
      rw [nsAttr_prefix]; simp only [List.append_assoc]; rfl

theorem structMacros_eq : structMacros g = "#[derive(Default, Clone, PartialEq, Debug, YaSerialize, YaDeserialize)]\n".toList ++
    (nsAttr g.targetNs ++ ['\n']) := by
  rw [structMacros]
  cases g.targetNs with
  | none => rfl
  | some ns =>
    obtain ⟨o, uri⟩ := ns
    cases o with
    | none => rw [nsAttr_uri]; simp only [List.append_assoc, List.cons_append]; rfl
    | some p => rw [nsAttr_prefix]; simp only [List.append_assoc, List.cons_append]; rfl

theorem oseg_structMacros (ht : SafeNamespace g.targetNs) : OSeg (structMacros g) [] := by
  obtain ⟨s, e, hs⟩ := nsAttr_shape ht
  rw [structMacros_eq]
  refine OSeg.none_app (oseg_attr (n := 0) (s := "[derive(Default, Clone, PartialEq, Debug, YaSerialize, YaDeserialize)".toList) (by decide) rfl) ?_
  exact oseg_attr (n := 0) hs (by rw [e]; simp)

theorem oseg_enumMacros (ht : SafeNamespace g.targetNs) (src : EnumSource) : OSeg (enumMacros g src ++ ['\n']) [] := by
  rw [enumMacros]
  split
  · exact oseg_attr (n := 0) (s := "[derive(PartialEq, Debug, UtilsUnionSerDe)".toList) (by decide) rfl
  · obtain ⟨s, e, hs⟩ := nsAttr_shape ht
    refine OSeg.none_app ?_ oseg_empty
    refine oseg_attr (n := 0) (s := "[derive(PartialEq, Debug, Clone, YaSerialize, YaDeserialize)]#".toList ++ s) (nl_append (by decide) hs) ?_
    have e2 : "#[derive(PartialEq, Debug, Clone, YaSerialize, YaDeserialize)]".toList ++ (nsAttr g.targetNs ++ ['\n']) =
        List.replicate 0 ' ' ++ '#' :: ("[derive(PartialEq, Debug, Clone, YaSerialize, YaDeserialize)]#".toList ++ s ++ "]\n".toList) := by
      rw [e]; simp
    rw [← e2]
    cases g.targetNs with
    | none => rfl
    | some ns =>
      obtain ⟨o, uri⟩ := ns
      cases o with
      | none => rw [nsAttr_uri]; simp only [List.append_assoc, List.cons_append]; rfl
      | some p => rw [nsAttr_prefix]; simp only [List.append_assoc, List.cons_append]; rfl

end Verif.Lemmas.Gen
