import Verif.Lemmas.GenDefs3

/-! # Fields and cases which are read from generated code -/

namespace Verif.Lemmas.Gen

open Verif Verif.Model Verif.Spec Inflector

attribute [local irreducible] genBoundValidation genLenValidation structText enumText

variable {g : GenCtx}

/-- The names of the generator. -/
def GenCtx.naming (g : GenCtx) : Naming where
  type := g.typeName
  name := g.name
  case := fun n => caseName g { name := n }
  wrap := defaultModifyType

theorem Quiet.ne {l : Str} (h : Quiet l) : l ≠ ['}'] := by
  rintro rfl
  have := (h [none]).1
  revert this; decide

/-- The text does not end with an opening brace. -/
def Ends (s : Str) : Prop := lastIsOpen s = false ∧ ∃ c ∈ s, c ≠ ' '

instance (s : Str) : Decidable (Ends s) := inferInstanceAs (Decidable (_ ∧ _))

theorem Ends.app {b : Str} (h : Ends b) (a : Str) : Ends (a ++ b) := by
  obtain ⟨h1, c, h2, h3⟩ := h
  refine ⟨?_, c, by simp [h2], h3⟩
  rw [← h1, lastIsOpen, lastIsOpen, List.reverse_append]
  have : c ∈ b.reverse := by simpa using h2
  generalize b.reverse = r at this
  induction r with
  | nil => cases this
  | cons d r ih =>
    by_cases hd : d = ' '
    · subst hd
      rw [List.cons_append, List.dropWhile_cons_of_pos (by simp), List.dropWhile_cons_of_pos (by simp)]
      rcases List.mem_cons.1 this with h | h
      · exact absurd h h3
      · exact ih h
    · rw [List.cons_append, List.dropWhile_cons_of_neg (by simpa using hd), List.dropWhile_cons_of_neg (by simpa using hd)]
      rfl

macro "ends" : tactic => `(tactic| repeat' first | decide | apply Ends.app)

theorem quiet_attr {s : Str} (i : Nat) (h : Ends s) : Quiet (List.replicate i ' ' ++ '#' :: s) ∧
    Fit (List.replicate i ' ' ++ '#' :: s) := by
  have ht : trimLine (List.replicate i ' ' ++ '#' :: s) = '#' :: s := by
    rw [trimLine_spaces]; exact trimLine_of_head (by simp) (by simp)
  refine ⟨?_, fit_head rfl (by decide) (by decide)⟩
  apply quiet_of <;> rw [ht]
  · simp
  · exact (h.app ['#']).1
  · exact readHead_of_head (by simp)

theorem quiet_slashes {s : Str} (i : Nat) : Quiet (List.replicate i ' ' ++ '/' :: '/' :: s) ∧
    Fit (List.replicate i ' ' ++ '/' :: '/' :: s) := by
  refine ⟨quiet_comment (s := s) ?_, fit_head rfl (by decide) (by decide)⟩
  rw [trimLine_spaces]; exact trimLine_of_head (by simp) (by simp)

/-- Complete lines from which the members `ms` are read, by the reader `rd`. -/
def MSeg (rd : Option Str → List Str → List Member) (a b : Option Str) (t : Str) (ms : List Member) : Prop :=
  ∃ ls : List Str, t = ls.flatMap (· ++ ['\n']) ∧ (∀ l ∈ ls, '\n' ∉ l ∧ Quiet l ∧ Fit l) ∧
    ∀ rest, rd a (ls ++ rest) = ms ++ rd b rest

theorem MSeg.app {rd : Option Str → List Str → List Member} {a b c : Option Str} {t u : Str} {ms ns : List Member}
    (h1 : MSeg rd a b t ms) (h2 : MSeg rd b c u ns) : MSeg rd a c (t ++ u) (ms ++ ns) := by
  obtain ⟨ls, rfl, hn, hs⟩ := h1
  obtain ⟨ls', rfl, hn', hs'⟩ := h2
  refine ⟨ls ++ ls', by rw [List.flatMap_append], ?_, ?_⟩
  · intro l hl
    rcases List.mem_append.1 hl with h | h
    · exact hn l h
    · exact hn' l h
  · intro rest
    rw [List.append_assoc, hs, hs', List.append_assoc]

theorem mseg_nil (rd : Option Str → List Str → List Member) (a : Option Str) : MSeg rd a a [] [] :=
  ⟨[], rfl, by simp, fun _ => rfl⟩

theorem mseg_line {rd : Option Str → List Str → List Member} {a b : Option Str} {l t : Str} {ms : List Member}
    (hn : '\n' ∉ l) (hb : Quiet l ∧ Fit l) (h : ∀ rest, rd a (l :: rest) = ms ++ rd b rest) (ht : t = l ++ ['\n']) : MSeg rd a b t ms :=
  ⟨[l], by simp [ht], by simpa using ⟨hn, hb⟩, h⟩

/-- Comments and empty lines are skipped, by both readers. -/
def Skips (rd : Option Str → List Str → List Member) : Prop :=
  ∀ a l rest, ((∃ (i : Nat) (s : Str), l = List.replicate i ' ' ++ '/' :: '/' :: s) ∨ l = []) → rd a (l :: rest) = rd a rest

theorem dropSpaces_replicate (n : Nat) (s : Str) : (List.replicate n ' ' ++ s).dropWhile (· = ' ') = s.dropWhile (· = ' ') := by
  induction n with
  | zero => rfl
  | succ n ih => rw [List.replicate_succ, List.cons_append, List.dropWhile_cons_of_pos (by simp), ih]

theorem skips_field : Skips readFieldLines := by
  rintro a l rest (⟨i, s, rfl⟩ | rfl)
  · rw [readFieldLines, dropSpaces_replicate]; rfl
  · rw [readFieldLines]; rfl

theorem skips_case : Skips readCaseLines := by
  rintro a l rest (⟨i, s, rfl⟩ | rfl)
  · rw [readCaseLines, dropSpaces_replicate]; rfl
  · rw [readCaseLines]; rfl

theorem mseg_comment {rd : Option Str → List Str → List Member} (hr : Skips rd) (a : Option Str) (doc : Option Str) (i : Nat) :
    MSeg rd a a (GenCtx.formatComment doc i) [] := by
  obtain ⟨ls, h1, h2⟩ := comment_lines doc i
  refine ⟨ls, h1, ?_, ?_⟩
  · intro l hl
    refine ⟨(h2 l hl).1, ?_⟩
    obtain ⟨rest, e⟩ := (h2 l hl).2
    rw [e]
    exact quiet_slashes i
  · intro rest
    rw [List.nil_append]
    clear h1
    induction ls with
    | nil => rfl
    | cons l ls ih =>
      obtain ⟨s, e⟩ := (h2 l (by simp)).2
      rw [List.cons_append, hr a l _ (.inl ⟨i, s, e⟩)]
      exact ih fun l hl => h2 l (by simp [hl])

theorem mseg_attr_field {s t : Str} {a : Option Str} (hn : '\n' ∉ s) (he : Ends s) (ht : t = List.replicate 4 ' ' ++ '#' :: s ++ ['\n']) :
    MSeg readFieldLines a (some ('#' :: s)) t [] := by
  refine mseg_line (l := List.replicate 4 ' ' ++ '#' :: s) (nl_append (by decide) (by simpa using hn)) (quiet_attr 4 he) ?_ ht
  · intro rest
    rw [readFieldLines, dropSpaces_replicate]; rfl

theorem mseg_attr_case {s t : Str} {a : Option Str} (hn : '\n' ∉ s) (he : Ends s) (ht : t = List.replicate 4 ' ' ++ '#' :: s ++ ['\n']) :
    MSeg readCaseLines a (some ('#' :: s)) t [] := by
  refine mseg_line (l := List.replicate 4 ' ' ++ '#' :: s) (nl_append (by decide) (by simpa using hn)) (quiet_attr 4 he) ?_ ht
  · intro rest
    rw [readCaseLines, dropSpaces_replicate]; rfl

/-! ## Attributes -/

theorem inter1 (sep x : Str) : List.intercalate sep [x] = x := by simp [List.intercalate]
theorem inter2 (sep x y : Str) : List.intercalate sep [x, y] = x ++ sep ++ y := by simp [List.intercalate]
theorem inter3 (sep x y z : Str) : List.intercalate sep [x, y, z] = x ++ sep ++ (y ++ sep ++ z) := by
  simp [List.intercalate]

theorem nameAttr_rename (dflt : Option Str) (m : Str) (h : dflt = none) :
    nameAttr [] dflt none m = '#' :: ("[yaserde(rename = \"".toList ++ (m ++ "\")]".toList)) := by
  subst h
  show "#[yaserde(".toList ++ List.intercalate ", ".toList ["rename".toList ++ " = \"".toList ++ m ++ "\"".toList] ++ ")]".toList = _
  rw [inter1]; simp only [List.append_assoc]; rfl

theorem nameAttr_prefix (dflt o : Option Str) (p m : Str) (h : o.or dflt = some p) :
    nameAttr [] dflt o m =
      '#' :: ("[yaserde(prefix = \"".toList ++ (p ++ ("\", rename = \"".toList ++ (m ++ "\")]".toList)))) := by
  delta nameAttr
  rw [h]
  show "#[yaserde(".toList ++ List.intercalate ", ".toList ["prefix".toList ++ " = \"".toList ++ p ++ "\"".toList,
    "rename".toList ++ " = \"".toList ++ m ++ "\"".toList] ++ ")]".toList = _
  rw [inter2]; simp only [List.append_assoc]; rfl

theorem nameAttr_attribute (m : Str) :
    nameAttr ["attribute".toList] none none m =
      '#' :: ("[yaserde(attribute, rename = \"".toList ++ (m ++ "\")]".toList)) := by
  show "#[yaserde(".toList ++ List.intercalate ", ".toList ["attribute".toList,
    "rename".toList ++ " = \"".toList ++ m ++ "\"".toList] ++ ")]".toList = _
  rw [inter2]; simp only [List.append_assoc]; rfl

theorem nameAttr_attribute_prefix (p m : Str) :
    nameAttr ["attribute".toList] none (some p) m =
      '#' :: ("[yaserde(attribute, prefix = \"".toList ++ (p ++ ("\", rename = \"".toList ++ (m ++ "\")]".toList)))) := by
  show "#[yaserde(".toList ++ List.intercalate ", ".toList ["attribute".toList,
    "prefix".toList ++ " = \"".toList ++ p ++ "\"".toList,
    "rename".toList ++ " = \"".toList ++ m ++ "\"".toList] ++ ")]".toList = _
  rw [inter3]; simp only [List.append_assoc]; rfl

/-! ## Fields -/

/-- The attribute of a field. -/
def AttrOf (pfx : Option Str) (f : StructField) (a : Option Str) : Prop :=
  match f.source with
  | .attribute => ∃ o n, Ref o n f.name ∧ a = some (nameAttr ["attribute".toList] none o n)
  | .element => ∃ o n, Ref o n f.name ∧ a = some (nameAttr [] pfx o n)
  | .choice => a = some (yaserdeAttr ["flatten".toList] [])
  | _ => a = none

theorem mseg_fieldMacros {f : StructField} (h : QuoteSafe f.name) (ht : SafeNamespace g.targetNs) :
    ∃ a, AttrOf (nsPrefix g.targetNs) f a ∧ MSeg readFieldLines none a (fieldMacros g f) [] := by
  rw [fieldMacros]
  delta AttrOf
  cases f.source with
  | choice =>
    exact ⟨_, rfl, mseg_attr_field (s := "[yaserde(flatten)]".toList) (by decide) (by decide) rfl⟩
  | «attribute» =>
    dsimp only
    rw [yaserdeForAttribute]
    cases hs : splitName f.name with
    | mk o m =>
      obtain ⟨h1, h2⟩ := h.split hs
      refine ⟨_, ⟨o, m, splitName_iff.1 hs, rfl⟩, ?_⟩
      cases o with
      | none =>
        obtain ⟨-, rfl⟩ := splitName_none.1 hs
        rw [nameAttr_attribute]
        refine mseg_attr_field (s := "[yaserde(attribute, rename = \"".toList ++ (f.name ++ "\")]".toList)) ?_ (by ends) ?_
        · exact nl_append (by decide) (nl_append h.nl (by decide))
        · simp only [List.append_assoc, List.cons_append]; rfl
      | some p =>
        rw [nameAttr_attribute_prefix]
        refine mseg_attr_field (s := "[yaserde(attribute, prefix = \"".toList ++ (p ++ ("\", rename = \"".toList ++ (m ++ "\")]".toList)))) ?_ (by ends) ?_
        · exact nl_append (by decide) (nl_append (h2 p rfl).nl (nl_append (by decide) (nl_append h1.nl (by decide))))
        · simp only [List.append_assoc, List.cons_append]; rfl
  | element =>
    dsimp only
    rw [yaserdeForElement]
    have hp : ∀ p n : Str, '\n' ∉ p → '\n' ∉ n →
        MSeg readFieldLines none (some ('#' :: ("[yaserde(prefix = \"".toList ++ (p ++ ("\", rename = \"".toList ++ (n ++ "\")]".toList))))))
        (GenCtx.indent ++ "#[yaserde(prefix = \"".toList ++ p ++ "\", rename = \"".toList ++ n ++ "\")]\n".toList) [] := by
      intro p n h1 h2
      refine mseg_attr_field ?_ (by ends) ?_
      · exact nl_append (by decide) (nl_append h1 (nl_append (by decide) (nl_append h2 (by decide))))
      · simp only [List.append_assoc, List.cons_append]; rfl
    cases hs : splitName f.name with
    | mk o m =>
      obtain ⟨h1, h2⟩ := h.split hs
      refine ⟨_, ⟨o, m, splitName_iff.1 hs, rfl⟩, ?_⟩
      cases o with
      | some p => rw [nameAttr_prefix _ _ p m rfl]; exact hp p m (h2 p rfl).nl h1.nl
      | none =>
        obtain ⟨-, rfl⟩ := splitName_none.1 hs
        dsimp only
        cases hq : nsPrefix g.targetNs with
        | some p => rw [nameAttr_prefix _ _ p f.name rfl]; exact hp p f.name (ht.pre hq).nl h.nl
        | none =>
          rw [nameAttr_rename _ _ rfl]
          refine mseg_attr_field ?_ (by ends) ?_
          · exact nl_append (by decide) (nl_append h.nl (by decide))
          · simp only [List.append_assoc, List.cons_append]; rfl
  | base => exact ⟨none, rfl, mseg_nil _ _⟩
  | na => exact ⟨none, rfl, mseg_nil _ _⟩

theorem takeWhile_until {n : Str} {c : Char} (h : c ∉ n) (r : Str) : (n ++ c :: r).takeWhile (· ≠ c) = n := by
  induction n with
  | nil => simp
  | cons d n ih =>
    rw [List.cons_append, List.takeWhile_cons_of_pos, ih fun hc => h (by simp [hc])]
    simp only [ne_eq, decide_eq_true_eq]
    rintro rfl; exact h (by simp)

theorem dropWhile_until {n : Str} {c : Char} (h : c ∉ n) (r : Str) : (n ++ c :: r).dropWhile (· ≠ c) = c :: r := by
  induction n with
  | nil => simp
  | cons d n ih =>
    rw [List.cons_append, List.dropWhile_cons_of_pos, ih fun hc => h (by simp [hc])]
    simp only [ne_eq, decide_eq_true_eq]
    rintro rfl; exact h (by simp)

theorem mseg_genField {f : StructField} (h : FieldSafe f) (ht : SafeNamespace g.targetNs)
    (he : .empty ∉ f.typeModifiers) :
    ∃ a, AttrOf (nsPrefix g.targetNs) f a ∧
      MSeg readFieldLines none none (genField g f ++ ['\n']) [⟨a, g.name f.name, some (fieldTypeName g f)⟩] := by
  obtain ⟨a, ha, hm⟩ := mseg_fieldMacros h.1 ht
  refine ⟨a, ha, ?_⟩
  have hname := name_nameText g.U f.name
  have hty : '\n' ∉ fieldTypeName g f := modifyType_nl (typeName_word g h.2) f.typeModifiers
  rw [genField, if_neg (by simpa using he)]
  have hl : MSeg readFieldLines a none (List.replicate 4 ' ' ++ ("pub ".toList ++ (g.name f.name ++ ':' :: (' ' :: (fieldTypeName g f ++ [','])))) ++ ['\n'])
      [⟨a, g.name f.name, some (fieldTypeName g f)⟩] := by
    refine mseg_line (l := List.replicate 4 ' ' ++ ("pub ".toList ++ (g.name f.name ++ ':' :: (' ' :: (fieldTypeName g f ++ [','])))))
      ?_ ?_ ?_ rfl
    · refine nl_append (by decide) (nl_append (by decide) (nl_append hname.word.nl ?_))
      exact nl_append (a := ": ".toList) (by decide) (nl_append hty (by decide))
    · exact ⟨quiet_field hname, fit_head (n := 4) (c := 'p') rfl (by decide) (by decide)⟩
    · intro rest
      have hcol : ':' ∉ g.name f.name := hname.not_mem (by decide) (by decide) (by decide)
      have h0 : (List.replicate 4 ' ' ++ ("pub ".toList ++ (g.name f.name ++ ':' :: (' ' :: (fieldTypeName g f ++ [',']))))).dropWhile (· = ' ') =
          "pub ".toList ++ (g.name f.name ++ ':' :: (' ' :: (fieldTypeName g f ++ [',']))) := by
        rw [dropSpaces_replicate]; exact dropSpaces_of_head (by simp)
      have h1 : isCommentLine ("pub ".toList ++ (g.name f.name ++ ':' :: (' ' :: (fieldTypeName g f ++ [','])))) = false := rfl
      have h2 : ("pub ".toList ++ (g.name f.name ++ ':' :: (' ' :: (fieldTypeName g f ++ [','])))).head? ≠ some '#' := by simp
      rw [readFieldLines, h0, h1, if_neg (by simp), if_neg h2, afterPrefix_append]
      dsimp only
      rw [takeWhile_until hcol, dropWhile_until hcol]
      simp
  have h := (mseg_comment skips_field none f.comment 4).app (hm.app hl)
  simp only [List.append_assoc, List.cons_append, List.nil_append] at h ⊢
  exact h

theorem mseg_joinWith {rd : Option Str → List Str → List Member} {sep : Str} (hsep : ∃ s, sep = '\n' :: s ∧ MSeg rd none none s [])
    {ts : List Str} {mss : List (List Member)} (hne : ts ≠ [])
    (h : List.Forall₂ (fun t ms => MSeg rd none none (t ++ ['\n']) ms) ts mss) :
    MSeg rd none none (joinWith sep ts ++ ['\n']) mss.flatten := by
  obtain ⟨s, rfl, hs⟩ := hsep
  cases h with
  | nil => exact absurd rfl hne
  | @cons t ms ts mss h hrest =>
    have key : ∃ u, '\n' :: u = ts.flatMap (('\n' :: s) ++ ·) ++ ['\n'] ∧ MSeg rd none none u mss.flatten := by
      clear h
      induction hrest with
      | nil => exact ⟨[], rfl, mseg_nil _ _⟩
      | @cons t ms ts mss h _ ih =>
        obtain ⟨u, e, hu⟩ := ih (by simp)
        refine ⟨s ++ ((t ++ ['\n']) ++ u), ?_, ?_⟩
        · rw [List.flatMap_cons, List.append_assoc (('\n' :: s) ++ t), ← e]
          simp only [List.cons_append, List.append_assoc, List.nil_append]
        · exact hs.app (h.app hu)
    obtain ⟨u, e, hu⟩ := key
    rw [joinWith, List.append_assoc, ← e, List.flatten_cons]
    have := h.app hu
    simpa using this

theorem genField_nil (f : StructField) : genField g f = [] ↔ .empty ∈ f.typeModifiers := by
  rw [genField]
  by_cases h : .empty ∈ f.typeModifiers
  · rw [if_pos (by simpa using h)]; simp [h]
  · rw [if_neg (by simpa using h)]
    simp only [h, iff_false]
    intro h0
    have := (List.append_eq_nil_iff.1 h0).2
    revert this; decide

theorem qualifyField_props (m : Str) (f : StructField) :
    (qualifyField m f).name = f.name ∧ (qualifyField m f).typeModifiers = f.typeModifiers ∧
    (qualifyField m f).source = f.source ∧
    (qualifyField m f).typeName = if f.subtypes.isEmpty then f.typeName else m ++ "::".toList ++ f.typeName := by
  obtain ⟨n, t, c, s, src, ms⟩ := f
  cases s with
  | nil => exact ⟨rfl, rfl, rfl, rfl⟩
  | cons e s => exact ⟨rfl, rfl, rfl, rfl⟩

/-- The fields are the ones of the struct which are not prohibited. -/
theorem mseg_genFields {n : Str} {fs : List StructField} (h : ∀ f ∈ fs, FieldSafe f) (ht : SafeNamespace g.targetNs) :
    ∃ ms, List.Forall₂ (FieldMember (GenCtx.naming g) (nsPrefix g.targetNs) (g.name n))
        (fs.filter fun f => !f.typeModifiers.contains .empty) ms ∧
      (genFields g n fs = [] ∧ ms = [] ∨ ∃ u, genFields g n fs = '\n' :: u ∧ MSeg readFieldLines none none u ms) := by
  have hts : (fs.map fun f => genField g (qualifyField (g.name n) f)).filter (· ≠ []) =
      (fs.filter fun f => !f.typeModifiers.contains .empty).map fun f => genField g (qualifyField (g.name n) f) := by
    rw [List.filter_map]
    congr 1
    apply List.filter_congr
    intro f _
    have := genField_nil (g := g) (qualifyField (g.name n) f)
    rw [(qualifyField_props _ f).2.1] at this
    simp only [Function.comp, ne_eq, this]
    by_cases hm : .empty ∈ f.typeModifiers <;> simp [hm]
  have hall : ∀ gs : List StructField, (∀ f ∈ gs, FieldSafe f ∧ .empty ∉ f.typeModifiers) →
      ∃ ms, List.Forall₂ (FieldMember (GenCtx.naming g) (nsPrefix g.targetNs) (g.name n)) gs ms ∧
        List.Forall₂ (fun t ms => MSeg readFieldLines none none (t ++ ['\n']) ms)
          (gs.map fun f => genField g (qualifyField (g.name n) f)) (ms.map fun m => [m]) := by
    intro gs
    induction gs with
    | nil => intro _; exact ⟨[], .nil, .nil⟩
    | cons f gs ih =>
      intro hg
      obtain ⟨ms, h1, h2⟩ := ih fun f hf => hg f (by simp [hf])
      obtain ⟨q1, q2, q3, q4⟩ := qualifyField_props (g.name n) f
      obtain ⟨hfs, hfe⟩ := hg f (by simp)
      obtain ⟨a, ha, hm⟩ := mseg_genField (g := g) (f := qualifyField (g.name n) f) (qualifyField_safe hfs) ht (by rw [q2]; exact hfe)
      refine ⟨⟨a, g.name f.name, some (fieldTypeName g (qualifyField (g.name n) f))⟩ :: ms, .cons ⟨rfl, ?_, ?_⟩ h1, .cons ?_ h2⟩
      · show some _ = some _
        rw [fieldTypeName, q2, q4]; rfl
      · rw [AttrOf, q3, q1] at ha; exact ha
      · rw [q1] at hm; exact hm
  have hgs : ∀ f ∈ fs.filter fun f => !f.typeModifiers.contains .empty, FieldSafe f ∧ .empty ∉ f.typeModifiers := by
    intro f hf
    obtain ⟨k1, k2⟩ := List.mem_filter.1 hf
    exact ⟨h f k1, by simpa using k2⟩
  rw [genFields, hts]
  generalize (fs.filter fun f => !f.typeModifiers.contains .empty) = gs at hgs
  obtain ⟨ms, h1, h2⟩ := hall gs hgs
  refine ⟨ms, h1, ?_⟩
  have hflat : (ms.map fun m => [m]).flatten = ms := by
    clear h1 h2
    induction ms with
    | nil => rfl
    | cons m ms ih => rw [List.map_cons, List.flatten_cons, ih]; rfl
  split
  · rename_i hj
    left
    refine ⟨hj, ?_⟩
    cases gs with
    | nil => cases h1; rfl
    | cons f gs =>
      exfalso
      rw [List.map_cons, joinWith] at hj
      have := (genField_nil _).1 (List.append_eq_nil_iff.1 hj).1
      rw [(qualifyField_props _ f).2.1] at this
      exact (hgs f (by simp)).2 this
  · rename_i hj
    right
    refine ⟨joinWith "\n\n".toList _ ++ ['\n'], rfl, ?_⟩
    have hne : gs.map (fun f => genField g (qualifyField (g.name n) f)) ≠ [] := by
      intro h0; rw [h0] at hj; exact hj rfl
    have := mseg_joinWith (sep := "\n\n".toList) ⟨['\n'], rfl, mseg_line (l := []) (by simp) ⟨quiet_nil, fit_nil⟩ (fun rest => skips_field none [] rest (.inr rfl)) rfl⟩ hne h2
    rwa [hflat] at this

/-! ## The body of a definition -/

/-- Lines of comments and attributes, and empty lines. -/
def HashLines (t : Str) : Prop :=
  ∃ ls : List Str, t = ls.flatMap (· ++ ['\n']) ∧ ∀ l ∈ ls, '\n' ∉ l ∧ l.head? ≠ some 'p'

theorem HashLines.app {a b : Str} (ha : HashLines a) (hb : HashLines b) : HashLines (a ++ b) := by
  obtain ⟨ls, rfl, h1⟩ := ha
  obtain ⟨ms, rfl, h2⟩ := hb
  refine ⟨ls ++ ms, by rw [List.flatMap_append], fun l hl => ?_⟩
  rcases List.mem_append.1 hl with h | h
  · exact h1 l h
  · exact h2 l h

theorem hashLines_line {l t : Str} (h1 : '\n' ∉ l) (h2 : l.head? ≠ some 'p') (ht : t = l ++ ['\n']) : HashLines t :=
  ⟨[l], by simp [ht], by simpa using ⟨h1, h2⟩⟩

theorem hashLines_comment (doc : Option Str) : HashLines (GenCtx.formatComment doc 0) := by
  obtain ⟨ls, h1, h2⟩ := comment_lines doc 0
  refine ⟨ls, h1, fun l hl => ⟨(h2 l hl).1, ?_⟩⟩
  obtain ⟨rest, e⟩ := (h2 l hl).2
  rw [e]; simp

theorem hashLines_nsMacros {d : Str} (hd : ∃ s, d = '#' :: s ∧ '\n' ∉ s) (ht : SafeNamespace g.targetNs) :
    HashLines (match g.targetNs with
      | some ⟨some p, uri⟩ =>
        d ++ "#[yaserde(prefix = \"".toList ++ p ++ "\", namespace = \"".toList ++ p ++ ": ".toList ++ uri ++ "\")]\n".toList
      | some ⟨none, uri⟩ => d ++ "#[yaserde(namespace = \"".toList ++ uri ++ "\")]\n".toList
      | none => d ++ "#[yaserde()]\n".toList) := by
  obtain ⟨s, rfl, hs⟩ := hd
  have key : ∀ {r : Str}, '\n' ∉ r → HashLines ('#' :: s ++ (r ++ [']', '\n'])) := by
    intro r hr
    refine hashLines_line (l := '#' :: s ++ (r ++ [']'])) (nl_append (by simpa using hs) (nl_append hr (by decide))) (by simp) ?_
    simp
  cases hn : g.targetNs with
  | none => exact key (r := "#[yaserde()".toList) (by decide)
  | some ns =>
    obtain ⟨o, uri⟩ := ns
    have hns := ht ⟨o, uri⟩ hn
    cases o with
    | none =>
      have := key (r := "#[yaserde(namespace = \"".toList ++ uri ++ "\")".toList)
        (nl_append (nl_append (by decide) hns.1.nl) (by decide))
      simp only [List.append_assoc, List.cons_append] at this ⊢
      exact this
    | some p =>
      have hp := (hns.2 p rfl).nl
      have := key (r := "#[yaserde(prefix = \"".toList ++ p ++ "\", namespace = \"".toList ++ p ++ ": ".toList ++ uri ++ "\")".toList)
        (nl_append (nl_append (nl_append (nl_append (nl_append (nl_append (by decide) hp) (by decide)) hp) (by decide)) hns.1.nl) (by decide))
      simp only [List.append_assoc, List.cons_append] at this ⊢
      exact this

theorem hashLines_structMacros (ht : SafeNamespace g.targetNs) : HashLines (structMacros g) := by
  have h1 : HashLines "#[derive(Default, Clone, PartialEq, Debug, YaSerialize, YaDeserialize)]\n".toList :=
    hashLines_line (l := "#[derive(Default, Clone, PartialEq, Debug, YaSerialize, YaDeserialize)]".toList) (by decide) (by decide) rfl
  have key : ∀ {r : Str}, '\n' ∉ r → HashLines ('#' :: r ++ [']', '\n']) := by
    intro r hr
    refine hashLines_line (l := '#' :: r ++ [']']) (nl_append (by simpa using hr) (by decide)) (by simp) ?_
    simp
  rw [structMacros]
  cases hn : g.targetNs with
  | none => exact h1.app (key (r := "[yaserde()".toList) (by decide))
  | some ns =>
    obtain ⟨o, uri⟩ := ns
    have hns := ht ⟨o, uri⟩ hn
    cases o with
    | none =>
      have := h1.app (key (r := "[yaserde(namespace = \"".toList ++ uri ++ "\")".toList)
        (nl_append (nl_append (by decide) hns.1.nl) (by decide)))
      simp only [List.append_assoc, List.cons_append] at this ⊢
      exact this
    | some p =>
      have hp := (hns.2 p rfl).nl
      have := h1.app (key (r := "[yaserde(prefix = \"".toList ++ p ++ "\", namespace = \"".toList ++ p ++ ": ".toList ++ uri ++ "\")".toList)
        (nl_append (nl_append (nl_append (nl_append (nl_append (nl_append (by decide) hp) (by decide)) hp) (by decide)) hns.1.nl) (by decide)))
      simp only [List.append_assoc, List.cons_append] at this ⊢
      exact this

theorem hashLines_enumMacros (ht : SafeNamespace g.targetNs) (src : EnumSource) : HashLines (enumMacros g src ++ ['\n']) := by
  rw [enumMacros]
  split
  · exact hashLines_line (l := "#[derive(PartialEq, Debug, UtilsUnionSerDe)]".toList) (by decide) (by decide) rfl
  · refine HashLines.app ?_ (hashLines_line (l := []) (by simp) (by simp) rfl)
    exact hashLines_nsMacros (d := "#[derive(PartialEq, Debug, Clone, YaSerialize, YaDeserialize)]".toList)
      ⟨"[derive(PartialEq, Debug, Clone, YaSerialize, YaDeserialize)]".toList, rfl, by decide⟩ ht

theorem bodyOf_skip {head : Str} {ls : List Str} (hh : head.head? = some 'p') (h : ∀ l ∈ ls, l.head? ≠ some 'p') (rest : List Str) :
    bodyOf head (ls ++ rest) = bodyOf head rest := by
  have : (ls ++ rest).dropWhile (fun l => (afterPrefix head l).isNone) = rest.dropWhile fun l => (afterPrefix head l).isNone := by
    induction ls with
    | nil => rfl
    | cons l ls ih =>
      rw [List.cons_append, List.dropWhile_cons_of_pos, ih fun l hl => h l (by simp [hl])]
      cases head with
      | nil => cases hh
      | cons p ps =>
        cases hh
        rw [afterPrefix_head (h l (by simp))]; rfl
  rw [bodyOf, this, bodyOf]

theorem afterPrefix_self (p : Str) : afterPrefix p p = some [] := by
  have := afterPrefix_append p []
  rwa [List.append_nil] at this

theorem bodyOf_found {head : Str} {body : List Str} (hb : ∀ l ∈ body, l ≠ ['}']) (rest : List Str) :
    bodyOf head (head :: (body ++ ['}'] :: rest)) = body := by
  rw [bodyOf, List.dropWhile_cons_of_neg (by simp [afterPrefix_self])]
  dsimp only
  rw [if_pos rfl]
  induction body with
  | nil => simp
  | cons l body ih =>
    rw [List.cons_append, List.takeWhile_cons_of_pos (by simpa using hb l (by simp)), ih fun l hl => hb l (by simp [hl])]

/-- The body of a struct. -/
theorem struct_members {n : Str} {c : Option Str} {fs : List StructField} {a b : Str} (hn : PrefixSafe n)
    (hf : ∀ f ∈ fs, FieldSafe f) (ht : SafeNamespace g.targetNs) :
    List.Forall₂ (FieldMember (GenCtx.naming g) (nsPrefix g.targetNs) (g.name n))
      (fs.filter fun f => !f.typeModifiers.contains .empty)
      (readFieldLines none (bodyOf ("pub struct ".toList ++ (g.typeName n ++ " {".toList)) (lns (structText g n c fs a b)))) := by
  have hw := typeName_word g hn
  obtain ⟨ms, h1, h2⟩ := mseg_genFields (n := n) hf ht
  obtain ⟨ls, e, hls⟩ := (hashLines_comment c).app (hashLines_structMacros (g := g) ht)
  have hhead : '\n' ∉ "pub struct ".toList ++ (g.typeName n ++ " {".toList) :=
    nl_append (by decide) (nl_append hw.nl (by decide))
  delta structText
  rw [e]
  simp only [List.append_assoc]
  rw [lns_lined fun l hl => (hls l hl).1]
  rw [bodyOf_skip (by simp) fun l hl => (hls l hl).2]
  rcases h2 with ⟨h2, rfl⟩ | ⟨u, h2, us, hu, husn, hus⟩
  · rw [h2]
    generalize (fs.filter fun f => !f.typeModifiers.contains .empty) = gs at h1
    cases h1
    generalize hrest : genValidateImpl (g.typeName n) [] ++ _ = rest
    have e1 : "pub struct ".toList ++ (g.typeName n ++ (" {".toList ++ ([] ++ ("}\n\n".toList ++ rest)))) =
        (("pub struct ".toList ++ (g.typeName n ++ " {".toList)) ++ ['}']) ++ '\n' :: ('\n' :: rest) := by
      simp only [List.append_assoc, List.cons_append, List.nil_append]; rfl
    rw [e1, lns_append_nl, lns_single (nl_append hhead (by decide))]
    generalize "pub struct ".toList ++ (g.typeName n ++ " {".toList) = head
    rw [bodyOf, List.singleton_append, List.dropWhile_cons_of_neg (by simp [afterPrefix_append])]
    dsimp only
    rw [if_neg (by simp)]
    exact .nil
  · rw [h2]
    generalize hrest : genValidateImpl (g.typeName n) [] ++ _ = rest
    have e1 : "pub struct ".toList ++ (g.typeName n ++ (" {".toList ++ ('\n' :: u ++ ("}\n\n".toList ++ rest)))) =
        ("pub struct ".toList ++ (g.typeName n ++ " {".toList)) ++ '\n' :: (u ++ (['}'] ++ '\n' :: ('\n' :: rest))) := by
      simp only [List.append_assoc, List.cons_append, List.nil_append]; rfl
    rw [e1, lns_append_nl, lns_single hhead, hu, lns_lined fun l hl => (husn l hl).1, lns_append_nl,
      lns_single (by decide), List.singleton_append, List.singleton_append, bodyOf_found fun l hl => (husn l hl).2.1.ne]
    have := hus []
    rw [List.append_nil] at this
    rw [this, show readFieldLines none [] = [] from rfl, List.append_nil]
    exact h1

/-! ## Cases -/

theorem caseName_of_name (c : EnumCase) : (GenCtx.naming g).case c.name = caseName g c := rfl

theorem mseg_caseMacros {c : EnumCase} (h : QuoteSafe c.name) :
    ∃ a o n, Ref o n c.name ∧
      a = (if c.source = .union ∨ (o = none ∧ n = caseName g c) then none else some (nameAttr [] none o n)) ∧
      MSeg readCaseLines none a (caseMacros g c) [] := by
  cases hs : splitName c.name with
  | mk o m =>
    obtain ⟨h1, h2⟩ := h.split hs
    refine ⟨_, o, m, splitName_iff.1 hs, rfl, ?_⟩
    rw [caseMacros, hs]
    by_cases hu : c.source = .union
    · rw [if_pos hu, if_pos (.inl hu)]; exact mseg_nil _ _
    · rw [if_neg hu]
      cases o with
      | some p =>
        rw [if_neg (by simp [hu]), nameAttr_prefix none (some p) p m rfl]
        refine mseg_attr_case ?_ (by ends) ?_
        · exact nl_append (by decide) (nl_append (h2 p rfl).nl (nl_append (by decide) (nl_append h1.nl (by decide))))
        · simp only [List.append_assoc, List.cons_append]; rfl
      | none =>
        dsimp only
        by_cases hm : m = caseName g c
        · rw [if_pos hm, if_pos (.inr ⟨rfl, hm⟩)]; exact mseg_nil _ _
        · rw [if_neg hm, if_neg (by simp [hu, hm]), nameAttr_rename none m rfl]
          refine mseg_attr_case ?_ (by ends) ?_
          · exact nl_append (by decide) (nl_append h1.nl (by decide))
          · simp only [List.append_assoc, List.cons_append]; rfl

/-- A line with a case. -/
theorem mseg_caseLine {n r t : Str} {ty : Option Str} {a : Option Str} (hn : ∀ d ∈ n, asciiAlnum d = true ∨ d = '_')
    (hr : ty = none ∧ r = [','] ∨ ∃ y, ty = some y ∧ '\n' ∉ y ∧ r = '(' :: (y ++ [')', ',']))
    (ht : t = List.replicate 4 ' ' ++ (n ++ r) ++ ['\n']) : MSeg readCaseLines a none t [⟨a, n, ty⟩] := by
  have hbad : ∀ d, asciiAlnum d = false → d ≠ '_' → d ∉ n := by
    intro d h1 h2 hd
    rcases hn d hd with h | h
    · rw [h1] at h; cases h
    · exact h2 h
  obtain ⟨d, r', hd, e, hnl⟩ : ∃ d r', (d = '(' ∨ d = ',') ∧ r = d :: r' ∧ '\n' ∉ r := by
    rcases hr with ⟨-, rfl⟩ | ⟨y, -, hy, rfl⟩
    · exact ⟨',', [], .inr rfl, rfl, by decide⟩
    · exact ⟨'(', _, .inl rfl, rfl, nl_append (a := ['(']) (by decide) (nl_append hy (by decide))⟩
  have hhead : ∀ c, asciiAlnum c = false → c ≠ '_' → c ≠ '(' → c ≠ ',' → (n ++ r).head? ≠ some c := by
    intro c h1 h2 h3 h4
    cases n with
    | nil =>
      rw [e]; rcases hd with rfl | rfl
      · simpa using fun h => h3 h.symm
      · simpa using fun h => h4 h.symm
    | cons x n =>
      simp only [List.cons_append, List.head?_cons, ne_eq, Option.some.injEq]
      rintro rfl; exact hbad x h1 h2 (by simp)
  refine mseg_line (l := List.replicate 4 ' ' ++ (n ++ r)) ?_ ?_ ?_ ht
  · exact nl_append (by decide) (nl_append (hbad _ (by decide) (by decide)) hnl)
  · have hw : WordText n := by
      intro c hc hb
      rcases hn c hc with h | rfl
      · have : ∀ c ∈ wordBad, asciiAlnum c = false := by decide
        rw [this c hb] at h; cases h
      · revert hb; decide
    have he : lastIsOpen (n ++ r) = false := by
      rcases hr with ⟨-, rfl⟩ | ⟨y, -, -, rfl⟩
      · exact (Ends.app (by decide) _).1
      · have : Ends (n ++ ('(' :: y ++ [')', ','])) := by ends
        exact this.1
    rw [e] at he ⊢
    exact quiet_case hw hd he
  · intro rest
    have h0 : (List.replicate 4 ' ' ++ (n ++ r)).dropWhile (· = ' ') = n ++ r := by
      rw [dropSpaces_replicate]; exact dropSpaces_of_head (hhead _ (by decide) (by decide) (by decide) (by decide))
    have h1 : isCommentLine (n ++ r) = false := isComment_of_head (hhead _ (by decide) (by decide) (by decide) (by decide))
    have h2 : (n ++ r).head? ≠ some '#' := hhead _ (by decide) (by decide) (by decide) (by decide)
    have h3 : n ++ r ≠ [] := by rw [e]; simp
    have h4 : (n ++ r).takeWhile (fun c => decide (c ≠ '(' ∧ c ≠ ',')) = n := by
      rw [e]
      have hall : ∀ x ∈ n, x ≠ '(' ∧ x ≠ ',' := by
        intro x hx
        constructor <;> rintro rfl <;> exact hbad _ (by decide) (by decide) hx
      clear h0 h1 h2 h3 hhead hbad hn e ht hr
      induction n with
      | nil => rcases hd with rfl | rfl <;> rfl
      | cons x n ih =>
        rw [List.cons_append, List.takeWhile_cons_of_pos, ih fun x hx => hall x (by simp [hx])]
        simpa using hall x (by simp)
    rw [readCaseLines, h0, h1, if_neg (by simp), if_neg h2, if_neg h3]
    dsimp only
    rw [h4, List.drop_left]
    rcases hr with ⟨rfl, rfl⟩ | ⟨y, rfl, -, rfl⟩
    · rfl
    · have : ('(' :: (y ++ [')', ','])).dropLast = '(' :: (y ++ [')']) := by
        rw [show '(' :: (y ++ [')', ',']) = ('(' :: (y ++ [')'])) ++ [','] by simp, List.dropLast_concat]
      rw [this, if_neg (by simp)]
      simp

theorem mseg_genCase {c : EnumCase} (h : CaseSafe c) :
    ∃ m, CaseMember (GenCtx.naming g) c m ∧ MSeg readCaseLines none none (genCase g c ++ ['\n']) [m] := by
  obtain ⟨a, o, n, hr, ha, hm⟩ := mseg_caseMacros (g := g) h.1
  refine ⟨⟨a, caseName g c, c.typeName.map fun t => defaultModifyType (g.typeName t) c.typeModifiers⟩,
    ⟨rfl, rfl, o, n, hr, ha⟩, ?_⟩
  rw [genCase]
  cases hty : c.typeName with
  | none =>
    have hl := mseg_caseLine (a := a) (n := caseName g c) (ty := none) (r := [',']) (caseName_chars g c) (.inl ⟨rfl, rfl⟩) rfl
    have h := (mseg_comment skips_case none c.comment 4).app (hm.app hl)
    simp only [List.append_assoc, List.cons_append, List.nil_append] at h ⊢
    exact h
  | some t =>
    have hnl := modifyType_nl (typeName_word g (h.2 t hty)) c.typeModifiers
    have hl := mseg_caseLine (a := a) (n := caseName g c) (ty := some (defaultModifyType (g.typeName t) c.typeModifiers))
      (caseName_chars g c) (.inr ⟨_, rfl, hnl, rfl⟩) rfl
    have h := (mseg_comment skips_case none c.comment 4).app (hm.app hl)
    simp only [List.append_assoc, List.cons_append, List.nil_append, Option.map_some] at h ⊢
    exact h

/-- The cases and the one for everything else. -/
theorem mseg_cases {t : Str} {cs : List EnumCase} (htn : PrefixSafe t) (hc : ∀ c ∈ cs, CaseSafe c) :
    ∃ ms, List.Forall₂ (CaseMember (GenCtx.naming g)) cs ms ∧
      MSeg readCaseLines none none (joinWith "\n".toList (cs.map (genCase g)) ++ ['\n'] ++
        (List.replicate 4 ' ' ++ ("__Unknown__".toList ++ ('(' :: (g.typeName t ++ [')', ',']))) ++ ['\n']))
        (ms ++ [⟨none, "__Unknown__".toList, some (g.typeName t)⟩]) := by
  have hwt := typeName_word g htn
  obtain ⟨ms, h1, h2⟩ : ∃ ms, List.Forall₂ (CaseMember (GenCtx.naming g)) cs ms ∧
      List.Forall₂ (fun t ms => MSeg readCaseLines none none (t ++ ['\n']) ms) (cs.map (genCase g)) (ms.map fun m => [m]) := by
    induction cs with
    | nil => exact ⟨[], .nil, .nil⟩
    | cons d cs ih =>
      obtain ⟨ms, h1, h2⟩ := ih fun c h => hc c (by simp [h])
      obtain ⟨m, h3, h4⟩ := mseg_genCase (g := g) (hc d (by simp))
      exact ⟨m :: ms, .cons h3 h1, .cons h4 h2⟩
  refine ⟨ms, h1, ?_⟩
  have hflat : (ms.map fun m => [m]).flatten = ms := by
    clear h1 h2
    induction ms with
    | nil => rfl
    | cons m ms ih => rw [List.map_cons, List.flatten_cons, ih]; rfl
  have hcases : MSeg readCaseLines none none (joinWith "\n".toList (cs.map (genCase g)) ++ ['\n']) ms := by
    by_cases he : cs.map (genCase g) = []
    · rw [he] at h2 ⊢
      have : ms = [] := by cases ms with
        | nil => rfl
        | cons m ms => cases h2
      subst this
      exact mseg_line (l := []) (by simp) ⟨quiet_nil, fit_nil⟩ (fun rest => skips_case none [] rest (.inr rfl)) rfl
    · have := mseg_joinWith (sep := "\n".toList) ⟨[], rfl, mseg_nil _ _⟩ he h2
      rwa [hflat] at this
  have hunk : MSeg readCaseLines none none (List.replicate 4 ' ' ++ ("__Unknown__".toList ++ ('(' :: (g.typeName t ++ [')', ',']))) ++ ['\n'])
      [⟨none, "__Unknown__".toList, some (g.typeName t)⟩] :=
    mseg_caseLine (by decide) (.inr ⟨_, rfl, hwt.nl, rfl⟩) rfl
  exact hcases.app hunk

/-- The body of an enum. -/
theorem enum_members {n t : Str} {cs : List EnumCase} {c : Option Str} {src : EnumSource} {a : Str}
    (hn : PrefixSafe n) (htn : PrefixSafe t) (hc : ∀ c ∈ cs, CaseSafe c) (ht : SafeNamespace g.targetNs) :
    ∃ ms, List.Forall₂ (CaseMember (GenCtx.naming g)) cs ms ∧
      readCaseLines none (bodyOf ("pub enum ".toList ++ (g.typeName n ++ " {".toList)) (lns (enumText g n cs c t src a))) =
        ms ++ [⟨none, "__Unknown__".toList, some (g.typeName t)⟩] := by
  have hw := typeName_word g hn
  obtain ⟨ms, h1, us, hu, husn, hus⟩ := mseg_cases (g := g) htn hc
  refine ⟨ms, h1, ?_⟩
  obtain ⟨ls, e, hls⟩ := (hashLines_comment c).app (hashLines_enumMacros (g := g) ht src)
  have hhead : '\n' ∉ "pub enum ".toList ++ (g.typeName n ++ " {".toList) :=
    nl_append (by decide) (nl_append hw.nl (by decide))
  delta enumText
  simp only [List.append_assoc]
  generalize hrest : enumDefault (g.typeName n) ++ _ = rest
  have e1 : GenCtx.formatComment c 0 ++ (enumMacros g src ++ ("\npub enum ".toList ++ (g.typeName n ++ (" {\n".toList ++
      (joinWith "\n".toList (cs.map (genCase g)) ++ ("\n".toList ++ (GenCtx.indent ++ ("__Unknown__(".toList ++
      (g.typeName t ++ ("),\n}\n\n".toList ++ rest)))))))))) =
      (GenCtx.formatComment c 0 ++ (enumMacros g src ++ ['\n'])) ++ (("pub enum ".toList ++ (g.typeName n ++ " {".toList)) ++
      '\n' :: ((joinWith "\n".toList (cs.map (genCase g)) ++ ['\n'] ++
      (List.replicate 4 ' ' ++ ("__Unknown__".toList ++ ('(' :: (g.typeName t ++ [')', ',']))) ++ ['\n'])) ++
      (['}'] ++ '\n' :: ('\n' :: rest)))) := by
    simp only [List.append_assoc, List.cons_append, List.nil_append]; rfl
  rw [e1, e, lns_lined fun l hl => (hls l hl).1, bodyOf_skip (by simp) fun l hl => (hls l hl).2, lns_append_nl,
    lns_single hhead, hu, lns_lined fun l hl => (husn l hl).1, lns_append_nl, lns_single (by decide),
    List.singleton_append, List.singleton_append, bodyOf_found fun l hl => (husn l hl).2.1.ne]
  have := hus []
  rw [List.append_nil] at this
  rw [this, show readCaseLines none [] = [] from rfl, List.append_nil]

end Verif.Lemmas.Gen
