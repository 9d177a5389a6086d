import Verif.Props.GenNames
import Verif.Model.Generator
import Verif.Spec.Generator

/-! # The words of generated code -/

namespace Verif.Lemmas.Gen

open Verif Verif.Model Verif.Spec Inflector

/-- Characters which do not occur in the name of a type. -/
def wordBad : List Char := [' ', '\n', '"', '\'', '\\', '/', '(', ')', '[', ']', '{', '}', ',', ';']

def WordText (t : Str) : Prop := ∀ c ∈ t, c ∉ wordBad

theorem WordText.append {a b : Str} (ha : WordText a) (hb : WordText b) : WordText (a ++ b) := by
  intro c hc
  rcases List.mem_append.1 hc with h | h
  · exact ha c h
  · exact hb c h

theorem WordText.cons {c : Char} {b : Str} (ha : c ∉ wordBad) (hb : WordText b) : WordText (c :: b) := by
  intro d hd
  rcases List.mem_cons.1 hd with rfl | h
  · exact ha
  · exact hb d h

theorem wordText_nil : WordText [] := by intro c hc; cases hc

theorem wordText_alnum {s : Str} (h : ∀ c ∈ s, asciiAlnum c = true) : WordText s := by
  intro c hc hb
  have h1 := h c hc
  have : ∀ d ∈ wordBad, asciiAlnum d = false := by decide
  rw [this c hb] at h1
  cases h1

theorem WordText.sanitize {U : UnicodeTable} {s : Str} (h : WordText s) : WordText (sanitize U s) := by
  rcases sanitize_or U s with e | e
  · rw [e]; exact h
  · rw [e]; exact .cons (by decide) h

theorem wordText_pascal (U : UnicodeTable) (n : Str) : WordText (filterTypeName U (toPascalCase U n)) := by
  apply wordText_alnum
  intro c hc
  rw [typeName_eq] at hc
  exact (List.mem_filter.1 hc).2

theorem wordText_safe {p : Str} (h : ∀ c ∈ p, c ∉ codeUnsafe) : WordText p := by
  intro c hc hb
  have : ∀ d ∈ wordBad, d ∈ codeUnsafe := by decide
  exact h c hc (this c hb)

theorem defaultFormatType_word {U : UnicodeTable} {t : Str} (h : PrefixSafe t) (tns : Option Namespace) :
    WordText (defaultFormatType U t tns) := by
  have key : ∀ o n, Ref o n t → WordText (defaultFormatType U t tns) := by
    intro o n hr
    rw [defaultFormatType, splitName_iff.2 hr]
    dsimp only
    apply WordText.sanitize
    have hq : ∀ p, o = some p → WordText (p ++ "::".toList ++ filterTypeName U (toPascalCase U n)) := by
      rintro p rfl
      exact .append (.append (wordText_safe (h p n hr)) (by
        intro c hc; revert c; decide)) (wordText_pascal U n)
    cases o with
    | none => cases nsPrefix tns <;> exact wordText_pascal U n
    | some p =>
      cases nsPrefix tns with
      | none => exact hq p rfl
      | some q =>
        dsimp only
        split
        · exact wordText_pascal U n
        · exact hq p rfl
  cases hs : splitName t with
  | mk o n => exact key o n (splitName_iff.1 hs)

theorem formatTypeName_word {U : UnicodeTable} {t : Str} (h : PrefixSafe t) (tns xsd : Option Namespace) :
    WordText (formatTypeName U tns xsd t) := by
  rw [formatTypeName]
  cases hm : matchBuiltInType t xsd with
  | none => exact defaultFormatType_word h tns
  | some r =>
    obtain ⟨row, h1, -, h2⟩ := (matchBuiltInType_iff t r xsd).1 hm
    have : ∀ row ∈ readmeTable ++ undocumentedTable, ∀ c ∈ row.2.toList, c ∉ wordBad := by decide
    rw [← h2]
    exact this row h1

/-- Names of fields and modules: alphanumeric characters and underscores. -/
def NameText (U : UnicodeTable) (t : Str) : Prop := ∀ c ∈ t, U.isAlphanumeric c = true ∨ c = '_'

theorem name_nameText (U : UnicodeTable) (n : Str) : NameText U (defaultFormatName U n) := by
  have hmem : NameText U (toSnakeCase U (lastSegment n)) := by
    intro c hc
    rcases snakeGo_chars U _ _ 0 true c hc with h | ⟨d, -, h2, h3⟩
    · exact .inr h
    · left; rw [h3, alnum_lower, h2]
  rw [defaultFormatName]
  rcases sanitize_or U (toSnakeCase U (lastSegment n)) with e | e
  · rw [e]; exact hmem
  · rw [e]
    intro c hc
    rcases List.mem_cons.1 hc with rfl | hc
    · exact .inr rfl
    · exact hmem c hc

/-- ASCII characters other than letters, digits and the underscore do not occur in names. -/
theorem NameText.not_mem {U : UnicodeTable} {t : Str} (h : NameText U t) {c : Char} (hc : c.toNat < 128)
    (h1 : asciiAlnum c = false) (h2 : c ≠ '_') : c ∉ t := by
  intro hm
  rcases h c hm with h | h
  · rw [U.alnum_ascii c hc, h1] at h; cases h
  · exact h2 h

theorem NameText.word {U : UnicodeTable} {t : Str} (h : NameText U t) : WordText t := by
  intro c hc hb
  have : ∀ d ∈ wordBad, d.toNat < 128 ∧ asciiAlnum d = false ∧ d ≠ '_' := by decide
  obtain ⟨h1, h2, h3⟩ := this c hb
  exact h.not_mem h1 h2 h3 hc

/-- The reference to a type in a module stays safe. -/
theorem prefixSafe_mod {U : UnicodeTable} (n t : Str) :
    PrefixSafe (defaultFormatName U n ++ "::".toList ++ t) := by
  intro p m hr c hc
  have hn := name_nameText U n
  have hcol : ':' ∉ defaultFormatName U n := hn.not_mem (by decide) (by decide) (by decide)
  have h1 : splitName (defaultFormatName U n ++ "::".toList ++ t) = (some (defaultFormatName U n), ':' :: t) :=
    splitName_some.2 ⟨hcol, by simp⟩
  have h2 := splitName_iff.2 hr
  rw [h1] at h2
  cases h2
  have : ∀ d ∈ codeUnsafe, d.toNat < 128 ∧ asciiAlnum d = false ∧ d ≠ '_' := by decide
  intro hb
  obtain ⟨h1, h2, h3⟩ := this c hb
  exact hn.not_mem h1 h2 h3 hc

theorem qualifyField_safe {U : UnicodeTable} {n : Str} {f : StructField} (h : FieldSafe f) :
    FieldSafe (qualifyField (defaultFormatName U n) f) := by
  obtain ⟨fn, t, c, s, src, m⟩ := f
  simp only [qualifyField]
  split
  · exact h
  · exact ⟨h.1, prefixSafe_mod n t⟩

/-- The name of an enum case. -/
theorem lastPathSegment_go (cur : Str) : ∀ s : Str, (∀ a b, s ≠ a ++ ':' :: ':' :: b) → lastPathSegment.go cur s = cur := by
  intro s
  fun_induction lastPathSegment.go cur s with
  | case1 cur cs ih => intro h; exact absurd rfl (h [] cs)
  | case2 cur c cs h1 ih =>
    intro h
    exact ih fun a b e => h (c :: a) b (by rw [e]; rfl)
  | case3 => intro _; rfl

theorem lastPathSegment_of {s : Str} (h : ∀ a b, s ≠ a ++ ':' :: ':' :: b) : lastPathSegment s = s :=
  lastPathSegment_go s s h

theorem no_sep_of_not_mem {s : Str} (h : ':' ∉ s) (a b : Str) : s ≠ a ++ ':' :: ':' :: b := by
  rintro rfl; exact h (by simp)

theorem lastPathSegment_append {p s : Str} (hp : ':' ∉ p) (hs : ':' ∉ s) (cur : Str) :
    lastPathSegment.go cur (p ++ ':' :: ':' :: s) = s := by
  induction p generalizing cur with
  | nil => rw [List.nil_append, lastPathSegment.go]; exact lastPathSegment_go s s (no_sep_of_not_mem hs)
  | cons c p ih =>
    have hc : c ≠ ':' := by rintro rfl; exact hp (by simp)
    rw [List.cons_append, lastPathSegment.go]
    · exact ih (fun h => hp (by simp [h])) cur
    · intro cs h1 h2; exact hc h1

theorem colon_not_pascal (U : UnicodeTable) (n : Str) : ':' ∉ filterTypeName U (toPascalCase U n) := by
  intro h
  rw [typeName_eq] at h
  have := (List.mem_filter.1 h).2
  revert this; decide

/-- The name of a case: the type name of its local name, sanitized only if the reference has no foreign
prefix. -/
theorem caseName_eq {g : GenCtx} {c : EnumCase} {o : Option Str} {n : Str} (hr : Ref o n c.name) :
    ((o = none ∨ o = g.targetNs.bind (·.name)) → caseName g c = sanitize g.U (filterTypeName g.U (toPascalCase g.U n))) ∧
    (¬ (o = none ∨ o = g.targetNs.bind (·.name)) → caseName g c = filterTypeName g.U (toPascalCase g.U n)) := by
  have hns : ∀ x, nsPrefix x = Option.bind x (·.name) := fun _ => rfl
  have hnot : ':' ∉ sanitize g.U (filterTypeName g.U (toPascalCase g.U n)) := by
    intro h
    rcases sanitize_or g.U (filterTypeName g.U (toPascalCase g.U n)) with e | e
    · rw [e] at h; exact colon_not_pascal _ _ h
    · rw [e] at h
      rcases List.mem_cons.1 h with h | h
      · cases h
      · exact colon_not_pascal _ _ h
  have hbare : lastPathSegment (sanitize g.U (filterTypeName g.U (toPascalCase g.U n))) =
      sanitize g.U (filterTypeName g.U (toPascalCase g.U n)) := lastPathSegment_of (no_sep_of_not_mem hnot)
  rw [caseName, defaultFormatType, splitName_iff.2 hr, ← hns]
  dsimp only
  constructor
  · intro h
    cases o with
    | none => cases nsPrefix g.targetNs <;> exact hbare
    | some p =>
      rcases h with h | h
      · cases h
      · rw [← h]; simpa using hbare
  · intro h
    cases o with
    | none => exact absurd (.inl rfl) h
    | some p =>
      have hp : ':' ∉ p := (splitName_some.1 (splitName_iff.2 hr)).1
      have hq : lastPathSegment (sanitize g.U (p ++ "::".toList ++ filterTypeName g.U (toPascalCase g.U n))) =
          filterTypeName g.U (toPascalCase g.U n) := by
        have : p ++ "::".toList ++ filterTypeName g.U (toPascalCase g.U n) =
            p ++ ':' :: ':' :: filterTypeName g.U (toPascalCase g.U n) := by simp
        rw [this]
        rcases sanitize_or g.U (p ++ ':' :: ':' :: filterTypeName g.U (toPascalCase g.U n)) with e | e
        · rw [e]; exact lastPathSegment_append hp (colon_not_pascal _ _) _
        · rw [e]
          exact lastPathSegment_append (p := '_' :: p) (by simp [hp]) (colon_not_pascal _ _) _
      cases hx : nsPrefix g.targetNs with
      | none => exact hq
      | some q =>
        dsimp only
        rw [if_neg (by rintro rfl; exact h (.inr hx.symm))]
        exact hq

theorem caseName_chars (g : GenCtx) (c : EnumCase) : ∀ d ∈ caseName g c, asciiAlnum d = true ∨ d = '_' := by
  cases hs : splitName c.name with
  | mk o n =>
    have h := caseName_eq (g := g) (splitName_iff.1 hs)
    have hal : ∀ d ∈ filterTypeName g.U (toPascalCase g.U n), asciiAlnum d = true := by
      intro d hd; rw [typeName_eq] at hd; exact (List.mem_filter.1 hd).2
    by_cases hc : o = none ∨ o = g.targetNs.bind (·.name)
    · rw [h.1 hc]
      intro d hd
      rcases sanitize_or g.U (filterTypeName g.U (toPascalCase g.U n)) with e | e
      · rw [e] at hd; exact .inl (hal d hd)
      · rw [e] at hd
        rcases List.mem_cons.1 hd with rfl | hd
        · exact .inr rfl
        · exact .inl (hal d hd)
    · rw [h.2 hc]
      intro d hd
      exact .inl (hal d hd)

theorem caseName_word (g : GenCtx) (c : EnumCase) : WordText (caseName g c) := by
  intro d hd hb
  have : ∀ d ∈ wordBad, asciiAlnum d = false ∧ d ≠ '_' := by decide
  rcases caseName_chars g c d hd with h | h
  · rw [(this d hb).1] at h; cases h
  · exact (this d hb).2 h

/-- Modified types: words, except for the unit type. -/
theorem modifyType_word {t : Str} (h : WordText t) {ms : List TypeModifier} (hm : .empty ∉ ms) :
    WordText (defaultModifyType t ms) := by
  have hv : ∀ {t : Str}, WordText t → WordText ("Vec<".toList ++ t ++ ">".toList) := fun h =>
    .append (.append (by intro c hc; revert c; decide) h) (by intro c hc; revert c; decide)
  have ho : ∀ {t : Str}, WordText t → WordText ("Option<".toList ++ t ++ ">".toList) := fun h =>
    .append (.append (by intro c hc; revert c; decide) h) (by intro c hc; revert c; decide)
  rw [defaultModifyType, if_neg (by simpa using hm)]
  split
  · exact hv h
  · clear hm
    rename_i h0
    clear h0
    induction ms generalizing t with
    | nil => exact h
    | cons m ms ih =>
      rw [List.foldl_cons]
      apply ih
      cases m
      · exact h
      · exact hv h
      · exact ho h
      · exact h
      · exact h

theorem modifyType_empty {t : Str} {ms : List TypeModifier} (hm : .empty ∈ ms) :
    defaultModifyType t ms = "()".toList := by
  rw [defaultModifyType, if_pos (by simpa using hm)]

theorem comment_lines (doc : Option Str) (indent : Nat) :
    ∃ ls : List Str, GenCtx.formatComment doc indent = ls.flatMap (· ++ ['\n']) ∧
      ∀ l ∈ ls, '\n' ∉ l ∧ ∃ rest, l = List.replicate indent ' ' ++ '/' :: '/' :: rest :=
  Props.C34_every_line doc 80 indent

end Verif.Lemmas.Gen
