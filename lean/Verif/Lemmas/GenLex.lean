import Verif.Lemmas.GenText

/-! # Brackets, strings and comments of generated code -/

namespace Verif.Lemmas.Gen

open Verif Verif.Model Verif.Spec Inflector

theorem lexRun_append (s : LexMode × List Char) (a b : Str) :
    lexRun s (a ++ b) = (lexRun s a).bind fun s' => lexRun s' b := by
  induction a generalizing s with
  | nil => rfl
  | cons c a ih =>
    rw [List.cons_append, lexRun, lexRun]
    cases h : lexStep s c with
    | none => rfl
    | some s' => simp only [Option.bind_some]; exact ih s'

/-- From mode `m` with the brackets `a` open, to mode `m'` with the brackets `b` open, whatever else is
open. -/
def LexFrom (m : LexMode) (a : List Char) (t : Str) (m' : LexMode) (b : List Char) : Prop :=
  ∀ stk, lexRun (m, a ++ stk) t = some (m', b ++ stk)

theorem LexFrom.app {m m' m'' : LexMode} {a b c : List Char} {t u : Str} (h : LexFrom m a t m' b)
    (h' : LexFrom m' b u m'' c) : LexFrom m a (t ++ u) m'' c := by
  intro stk
  rw [lexRun_append, h stk, Option.bind_some, h' stk]

theorem LexFrom.push {m m' : LexMode} {a b : List Char} {t : Str} (h : LexFrom m a t m' b) (c : List Char) :
    LexFrom m (a ++ c) t m' (b ++ c) := by
  intro stk
  have := h (c ++ stk)
  simpa [List.append_assoc] using this

/-- A text which leaves everything as it was. -/
def Neutral (t : Str) : Prop := LexFrom .code [] t .code []

theorem Neutral.at {t : Str} (h : Neutral t) (a : List Char) : LexFrom .code a t .code a := by
  have := LexFrom.push h a
  simpa using this

theorem Neutral.app {a b : Str} (ha : Neutral a) (hb : Neutral b) : Neutral (a ++ b) := LexFrom.app ha hb
theorem neutral_nil : Neutral [] := fun _ => rfl

theorem neutral_flatten {ts : List Str} (h : ∀ t ∈ ts, Neutral t) : Neutral ts.flatten := by
  induction ts with
  | nil => exact neutral_nil
  | cons t ts ih => exact .app (h t (by simp)) (ih fun t ht => h t (by simp [ht]))

theorem neutral_flatMap {α : Type} {f : α → Str} {ts : List α} (h : ∀ t ∈ ts, Neutral (f t)) :
    Neutral (ts.flatMap f) := by
  rw [List.flatMap_def]
  apply neutral_flatten
  intro t ht
  obtain ⟨a, h1, rfl⟩ := List.mem_map.1 ht
  exact h a h1

theorem neutral_joinWith {sep : Str} (hs : Neutral sep) {ts : List Str} (h : ∀ t ∈ ts, Neutral t) :
    Neutral (joinWith sep ts) := by
  cases ts with
  | nil => exact neutral_nil
  | cons t ts => exact .app (h t (by simp)) (neutral_flatMap fun u hu => .app hs (h u (by simp [hu])))

/-- Characters without meaning for the scanner. -/
theorem neutral_plain {t : Str} (h : ∀ c ∈ t, c ∉ ['"', '/', '\'', '(', ')', '[', ']', '{', '}']) : Neutral t := by
  induction t with
  | nil => exact neutral_nil
  | cons c t ih =>
    have hc := h c (by simp)
    have : Neutral [c] := by
      intro stk
      simp only [List.mem_cons, List.not_mem_nil, or_false, not_or] at hc
      simp [lexRun, lexStep, lexCode, hc]
    exact Neutral.app this (ih fun d hd => h d (by simp [hd]))

theorem WordText.neutral {t : Str} (h : WordText t) : Neutral t := by
  apply neutral_plain
  intro c hc hb
  have : ∀ d ∈ ['"', '/', '\'', '(', ')', '[', ']', '{', '}'], d ∈ wordBad := by decide
  exact h c hc (this c hb)

theorem neutral_spaces (n : Nat) : Neutral (List.replicate n ' ') := by
  apply neutral_plain
  intro c hc
  rw [(List.mem_replicate.1 hc).2]; decide

/-- Inside a string literal. -/
theorem _root_.Verif.Spec.QuoteSafe.lex {s : Str} (h : QuoteSafe s) (a : List Char) : LexFrom .str a s .str a := by
  intro stk
  induction s with
  | nil => rfl
  | cons c s ih =>
    have hc := h c (by simp)
    rw [lexRun, lexStep, if_neg hc.1, if_neg hc.2.1, Option.bind_some]
    exact ih fun d hd => h d (by simp [hd])

theorem _root_.Verif.Spec.QuoteSafe.append {a b : Str} (ha : QuoteSafe a) (hb : QuoteSafe b) : QuoteSafe (a ++ b) := by
  intro c hc
  rcases List.mem_append.1 hc with h | h
  · exact ha c h
  · exact hb c h

theorem WordText.quote {s : Str} (h : WordText s) : QuoteSafe s := by
  intro c hc
  have h1 := h c hc
  refine ⟨?_, ?_, ?_⟩ <;> rintro rfl <;> exact h1 (by decide)

theorem lex_comment {s : Str} (h : '\n' ∉ s) (a : List Char) : LexFrom .comment a s .comment a := by
  intro stk
  induction s with
  | nil => rfl
  | cons c s ih =>
    have hc : c ≠ '\n' := by rintro rfl; exact h (by simp)
    rw [lexRun, lexStep, if_neg hc, Option.bind_some]
    exact ih fun h' => h (by simp [h'])

theorem neutral_comment (doc : Option Str) (indent : Nat) : Neutral (GenCtx.formatComment doc indent) := by
  obtain ⟨ls, h1, h2⟩ := comment_lines doc indent
  rw [h1]
  apply neutral_flatMap
  intro l hl
  obtain ⟨hn, rest, rfl⟩ := h2 l hl
  refine LexFrom.app (m' := .comment) (b := []) ?_ (fun _ => rfl)
  have : List.replicate indent ' ' ++ '/' :: '/' :: rest = (List.replicate indent ' ' ++ "//".toList) ++ rest := by simp
  rw [this]
  refine LexFrom.app (LexFrom.app (neutral_spaces indent) (m'' := .comment) (c := []) (fun _ => rfl)) (lex_comment ?_ [])
  intro h; exact hn (by simp [h])

/-- The comment where a line comment was already begun: it goes on until the end of the first line. -/
theorem lex_comment_in_comment (doc : Option Str) (a : List Char) :
    (GenCtx.formatComment doc 0 = [] ∧ LexFrom .comment a (GenCtx.formatComment doc 0) .comment a) ∨
    (GenCtx.formatComment doc 0 ≠ [] ∧ LexFrom .comment a (GenCtx.formatComment doc 0) .code a) := by
  obtain ⟨ls, h1, h2⟩ := comment_lines doc 0
  rw [h1]
  cases ls with
  | nil => exact .inl ⟨rfl, fun _ => rfl⟩
  | cons l ls =>
    refine .inr ⟨by simp, ?_⟩
    rw [List.flatMap_cons]
    refine LexFrom.app (LexFrom.app (lex_comment (h2 l (by simp)).1 a) (m'' := .code) (c := a) fun _ => rfl) ?_
    apply Neutral.at
    apply neutral_flatMap
    intro l hl
    obtain ⟨hn, rest, rfl⟩ := h2 l (by simp [hl])
    refine LexFrom.app (m' := .comment) (b := []) ?_ (fun _ => rfl)
    have : List.replicate 0 ' ' ++ '/' :: '/' :: rest = "//".toList ++ rest := by simp
    rw [this]
    refine LexFrom.app (m' := .comment) (b := []) (fun _ => rfl) (lex_comment ?_ [])
    intro h; exact hn (by simp [h])

/-- A literal text is run by evaluation. -/
theorem lit {m m' : LexMode} {a b : List Char} {t : Str} (h : lexRun (m, a) t = some (m', b)) : LexFrom m a t m' b := by
  intro stk
  have key : ∀ (s s' : LexMode × List Char) (c : Char), lexStep s c = some s' →
      lexStep (s.1, s.2 ++ stk) c = some (s'.1, s'.2 ++ stk) := by
    have hcode : ∀ (l : List Char) (s' : LexMode × List Char) (c : Char), lexCode l c = some s' →
        lexCode (l ++ stk) c = some (s'.1, s'.2 ++ stk) := by
      intro l s' c h
      unfold lexCode at h ⊢
      repeat' split at h
      all_goals first | (cases h; done) | skip
      all_goals (cases h)
      all_goals simp_all
    rintro ⟨m, l⟩ s' c h
    cases m with
    | code => exact hcode l s' c h
    | slash =>
      simp only [lexStep] at h ⊢
      repeat' split at h
      · cases h; simp_all
      · cases h
      · simp_all; exact hcode _ _ _ _ h
    | comment => simp only [lexStep] at h ⊢; split at h <;> (cases h; simp_all)
    | str =>
      simp only [lexStep] at h ⊢
      repeat' split at h
      all_goals (cases h; simp_all)
    | esc => simp only [lexStep] at h ⊢; cases h; rfl
  suffices h' : ∀ (s s' : LexMode × List Char), lexRun s t = some s' → lexRun (s.1, s.2 ++ stk) t = some (s'.1, s'.2 ++ stk) from
    h' _ _ h
  clear h
  induction t with
  | nil => intro s s' h; cases h; rfl
  | cons c t ih =>
    intro s s' h
    rw [lexRun] at h ⊢
    obtain ⟨s1, h1, h2⟩ := Option.bind_eq_some_iff.1 h
    rw [key _ _ _ h1, Option.bind_some]
    exact ih _ _ h2

/-! ## The pieces -/

variable {g : GenCtx}

theorem typeName_word (g : GenCtx) {t : Str} (h : PrefixSafe t) : WordText (g.typeName t) :=
  formatTypeName_word h g.targetNs g.xsdNs

theorem neutral_typeName (g : GenCtx) {t : Str} (h : PrefixSafe t) : Neutral (g.typeName t) :=
  (typeName_word g h).neutral

theorem neutral_name (g : GenCtx) (n : Str) : Neutral (g.name n) := (name_nameText g.U n).word.neutral

theorem neutral_modifyType {t : Str} (h : WordText t) (ms : List TypeModifier) : Neutral (defaultModifyType t ms) := by
  by_cases hm : .empty ∈ ms
  · rw [modifyType_empty hm]; exact (lit (by decide +kernel))
  · exact (modifyType_word h hm).neutral

theorem splitName_mem {s : Str} {o : Option Str} {n : Str} (h : splitName s = (o, n)) :
    (∀ c ∈ n, c ∈ s) ∧ ∀ p, o = some p → ∀ c ∈ p, c ∈ s := by
  cases o with
  | none =>
    obtain ⟨-, rfl⟩ := splitName_none.1 h
    exact ⟨fun _ h => h, fun _ h => by cases h⟩
  | some p =>
    obtain ⟨-, rfl⟩ := splitName_some.1 h
    refine ⟨fun c hc => by simp [hc], ?_⟩
    rintro q hq c hc
    cases hq
    simp [hc]

theorem _root_.Verif.Spec.QuoteSafe.split {s : Str} (hs : QuoteSafe s) {o : Option Str} {n : Str} (h : splitName s = (o, n)) :
    QuoteSafe n ∧ ∀ p, o = some p → QuoteSafe p :=
  ⟨fun c hc => hs c ((splitName_mem h).1 c hc), fun p hp c hc => hs c ((splitName_mem h).2 p hp c hc)⟩

theorem neutral_indent : Neutral GenCtx.indent := (lit (by decide +kernel))

theorem neutral_yaserdeForAttribute {n : Str} (h : QuoteSafe n) : Neutral (yaserdeForAttribute n GenCtx.indent) := by
  rw [yaserdeForAttribute]
  cases hs : splitName n with
  | mk o m =>
    cases o with
    | none =>
      exact (LexFrom.app (LexFrom.app (LexFrom.app neutral_indent (m'' := .str) (c := [')', ']']) (lit (by decide +kernel)))
        (h.lex _)) (lit (by decide +kernel)))
    | some p =>
      exact (LexFrom.app (LexFrom.app (LexFrom.app (LexFrom.app (LexFrom.app neutral_indent
        (m'' := .str) (c := [')', ']']) (lit (by decide +kernel))) ((h.split hs).2 p rfl |>.lex _))
        (m'' := .str) (c := [')', ']']) (lit (by decide +kernel))) ((h.split hs).1.lex _)) (lit (by decide +kernel)))

theorem neutral_prefixRename {p n : Str} (hp : QuoteSafe p) (hn : QuoteSafe n) :
    Neutral (GenCtx.indent ++ "#[yaserde(prefix = \"".toList ++ p ++ "\", rename = \"".toList ++ n ++ "\")]\n".toList) :=
  LexFrom.app (LexFrom.app (LexFrom.app (LexFrom.app (LexFrom.app neutral_indent
    (m'' := .str) (c := [')', ']']) (lit (by decide +kernel))) (hp.lex _))
    (m'' := .str) (c := [')', ']']) (lit (by decide +kernel))) (hn.lex _)) (lit (by decide +kernel))

theorem neutral_rename {n : Str} (hn : QuoteSafe n) :
    Neutral (GenCtx.indent ++ "#[yaserde(rename = \"".toList ++ n ++ "\")]\n".toList) :=
  LexFrom.app (LexFrom.app (LexFrom.app neutral_indent (m'' := .str) (c := [')', ']']) (lit (by decide +kernel))) (hn.lex _)) (lit (by decide +kernel))

theorem _root_.Verif.Spec.SafeNamespace.pre {ns : Option Namespace} (h : SafeNamespace ns) {p : Str} (hp : nsPrefix ns = some p) :
    QuoteSafe p := by
  cases ns with
  | none => cases hp
  | some n => exact (h n rfl).2 p hp

theorem neutral_yaserdeForElement {n : Str} (h : QuoteSafe n) {tns : Option Namespace} (ht : SafeNamespace tns) :
    Neutral (yaserdeForElement n tns GenCtx.indent) := by
  rw [yaserdeForElement]
  cases hs : splitName n with
  | mk o m =>
    cases o with
    | some p => exact neutral_prefixRename ((h.split hs).2 p rfl) (h.split hs).1
    | none =>
      dsimp only
      cases hp : nsPrefix tns with
      | none => exact neutral_rename h
      | some p => exact neutral_prefixRename (ht.pre hp) h

theorem neutral_fieldMacros {f : StructField} (h : QuoteSafe f.name) (ht : SafeNamespace g.targetNs) :
    Neutral (fieldMacros g f) := by
  rw [fieldMacros]
  cases f.source
  · exact neutral_yaserdeForAttribute h
  · exact neutral_yaserdeForElement h ht
  · exact neutral_nil
  · exact fun _ => rfl
  · exact neutral_nil

theorem neutral_genField {f : StructField} (h : FieldSafe f) (ht : SafeNamespace g.targetNs) :
    Neutral (genField g f) := by
  rw [genField]
  split
  · exact neutral_nil
  · exact .app (.app (.app (.app (.app (.app (.app (neutral_comment _ _) (neutral_fieldMacros h.1 ht)) neutral_indent)
      (lit (by decide +kernel))) (neutral_name g _)) (lit (by decide +kernel))) (neutral_modifyType (typeName_word g h.2) _)) (lit (by decide +kernel))

theorem neutral_genFields {n : Str} {fs : List StructField} (h : ∀ f ∈ fs, FieldSafe f) (ht : SafeNamespace g.targetNs) :
    Neutral (genFields g n fs) := by
  rw [genFields]
  have : Neutral (joinWith "\n\n".toList
      ((fs.map fun f => genField g (qualifyField (g.name n) f)).filter (· ≠ []))) := by
    apply neutral_joinWith (lit (by decide +kernel))
    intro t ht'
    obtain ⟨f, h1, rfl⟩ := List.mem_map.1 (List.mem_filter.1 ht').1
    exact neutral_genField (qualifyField_safe (h f h1)) ht
  split
  · exact this
  · exact .app (.app (lit (by decide +kernel)) this) (lit (by decide +kernel))

theorem neutral_yaserdeNs {p u : Str} (hp : QuoteSafe p) (hu : QuoteSafe u) {d : Str} (hd : Neutral d) :
    Neutral (d ++ "#[yaserde(prefix = \"".toList ++ p ++ "\", namespace = \"".toList ++ p ++ ": ".toList ++ u ++
      "\")]\n".toList) :=
  LexFrom.app (LexFrom.app (LexFrom.app (LexFrom.app (LexFrom.app (LexFrom.app (LexFrom.app hd
    (m'' := .str) (c := [')', ']']) (lit (by decide +kernel))) (hp.lex _))
    (m'' := .str) (c := [')', ']']) (lit (by decide +kernel))) (hp.lex _))
    (m'' := .str) (c := [')', ']']) (lit (by decide +kernel))) (hu.lex _)) (lit (by decide +kernel))

theorem neutral_structMacros (ht : SafeNamespace g.targetNs) : Neutral (structMacros g) := by
  rw [structMacros]
  cases hn : g.targetNs with
  | none => exact (lit (by decide +kernel))
  | some ns =>
    obtain ⟨o, u⟩ := ns
    have h := ht _ hn
    cases o with
    | none =>
      exact LexFrom.app (LexFrom.app (LexFrom.app (m' := .code) (b := []) (lit (by decide +kernel))
        (m'' := .str) (c := [')', ']']) (lit (by decide +kernel))) (h.1.lex _)) (lit (by decide +kernel))
    | some p => exact neutral_yaserdeNs (h.2 p rfl) h.1 (lit (by decide +kernel))

theorem neutral_enumMacros (ht : SafeNamespace g.targetNs) (src : EnumSource) : Neutral (enumMacros g src) := by
  rw [enumMacros]
  split
  · exact (lit (by decide +kernel))
  dsimp only
  cases hn : g.targetNs with
  | none => exact (lit (by decide +kernel))
  | some ns =>
    obtain ⟨o, u⟩ := ns
    have h := ht _ hn
    cases o with
    | none =>
      exact LexFrom.app (LexFrom.app (LexFrom.app (m' := .code) (b := []) (lit (by decide +kernel))
        (m'' := .str) (c := [')', ']']) (lit (by decide +kernel))) (h.1.lex _)) (lit (by decide +kernel))
    | some p => exact neutral_yaserdeNs (h.2 p rfl) h.1 (lit (by decide +kernel))

theorem neutral_validate {n : Str} (hn : Neutral n) {body : Str} (hb : Neutral body) :
    Neutral (genValidateImpl n body) := by
  rw [genValidateImpl]
  split
  · exact .app (.app (lit (by decide +kernel)) hn) (lit (by decide +kernel))
  · exact LexFrom.app (LexFrom.app (LexFrom.app (LexFrom.app (m' := .code) (b := []) (lit (by decide +kernel)) hn)
      (m'' := .code) (c := ['}', '}']) (lit (by decide +kernel))) (hb.at _)) (lit (by decide +kernel))

/-! ## Line ends and indentation do not matter -/

theorem lexStep_nl_idem (s s' : LexMode × List Char) (h : lexStep s '\n' = some s') :
    lexStep s' '\n' = some s' ∧ lexStep s' ' ' = some s' := by
  obtain ⟨m, stk⟩ := s
  cases m <;> simp [lexStep, lexCode] at h <;> subst h <;> simp [lexStep, lexCode]

theorem lexRun_replaceTripleNl (t : Str) : ∀ s, lexRun s (replaceTripleNl t) = lexRun s t := by
  fun_induction replaceTripleNl t with
  | case1 cs ih =>
    intro s
    rw [lexRun, lexRun]
    cases h : lexStep s '\n' with
    | none => rfl
    | some s' =>
      obtain ⟨h1, -⟩ := lexStep_nl_idem s s' h
      rw [Option.bind_some, Option.bind_some, ih, lexRun, h1, Option.bind_some, lexRun, h1, Option.bind_some]
  | case2 c cs h0 ih =>
    intro s
    rw [lexRun, lexRun]
    congr 1; funext s'
    exact ih s'
  | case3 => intro s; rfl

theorem lexRun_spaces {s : LexMode × List Char} (h : lexStep s ' ' = some s) (n : Nat) (t : Str) :
    lexRun s (List.replicate n ' ' ++ t) = lexRun s t := by
  induction n with
  | zero => rfl
  | succ n ih => rw [List.replicate_succ, List.cons_append, lexRun, h, Option.bind_some, ih]

/-- The lines, each begun with a line feed and indented unless empty. -/
def indentLines (n : Nat) (ls : List Str) : Str :=
  ls.flatMap fun s => if s ≠ [] then "\n".toList ++ List.replicate n ' ' ++ s else "\n".toList

theorem lexRun_indentLines (n : Nat) (ls : List Str) : ∀ s, lexRun s (indentLines n ls) = lexRun s (ls.flatMap ('\n' :: ·)) := by
  induction ls with
  | nil => intro s; rfl
  | cons l ls ih =>
    intro s
    rw [indentLines, List.flatMap_cons, List.flatMap_cons, ← indentLines]
    have key : lexRun s (if l ≠ [] then "\n".toList ++ List.replicate n ' ' ++ l else "\n".toList) = lexRun s ('\n' :: l) := by
      by_cases hl : l = []
      · subst hl; rfl
      · rw [if_pos hl, List.append_assoc]
        show lexRun s ('\n' :: (List.replicate n ' ' ++ l)) = _
        rw [lexRun, lexRun]
        cases h : lexStep s '\n' with
        | none => rfl
        | some s' => rw [Option.bind_some, Option.bind_some, lexRun_spaces (lexStep_nl_idem s s' h).2]
    rw [lexRun_append, key, lexRun_append]
    congr 1; funext s'
    exact ih s'

theorem flatMap_nl_splitOn (t : Str) : (Str.splitOn '\n' t).flatMap ('\n' :: ·) = '\n' :: t := by
  induction t with
  | nil => rfl
  | cons c t ih =>
    rw [Str.splitOn]
    by_cases h : c = '\n'
    · rw [if_pos h, List.flatMap_cons, ih, h]; rfl
    · rw [if_neg h]
      cases hs : Str.splitOn '\n' t with
      | nil => rw [hs] at ih; simp at ih
      | cons p ps =>
        rw [hs, List.flatMap_cons] at ih
        simp only [List.cons_append, List.cons.injEq, true_and] at ih
        simp [List.flatMap_cons, ih]

theorem shift_eq (t : Str) (n : Nat) :
    shift t (List.replicate n ' ') = List.replicate n ' ' ++ indentLines n (Str.splitOn '\n' (replaceTripleNl t)) := by
  rw [shift, indentLines, List.flatMap_def]
  generalize (List.map _ _ : List Str) = xs
  suffices h : ∀ (xs : List Str) (a : Str), xs.foldl (· ++ ·) a = a ++ xs.flatten from h xs _
  intro xs
  induction xs with
  | nil => simp
  | cons x xs ih => intro a; rw [List.foldl_cons, ih]; simp

theorem neutral_shift {t : Str} (h : Neutral t) (n : Nat) : Neutral (shift t (List.replicate n ' ')) := by
  intro stk
  rw [shift_eq, lexRun_append, neutral_spaces n stk, Option.bind_some, lexRun_indentLines, flatMap_nl_splitOn]
  have : Neutral ('\n' :: replaceTripleNl t) := by
    refine Neutral.app (a := ['\n']) (fun _ => rfl) ?_
    intro stk
    rw [lexRun_replaceTripleNl]
    exact h stk
  exact this stk

theorem neutral_structSubtypes {n a b : Str} (ha : Neutral a) (hb : Neutral b) : Neutral (structSubtypes g n a b) := by
  rw [structSubtypes]
  split
  · exact LexFrom.app (LexFrom.app (LexFrom.app (LexFrom.app (LexFrom.app (LexFrom.app (LexFrom.app (LexFrom.app
      (m' := .code) (b := []) (lit (by decide +kernel)) (neutral_name g n)) (m'' := .code) (c := ['}']) (lit (by decide +kernel)))
      (neutral_indent.at _)) (m'' := .code) (c := ['}']) (lit (by decide +kernel))) (hb.at _)) (m'' := .code) (c := ['}']) (lit (by decide +kernel)))
      ((neutral_shift ha 4).at _)) (lit (by decide +kernel))
  · exact .app (.app hb (lit (by decide +kernel))) ha

theorem neutral_structText {n : Str} {c : Option Str} {fs : List StructField} {a b : Str} (hn : PrefixSafe n)
    (hf : ∀ f ∈ fs, FieldSafe f) (ht : SafeNamespace g.targetNs) (ha : Neutral a) (hb : Neutral b) :
    Neutral (structText g n c fs a b) := by
  rw [structText]
  exact LexFrom.app (LexFrom.app (LexFrom.app (LexFrom.app (LexFrom.app (LexFrom.app (LexFrom.app (LexFrom.app
    (LexFrom.app (LexFrom.app (neutral_comment _ _) (neutral_structMacros ht)) (lit (by decide +kernel))) (neutral_typeName g hn))
    (m'' := .code) (c := ['}']) (lit (by decide +kernel))) ((neutral_genFields hf ht).at _)) (m'' := .code) (c := []) (lit (by decide +kernel)))
    (neutral_validate (neutral_typeName g hn) neutral_nil)) (m'' := .code) (c := []) (lit (by decide +kernel)))
    (neutral_structSubtypes ha hb)) (lit (by decide +kernel))

theorem neutral_caseMacros {c : EnumCase} (h : CaseSafe c) : Neutral (caseMacros g c) := by
  rw [caseMacros]
  split
  · exact neutral_nil
  · cases hs : splitName c.name with
    | mk o n =>
      cases o with
      | some p => exact neutral_prefixRename ((h.1.split hs).2 p rfl) (h.1.split hs).1
      | none =>
        dsimp only
        split
        · exact neutral_nil
        · exact neutral_rename (h.1.split hs).1

theorem neutral_genCase {c : EnumCase} (h : CaseSafe c) : Neutral (genCase g c) := by
  rw [genCase]
  refine .app (.app (.app (.app (.app (neutral_comment _ _) (neutral_caseMacros h)) neutral_indent)
    (caseName_word g c).neutral) ?_) (lit (by decide +kernel))
  cases ht : c.typeName with
  | none => exact neutral_nil
  | some t =>
    exact LexFrom.app (LexFrom.app (m' := .code) (b := [')']) (lit (by decide +kernel))
      ((neutral_modifyType (typeName_word g (h.2 t ht)) _).at _)) (lit (by decide +kernel))

macro "lx" t:term:max m:term:max b:term:max : tactic =>
  `(tactic| refine LexFrom.app (m' := $m) (b := $b) $t ?_)

theorem neutral_enumDefault {n : Str} (h : Neutral n) : Neutral (enumDefault n) := by
  delta enumDefault
  simp only [List.append_assoc]
  lx (lit (by decide +kernel)) .code []
  lx h .code []
  lx (lit (by decide +kernel)) .code ['}']
  lx (neutral_indent.at _) .code ['}']
  lx (lit (by decide +kernel)) .code ['}']
  lx (h.at _) .code ['}']
  exact lit (by decide +kernel)

theorem neutral_enumText {n t : Str} {cs : List EnumCase} {c : Option Str} {src : EnumSource} {a : Str}
    (hn : PrefixSafe n) (htn : PrefixSafe t) (hc : ∀ c ∈ cs, CaseSafe c) (ht : SafeNamespace g.targetNs) (ha : Neutral a) :
    Neutral (enumText g n cs c t src a) := by
  rw [enumText]
  have hn' := neutral_typeName g hn
  have hcs : Neutral (joinWith "\n".toList (cs.map (genCase g))) := by
    apply neutral_joinWith (lit (by decide +kernel))
    intro x hx
    obtain ⟨c, h1, rfl⟩ := List.mem_map.1 hx
    exact neutral_genCase (hc c h1)
  simp only [List.append_assoc]
  lx (neutral_comment _ _) .code []
  lx (neutral_enumMacros ht src) .code []
  lx (lit (by decide +kernel)) .code []
  lx hn' .code []
  lx (lit (by decide +kernel)) .code ['}']
  lx (hcs.at _) .code ['}']
  lx (lit (by decide +kernel)) .code ['}']
  lx (neutral_indent.at _) .code ['}']
  lx (lit (by decide +kernel)) .code [')', '}']
  lx ((neutral_typeName g htn).at _) .code [')', '}']
  lx (lit (by decide +kernel)) .code []
  lx (neutral_enumDefault hn') .code []
  lx (lit (by decide +kernel)) .code []
  lx (neutral_validate hn' neutral_nil) .code []
  lx (lit (by decide +kernel)) .code []
  lx ha .code []
  exact lit (by decide +kernel)

theorem neutral_bound {kind op expect n v t : Str} (hk : QuoteSafe kind) (hop : Neutral op) (he : QuoteSafe expect)
    (hn : WordText n) (hv : QuoteSafe v) (ht : Neutral t) : Neutral (genBoundValidation kind op expect n v t) := by
  delta genBoundValidation
  have hnq := hn.quote
  simp only [List.append_assoc]
  lx (lit (by decide +kernel)) .code []
  lx hn.neutral .code []
  lx (lit (by decide +kernel)) .code []
  lx hop .code []
  lx (lit (by decide +kernel)) .str []
  lx (hv.lex _) .str []
  lx (lit (by decide +kernel)) .code []
  lx ht .code []
  lx (lit (by decide +kernel)) .str [')', ')', '}']
  lx (hk.lex _) .str [')', ')', '}']
  lx (lit (by decide +kernel)) .str [')', ')', '}']
  lx (hnq.lex _) .str [')', ')', '}']
  lx (lit (by decide +kernel)) .str [')', ')', '}']
  lx (hnq.lex _) .str [')', ')', '}']
  lx (lit (by decide +kernel)) .str [')', ')', '}']
  lx (he.lex _) .str [')', ')', '}']
  lx (lit (by decide +kernel)) .str [')', ')', '}']
  lx (hv.lex _) .str [')', ')', '}']
  lx (lit (by decide +kernel)) .str [')', ')', '}']
  lx (hnq.lex _) .str [')', ')', '}']
  lx (lit (by decide +kernel)) .code [')', ')', '}']
  lx (hn.neutral.at _) .code [')', ')', '}']
  exact lit (by decide +kernel)

theorem neutral_len {pre kind op expect n v : Str} (hp : Neutral pre) (hk : QuoteSafe kind) (hop : Neutral op)
    (he : QuoteSafe expect) (hn : WordText n) (hv : WordText v) :
    Neutral (genLenValidation pre kind op expect n v) := by
  delta genLenValidation
  have hnq := hn.quote
  simp only [List.append_assoc]
  lx hp .code []
  lx (lit (by decide +kernel)) .code []
  lx hn.neutral .code []
  lx (lit (by decide +kernel)) .code []
  lx hop .code []
  lx (lit (by decide +kernel)) .code []
  lx hv.neutral .code []
  lx (lit (by decide +kernel)) .str [')', ')', '}']
  lx (hk.lex _) .str [')', ')', '}']
  lx (lit (by decide +kernel)) .str [')', ')', '}']
  lx (hnq.lex _) .str [')', ')', '}']
  lx (lit (by decide +kernel)) .str [')', ')', '}']
  lx (he.lex _) .str [')', ')', '}']
  lx (lit (by decide +kernel)) .str [')', ')', '}']
  lx (hv.quote.lex _) .str [')', ')', '}']
  lx (lit (by decide +kernel)) .str [')', ')', '}']
  lx (hnq.lex _) .str [')', ')', '}']
  lx (lit (by decide +kernel)) .code [')', ')', '}']
  lx (hn.neutral.at _) .code [')', ')', '}']
  exact lit (by decide +kernel)

end Verif.Lemmas.Gen
