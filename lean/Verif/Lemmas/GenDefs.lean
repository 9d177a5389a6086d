import Verif.Lemmas.GenRead

/-! # The definitions which are read from generated code -/

namespace Verif.Lemmas.Gen

open Verif Verif.Model Verif.Spec Inflector

attribute [local irreducible] genBoundValidation genLenValidation structText enumText genField genCase

variable {g : GenCtx}

/-! ## Complete lines -/

/-- The text is a sequence of complete lines which takes the open blocks `a` to `b` and has the definitions
`f`, given the path outside. -/
def Seg (a : Blocks) (t : Str) (b : Blocks) (f : Defs) : Prop :=
  ∃ ls : List Str, t = ls.flatMap (· ++ ['\n']) ∧ (∀ l ∈ ls, '\n' ∉ l) ∧
    ∀ stk, stackAfter (a ++ stk) ls = b ++ stk ∧ readDefs (a ++ stk) ls = f (modPath stk)

theorem Seg.app {a b c : Blocks} {t u : Str} {f h : Defs} (h1 : Seg a t b f) (h2 : Seg b u c h) :
    Seg a (t ++ u) c fun p => f p ++ h p := by
  obtain ⟨ls, rfl, hn, hs⟩ := h1
  obtain ⟨ms, rfl, hm, hr⟩ := h2
  refine ⟨ls ++ ms, by rw [List.flatMap_append], ?_, ?_⟩
  · intro l hl
    rcases List.mem_append.1 hl with h | h
    · exact hn l h
    · exact hm l h
  · intro stk
    rw [stackAfter_append, readDefs_append, (hs stk).1, (hs stk).2, (hr stk).1, (hr stk).2]
    exact ⟨rfl, rfl⟩

theorem Seg.congr {a b : Blocks} {t : Str} {f h : Defs} (hs : Seg a t b f) (e : ∀ p, f p = h p) : Seg a t b h := by
  have : f = h := funext e
  rw [← this]; exact hs

theorem Seg.app_none {a b c : Blocks} {t u : Str} {f : Defs} (h1 : Seg a t b f) (h2 : Seg b u c none') :
    Seg a (t ++ u) c f := (h1.app h2).congr fun p => by simp [none']

theorem Seg.none_app {a b c : Blocks} {t u : Str} {f : Defs} (h1 : Seg a t b none') (h2 : Seg b u c f) :
    Seg a (t ++ u) c f := (h1.app h2).congr fun p => by simp [none']

theorem seg_nil (a : Blocks) : Seg a [] a none' := ⟨[], rfl, by simp, fun _ => ⟨rfl, rfl⟩⟩

theorem modPath_none (stk : Blocks) : modPath (none :: stk) = modPath stk := rfl
theorem modPath_some (m : Str) (stk : Blocks) : modPath (some m :: stk) = modPath stk ++ [m] := by
  simp [modPath]

theorem Seg.inNone {a b : Blocks} {t : Str} {f : Defs} (h : Seg a t b f) : Seg (a ++ [none]) t (b ++ [none]) f := by
  obtain ⟨ls, e, hn, hs⟩ := h
  refine ⟨ls, e, hn, fun stk => ?_⟩
  have := hs (none :: stk)
  rw [modPath_none] at this
  simpa using this

theorem Seg.inMod {a b : Blocks} {t : Str} {f : Defs} (h : Seg a t b f) (m : Str) :
    Seg (a ++ [some m]) t (b ++ [some m]) fun p => f (p ++ [m]) := by
  obtain ⟨ls, e, hn, hs⟩ := h
  refine ⟨ls, e, hn, fun stk => ?_⟩
  have := hs (some m :: stk)
  rw [modPath_some] at this
  simpa using this

theorem Seg.push {t : Str} (h : Seg [] t [] none') (a : Blocks) : Seg a t a none' := by
  obtain ⟨ls, e, hn, hs⟩ := h
  exact ⟨ls, e, hn, fun stk => hs (a ++ stk)⟩

theorem seg_line {a b : Blocks} {l : Str} {f : Defs} (hn : '\n' ∉ l)
    (h : ∀ stk, lineStack (a ++ stk) l = b ++ stk ∧ lineDef (a ++ stk) l = f (modPath stk)) {t : Str}
    (ht : t = l ++ ['\n']) : Seg a t b f := by
  refine ⟨[l], by simp [ht], by simpa using hn, fun stk => ?_⟩
  rw [stackAfter, readDefs, (h stk).1, (h stk).2]
  exact ⟨rfl, by simp [readDefs]⟩

theorem seg_quiet {l t : Str} (h : Quiet l) (hn : '\n' ∉ l) (ht : t = l ++ ['\n']) : Seg [] t [] none' :=
  seg_line (a := []) (b := []) (f := none') hn (fun stk => h stk) ht

theorem seg_opens {l t : Str} {x : Option Str} {d : Defs} (h : Opens l x d) (hn : '\n' ∉ l) (ht : t = l ++ ['\n']) :
    Seg [] t [x] d :=
  seg_line (a := []) (b := [x]) hn (fun stk => h stk) ht

theorem seg_closes {l t : Str} {x : Option Str} {a : Blocks} (h : Closes l) (hn : '\n' ∉ l) (ht : t = l ++ ['\n']) :
    Seg (x :: a) t a none' :=
  seg_line hn (fun stk => h (x :: a ++ stk)) ht

theorem seg_empty {t : Str} (ht : t = ['\n']) : Seg [] t [] none' := seg_quiet quiet_nil (by simp) ht

theorem lines_eq (t : Str) : (lns t).flatMap (· ++ ['\n']) = t ++ ['\n'] := by
  have h := flatMap_nl_splitOn t
  have key : ∀ ls : List Str, '\n' :: ls.flatMap (· ++ ['\n']) = ls.flatMap ('\n' :: ·) ++ ['\n'] := by
    intro ls
    induction ls with
    | nil => rfl
    | cons l ls ih =>
      rw [List.flatMap_cons, List.flatMap_cons, List.append_assoc, List.singleton_append, ih]
      simp
  have := key (lns t)
  rw [show (lns t).flatMap ('\n' :: ·) = '\n' :: t from h] at this
  exact (List.cons.inj this).2

theorem seg_of_block {t u : Str} {f : Defs} (h : Block (lns t) f) (hu : u = t ++ ['\n']) : Seg [] u [] f :=
  ⟨lns t, by rw [hu, lines_eq], splitOn_not_mem, h⟩

theorem Seg.block {t : Str} {f : Defs} (h : Seg [] t [] f) : Block (lns t) f := by
  obtain ⟨ls, rfl, hn, hs⟩ := h
  have := lns_lined hn []
  rw [List.append_nil] at this
  rw [this]
  exact Block.app_none hs quiet_nil.block

theorem Seg.flatten {ts : List Str} {fs : List Defs} (h : List.Forall₂ (fun t f => Seg [] t [] f) ts fs) :
    Seg [] ts.flatten [] fun p => (fs.map (· p)).flatten := by
  induction h with
  | nil => exact seg_nil _
  | cons h _ ih => exact h.app ih

theorem Seg.joinWith {ts : List Str} {fs : List Defs} (h : List.Forall₂ (fun t f => Seg [] t [] f) ts fs) :
    Seg [] (joinWith "\n".toList ts) [] fun p => (fs.map (· p)).flatten := by
  cases h with
  | nil => exact seg_nil _
  | cons h hs =>
    refine h.app ?_
    clear h
    induction hs with
    | nil => exact seg_nil _
    | cons h _ ih =>
      rw [List.flatMap_cons]
      exact (Seg.none_app (seg_empty rfl) h).app ih

/-- Texts without their last line end, with a separator between them. -/
theorem seg_joinWith_nl {sep : Str} (hsep : ∃ s, sep = '\n' :: s ∧ Seg [] s [] none') {ts : List Str} (hne : ts ≠ [])
    (h : ∀ t ∈ ts, Seg [] (t ++ ['\n']) [] none') : Seg [] (Model.joinWith sep ts ++ ['\n']) [] none' := by
  obtain ⟨s, rfl, hs⟩ := hsep
  cases ts with
  | nil => exact absurd rfl hne
  | cons t ts =>
    have key : ∀ ts : List Str, (∀ t ∈ ts, Seg [] (t ++ ['\n']) [] none') →
        ∃ u, '\n' :: u = ts.flatMap (('\n' :: s) ++ ·) ++ ['\n'] ∧ Seg [] u [] none' := by
      intro ts
      induction ts with
      | nil => intro _; exact ⟨[], rfl, seg_nil _⟩
      | cons t ts ih =>
        intro h
        obtain ⟨u, e, hu⟩ := ih fun t ht => h t (by simp [ht])
        refine ⟨s ++ ((t ++ ['\n']) ++ u), ?_, hs.none_app ((h t (by simp)).none_app hu)⟩
        rw [List.flatMap_cons, List.append_assoc (('\n' :: s) ++ t), ← e]
        simp only [List.cons_append, List.append_assoc, List.nil_append]
    obtain ⟨u, e, hu⟩ := key ts fun t ht => h t (by simp [ht])
    rw [Model.joinWith, List.append_assoc, ← e]
    have := (h t (by simp)).none_app hu
    simpa using this

/-! ## Single lines of generated code -/

theorem opens_of {l : Str} {x : Option Str} {d : Defs} (h0 : isCommentLine (trimLine l) = false)
    (h1 : (trimLine l).head? ≠ some '}') (h2 : lastIsOpen (trimLine l) = true)
    (h3 : blockName (readHead (trimLine l)) = x)
    (h4 : ∀ p, defAt p (readHead (trimLine l)) = d p) : Opens l x d := by
  intro stk
  rw [lineStack, lineDef, h0, if_neg (by simp), if_neg h1, if_pos h2, h3, if_neg (by simp), h4]
  exact ⟨rfl, rfl⟩

theorem closes_of {l : Str} (h0 : isCommentLine (trimLine l) = false) (h1 : (trimLine l).head? = some '}')
    (h3 : readHead (trimLine l) = none) : Closes l := by
  intro stk
  rw [lineStack, lineDef, h0, if_neg (by simp), if_pos h1, if_neg (by simp), h3]
  exact ⟨rfl, rfl⟩

theorem isComment_of_head {s : Str} (h : s.head? ≠ some '/') : isCommentLine s = false := by
  rw [isCommentLine, show "//".toList = ['/', '/'] from rfl, afterPrefix_head h]; rfl

theorem seg_comment (doc : Option Str) (indent : Nat) : Seg [] (GenCtx.formatComment doc indent) [] none' := by
  obtain ⟨ls, h1, h2⟩ := comment_lines doc indent
  refine ⟨ls, h1, fun l hl => (h2 l hl).1, block_quiet ?_⟩
  intro l hl
  obtain ⟨rest, e⟩ := (h2 l hl).2
  refine quiet_comment (s := rest) ?_
  rw [e, trimLine_spaces]
  exact trimLine_of_head (by simp) (by simp)

theorem WordText.nl {t : Str} (h : WordText t) : '\n' ∉ t := fun hc => h _ hc (by decide)
theorem WordText.sp {t : Str} (h : WordText t) : ' ' ∉ t := fun hc => h _ hc (by decide)
theorem _root_.Verif.Spec.QuoteSafe.nl {t : Str} (h : QuoteSafe t) : '\n' ∉ t := fun hc => (h _ hc).2.2 rfl

theorem takeWhile_word {n : Str} (h : ' ' ∉ n) (r : Str) : (n ++ ' ' :: r).takeWhile (· ≠ ' ') = n := by
  induction n with
  | nil => rfl
  | cons c n ih =>
    rw [List.cons_append, List.takeWhile_cons_of_pos, ih fun hc => h (by simp [hc])]
    simp only [ne_eq, decide_eq_true_eq]
    rintro rfl; exact h (by simp)

/-- `pub <kind> <name> <rest>` -/
theorem readHead_struct {n : Str} (h : ' ' ∉ n) (r : Str) :
    readHead ("pub struct ".toList ++ (n ++ ' ' :: r)) = some (.struct, n) := by
  rw [readHead, afterPrefix_append]; dsimp only; rw [takeWhile_word h]
theorem readHead_enum {n : Str} (h : ' ' ∉ n) (r : Str) :
    readHead ("pub enum ".toList ++ (n ++ ' ' :: r)) = some (.enum, n) := by
  have h1 : afterPrefix "pub struct ".toList ("pub enum ".toList ++ (n ++ ' ' :: r)) = none := rfl
  rw [readHead, h1, afterPrefix_append]; dsimp only; rw [takeWhile_word h]
theorem readHead_mod {n : Str} (h : ' ' ∉ n) (r : Str) :
    readHead ("pub mod ".toList ++ (n ++ ' ' :: r)) = some (.mod, n) := by
  have h1 : afterPrefix "pub struct ".toList ("pub mod ".toList ++ (n ++ ' ' :: r)) = none := rfl
  have h2 : afterPrefix "pub enum ".toList ("pub mod ".toList ++ (n ++ ' ' :: r)) = none := rfl
  rw [readHead, h1, h2, afterPrefix_append]; dsimp only; rw [takeWhile_word h]
theorem readHead_type {n : Str} (h : ' ' ∉ n) (r : Str) :
    readHead ("pub type ".toList ++ (n ++ ' ' :: r)) = some (.type, n) := by
  have h1 : afterPrefix "pub struct ".toList ("pub type ".toList ++ (n ++ ' ' :: r)) = none := rfl
  have h2 : afterPrefix "pub enum ".toList ("pub type ".toList ++ (n ++ ' ' :: r)) = none := rfl
  have h3 : afterPrefix "pub mod ".toList ("pub type ".toList ++ (n ++ ' ' :: r)) = none := rfl
  rw [readHead, h1, h2, h3, afterPrefix_append]; dsimp only; rw [takeWhile_word h]

/-- A definition line which opens a block which is not a module. -/
theorem opens_def {l s : Str} {k : DefKind} {n : Str} (hl : l = 'p' :: s) (hk : k ≠ .mod)
    (hr : readHead l = some (k, n)) (ho : lastIsOpen l = true) : Opens l none fun p => [(p, k, n)] := by
  have ht : trimLine l = l := trimLine_of_head (by rw [hl]; simp) (by rw [hl]; simp)
  apply opens_of <;> rw [ht]
  · apply isComment_of_head; rw [hl]; simp
  · rw [hl]; simp
  · exact ho
  · rw [hr]; cases k <;> first | rfl | exact absurd rfl hk
  · intro p; rw [hr]; rfl

theorem opens_mod {l s n : Str} (hl : l = 'p' :: s) (hr : readHead l = some (.mod, n)) (ho : lastIsOpen l = true) :
    Opens l (some n) fun p => [(p, .mod, n)] := by
  have ht : trimLine l = l := trimLine_of_head (by rw [hl]; simp) (by rw [hl]; simp)
  apply opens_of <;> rw [ht]
  · apply isComment_of_head; rw [hl]; simp
  · rw [hl]; simp
  · exact ho
  · rw [hr]; rfl
  · intro p; rw [hr]; rfl

/-- A definition on one line. -/
theorem seg_def {l s t : Str} {k : DefKind} {n : Str} {i : Nat} (hl : l = 'p' :: s)
    (hr : readHead l = some (k, n)) (ho : lastIsOpen l = false) (hn : '\n' ∉ l)
    (ht : t = List.replicate i ' ' ++ l ++ ['\n']) : Seg [] t [] fun p => [(p, k, n)] := by
  have htr : trimLine l = l := trimLine_of_head (by rw [hl]; simp) (by rw [hl]; simp)
  have h0 : isCommentLine l = false := by apply isComment_of_head; rw [hl]; simp
  have h1 : l.head? ≠ some '}' := by rw [hl]; simp
  refine seg_line (l := List.replicate i ' ' ++ l) ?_ ?_ ht
  · intro h
    rcases List.mem_append.1 h with h | h
    · have := List.mem_replicate.1 h; revert this; simp
    · exact hn h
  · intro stk
    rw [lineStack_spaces, lineDef_spaces, lineStack, lineDef, htr, h0, if_neg (by simp), if_neg h1, ho,
      if_neg (by simp), if_neg (by simp), hr]
    exact ⟨rfl, rfl⟩

/-- Another line which opens a block. -/
theorem opens_other {l s : Str} {i : Nat} {c : Char} (hl : l = List.replicate i ' ' ++ (c :: s))
    (hc : c ∉ ['p', '}', 'u', ' ', '/']) (ho : lastIsOpen (c :: s) = true) : Opens l none none' := by
  simp only [List.mem_cons, List.not_mem_nil, or_false, not_or] at hc
  have hh : (c :: s).head? = some c := rfl
  have ht : trimLine l = c :: s := by
    rw [hl, trimLine_spaces, trimLine_of_head]
    · rw [hh]; simp [hc]
    · rw [hh]; simp [hc]
  have hr : readHead (c :: s) = none := readHead_of_head (by rw [hh]; simp [hc])
  apply opens_of <;> rw [ht]
  · exact isComment_of_head (by rw [hh]; simp [hc])
  · rw [hh]; simp [hc]
  · exact ho
  · rw [hr]; rfl
  · intro p; rw [hr]; rfl

theorem lastIsOpen_open (s : Str) : lastIsOpen (s ++ " {".toList) = true := by
  rw [show " {".toList = [' '] ++ ['{'] from rfl, ← List.append_assoc, lastIsOpen_snoc _ _ (by decide)]; rfl

theorem closes_lit (i : Nat) : Closes (List.replicate i ' ' ++ ['}']) := by
  have ht : trimLine (List.replicate i ' ' ++ ['}']) = ['}'] := by rw [trimLine_spaces]; decide
  apply closes_of <;> rw [ht] <;> decide

/-! ## The pieces -/

macro "sg" t:term:max : tactic => `(tactic| refine Seg.none_app $t ?_)

theorem nl_append {a b : Str} (ha : '\n' ∉ a) (hb : '\n' ∉ b) : '\n' ∉ a ++ b := by
  intro h
  rcases List.mem_append.1 h with h | h
  · exact ha h
  · exact hb h

/-- An attribute line. -/
theorem seg_attr {s t : Str} {i : Nat} (hn : '\n' ∉ s)
    (ht : t = List.replicate i ' ' ++ ('#' :: s ++ [']']) ++ ['\n']) : Seg [] t [] none' := by
  refine seg_quiet (quiet_head rfl (by decide) (by decide)) ?_ ht
  refine nl_append ?_ (nl_append ?_ (by decide))
  · intro h; have := List.mem_replicate.1 h; revert this; simp
  · simpa using hn

theorem seg_fieldMacros {f : StructField} (h : QuoteSafe f.name) (ht : SafeNamespace g.targetNs) :
    Seg [] (fieldMacros g f) [] none' := by
  have hattr : ∀ {s : Str}, '\n' ∉ s → Seg [] (GenCtx.indent ++ ('#' :: s ++ [']', '\n'])) [] none' := by
    intro s hs
    refine seg_attr (i := 4) hs ?_
    simp [GenCtx.indent, GenCtx.indentSize, spaces]
  rw [fieldMacros]
  cases f.source with
  | choice => exact hattr (s := "[yaserde(flatten)".toList) (by decide)
  | «attribute» =>
    dsimp only
    rw [yaserdeForAttribute]
    cases hs : splitName f.name with
    | mk o m =>
      obtain ⟨h1, h2⟩ := h.split hs
      cases o with
      | none =>
        have := hattr (s := "[yaserde(attribute, rename = \"".toList ++ f.name ++ "\")".toList)
          (nl_append (nl_append (by decide) h.nl) (by decide))
        simp only [List.append_assoc, List.cons_append] at this ⊢
        exact this
      | some p =>
        have := hattr (s := "[yaserde(attribute, prefix = \"".toList ++ p ++ "\", rename = \"".toList ++ m ++ "\")".toList)
          (nl_append (nl_append (nl_append (nl_append (by decide) (h2 p rfl).nl) (by decide)) h1.nl) (by decide))
        simp only [List.append_assoc, List.cons_append] at this ⊢
        exact this
  | element =>
    dsimp only
    have hp : ∀ p n : Str, '\n' ∉ p → '\n' ∉ n →
        Seg [] (GenCtx.indent ++ "#[yaserde(prefix = \"".toList ++ p ++ "\", rename = \"".toList ++ n ++ "\")]\n".toList) [] none' := by
      intro p n h1 h2
      have := hattr (s := "[yaserde(prefix = \"".toList ++ p ++ "\", rename = \"".toList ++ n ++ "\")".toList)
          (nl_append (nl_append (nl_append (nl_append (by decide) h1) (by decide)) h2) (by decide))
      simp only [List.append_assoc, List.cons_append] at this ⊢
      exact this
    rw [yaserdeForElement]
    cases hs : splitName f.name with
    | mk o m =>
      obtain ⟨h1, h2⟩ := h.split hs
      cases o with
      | some p => exact hp p m (h2 p rfl).nl h1.nl
      | none =>
        dsimp only
        cases hq : nsPrefix g.targetNs with
        | some p => exact hp p f.name (ht.pre hq).nl h.nl
        | none =>
          have := hattr (s := "[yaserde(rename = \"".toList ++ f.name ++ "\")".toList)
            (nl_append (nl_append (by decide) h.nl) (by decide))
          simp only [List.append_assoc, List.cons_append] at this ⊢
          exact this
  | base => exact seg_nil _
  | na => exact seg_nil _

theorem modifyType_nl {t : Str} (h : WordText t) (ms : List TypeModifier) : '\n' ∉ defaultModifyType t ms := by
  by_cases hm : .empty ∈ ms
  · rw [modifyType_empty hm]; decide
  · exact (modifyType_word h hm).nl

theorem quiet_field {U : UnicodeTable} {n ty : Str} (hname : NameText U n) : Quiet (List.replicate 4 ' ' ++ ("pub ".toList ++ (n ++ ':' :: (' ' :: ty ++ [','])))) := by
  have hsp : ' ' ∉ n := hname.word.sp
  have hpub : ∀ (w : Str), ':' ∉ w → ' ' ∈ w → afterPrefix ("pub ".toList ++ w) ("pub ".toList ++
      (n ++ ':' :: (' ' :: ty ++ [',']))) = none := by
    intro w h1 h2
    rw [afterPrefix_common]
    exact afterPrefix_none h1 h2 hsp
  have htr : trimLine (List.replicate 4 ' ' ++ ("pub ".toList ++ (n ++ ':' :: (' ' :: ty ++ [','])))) =
      "pub ".toList ++ (n ++ ':' :: (' ' :: ty ++ [','])) := by
    rw [trimLine_spaces]
    exact trimLine_of_head (by simp) (by simp)
  apply quiet_of <;> rw [htr]
  · simp
  · rw [show "pub ".toList ++ (n ++ ':' :: (' ' :: ty ++ [','])) =
      ("pub ".toList ++ (n ++ ':' :: (' ' :: ty))) ++ [','] by simp, lastIsOpen_snoc _ _ (by decide)]
    rfl
  · have h1 := hpub "struct ".toList (by decide) (by decide)
    have h2 := hpub "enum ".toList (by decide) (by decide)
    have h3 := hpub "mod ".toList (by decide) (by decide)
    have h4 := hpub "type ".toList (by decide) (by decide)
    rw [readHead]
    rw [show "pub struct ".toList = "pub ".toList ++ "struct ".toList from rfl, h1]
    rw [show "pub enum ".toList = "pub ".toList ++ "enum ".toList from rfl, h2]
    rw [show "pub mod ".toList = "pub ".toList ++ "mod ".toList from rfl, h3]
    rw [show "pub type ".toList = "pub ".toList ++ "type ".toList from rfl, h4]

theorem seg_genField {f : StructField} (h : FieldSafe f) (ht : SafeNamespace g.targetNs) :
    Seg [] (genField g f ++ ['\n']) [] none' := by
  delta genField
  split
  · exact seg_empty rfl
  · simp only [List.append_assoc]
    sg (seg_comment _ _)
    sg (seg_fieldMacros h.1 ht)
    have hname := name_nameText g.U f.name
    have hty := modifyType_nl (typeName_word g h.2) f.typeModifiers
    refine seg_quiet (l := List.replicate 4 ' ' ++ ("pub ".toList ++ (g.name f.name ++ ':' :: (' ' :: fieldTypeName g f ++ [','])))) ?_ ?_ ?_
    · exact quiet_field hname
    · refine nl_append (by decide) (nl_append (by decide) (nl_append hname.word.nl ?_))
      have : '\n' ∉ fieldTypeName g f := hty
      simpa using this
    · simp only [List.append_assoc, List.cons_append, List.nil_append]
      rfl

theorem genFields_seg {n : Str} {fs : List StructField} (h : ∀ f ∈ fs, FieldSafe f) (ht : SafeNamespace g.targetNs) :
    genFields g n fs = [] ∨ ∃ u, genFields g n fs = '\n' :: u ∧ Seg [] u [] none' := by
  rw [genFields]
  generalize hts : (fs.map fun f => genField g (qualifyField (g.name n) f)).filter (· ≠ []) = ts
  split
  · left; assumption
  · rename_i hj
    right
    have hne : ts ≠ [] := by rintro rfl; exact hj rfl
    refine ⟨joinWith "\n\n".toList ts ++ ['\n'], rfl, seg_joinWith_nl ⟨['\n'], rfl, seg_empty rfl⟩ hne ?_⟩
    intro t htt
    rw [← hts] at htt
    obtain ⟨f, hf, rfl⟩ := List.mem_map.1 (List.mem_filter.1 htt).1
    exact seg_genField (qualifyField_safe (h f hf)) ht

theorem seg_nsMacros {d : Str} (hd : ∃ s, d = '#' :: s ++ [']'] ∧ '\n' ∉ s) (ht : SafeNamespace g.targetNs) :
    Seg [] (match g.targetNs with
      | some ⟨some p, uri⟩ =>
        d ++ "#[yaserde(prefix = \"".toList ++ p ++ "\", namespace = \"".toList ++ p ++ ": ".toList ++ uri ++ "\")]\n".toList
      | some ⟨none, uri⟩ => d ++ "#[yaserde(namespace = \"".toList ++ uri ++ "\")]\n".toList
      | none => d ++ "#[yaserde()]\n".toList) [] none' := by
  obtain ⟨s, rfl, hs⟩ := hd
  have key : ∀ {r : Str}, '\n' ∉ r → Seg [] ('#' :: s ++ [']'] ++ (r ++ [']', '\n'])) [] none' := by
    intro r hr
    refine seg_attr (i := 0) (s := s ++ ']' :: r) (nl_append hs (by simpa using hr)) ?_
    simp
  cases hn : g.targetNs with
  | none => exact key (r := "#[yaserde()".toList) (by decide)
  | some ns =>
    obtain ⟨o, uri⟩ := ns
    have hns := ht ⟨o, uri⟩ hn
    cases o with
    | none =>
      have := key (r := "#[yaserde(namespace = \"".toList ++ uri ++ "\")".toList)
        (nl_append (nl_append (by decide) hns.1.nl) (by decide))
      simp only [List.append_assoc, List.cons_append] at this ⊢
      exact this
    | some p =>
      have hp := (hns.2 p rfl).nl
      have := key (r := "#[yaserde(prefix = \"".toList ++ p ++ "\", namespace = \"".toList ++ p ++ ": ".toList ++ uri ++ "\")".toList)
        (nl_append (nl_append (nl_append (nl_append (nl_append (nl_append (by decide) hp) (by decide)) hp) (by decide)) hns.1.nl) (by decide))
      simp only [List.append_assoc, List.cons_append] at this ⊢
      exact this

end Verif.Lemmas.Gen
