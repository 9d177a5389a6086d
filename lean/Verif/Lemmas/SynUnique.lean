import Verif.Lemmas.SynLex

/-! # Texts have one sequence of tokens; the words of items -/

namespace Verif.Lemmas.Syn

open Verif Verif.Spec Verif.Spec.Syn

/-- White space, words, numbers, strings, punctuation. -/
def cls (c : Char) : Nat :=
  if c = ' ' ∨ c = '\n' then 0 else if Syn.digit c then 2 else if wordChar c then 1 else if c = '"' then 3 else 4

theorem cls_word {c : Char} (h1 : wordChar c = true) (h2 : Syn.digit c = false) : cls c = 1 := by
  have h3 : ¬ (c = ' ' ∨ c = '\n') := by rintro (rfl | rfl) <;> exact absurd h1 (by decide)
  simp [cls, h1, h2, h3]

theorem cls_digit {c : Char} (h2 : Syn.digit c = true) : cls c = 2 := by
  have h3 : ¬ (c = ' ' ∨ c = '\n') := by rintro (rfl | rfl) <;> exact absurd h2 (by decide)
  simp [cls, h2, h3]

theorem cls_single {c : Char} (h : c ∈ singles) : cls c = 4 := by
  revert c
  decide

theorem cls_double {a b : Char} (h : [a, b] ∈ doubles) : cls a = 4 := by
  refine cls_single ?_
  simp only [doubles, List.map_cons, List.map_nil, List.mem_cons, List.not_mem_nil, or_false] at h
  rcases h with h | h | h | h | h | h | h | h | h | h | h | h | h | h | h | h <;>
    (have := (List.cons.inj h).1; subst this; decide)

theorem span_unique {p : Char → Bool} : ∀ {w w' s s' : List Char}, (∀ d ∈ w, p d = true) → (∀ d ∈ w', p d = true) →
    (∀ d, s.head? = some d → p d = false) → (∀ d, s'.head? = some d → p d = false) → w ++ s = w' ++ s' → w = w' ∧ s = s'
  | [], [], s, s', _, _, _, _, e => ⟨rfl, e⟩
  | [], c :: w', s, s', _, h2, h3, _, e => by
    cases s with
    | nil => cases e
    | cons d s =>
      obtain ⟨rfl, -⟩ := List.cons.inj e
      have h := h3 d rfl
      rw [h2 d (by simp)] at h
      cases h
  | c :: w, [], s, s', h1, _, _, h4, e => by
    cases s' with
    | nil => cases e
    | cons d s =>
      obtain ⟨rfl, -⟩ := List.cons.inj e
      have h := h4 c rfl
      rw [h1 c (by simp)] at h
      cases h
  | c :: w, c' :: w', s, s', h1, h2, h3, h4, e => by
    have e1 := (List.cons.inj e).1; replace e := (List.cons.inj e).2; subst e1
    obtain ⟨rfl, rfl⟩ := span_unique (fun d hd => h1 d (by simp [hd])) (fun d hd => h2 d (by simp [hd])) h3 h4 e
    exact ⟨rfl, rfl⟩

theorem quoted_unique {w : List Char} (h : Quoted w) : ∀ {w' s s' : List Char}, Quoted w' → w ++ '"' :: s = w' ++ '"' :: s' → w = w' ∧ s = s' := by
  induction h with
  | nil =>
    intro w' s s' h e
    cases h with
    | nil => exact ⟨rfl, (List.cons.inj e).2⟩
    | char h => exact absurd (List.cons.inj e).1.symm h
    | esc => exact absurd (List.cons.inj e).1 (by decide)
  | char h1 h2 _ _ ih =>
    intro w' s s' h e
    cases h with
    | nil => exact absurd (List.cons.inj e).1 h1
    | char _ _ _ h =>
      have e1 := (List.cons.inj e).1; replace e := (List.cons.inj e).2; subst e1
      obtain ⟨rfl, rfl⟩ := ih h e
      exact ⟨rfl, rfl⟩
    | esc => exact absurd (List.cons.inj e).1 h2
  | esc _ _ ih =>
    intro w' s s' h e
    cases h with
    | nil => exact absurd (List.cons.inj e).1 (by decide)
    | char _ h2 => exact absurd (List.cons.inj e).1.symm h2
    | esc _ h =>
      replace e := (List.cons.inj e).2
      have e1 := (List.cons.inj e).1; replace e := (List.cons.inj e).2; subst e1
      obtain ⟨rfl, rfl⟩ := ih h e
      exact ⟨rfl, rfl⟩

theorem line_unique {l l' s s' : List Char} (h : '\n' ∉ l) (h' : '\n' ∉ l') (e : l ++ '\n' :: s = l' ++ '\n' :: s') : l = l' ∧ s = s' := by
  obtain ⟨h1, h2⟩ := span_unique (p := fun c => decide (c ≠ '\n')) (by intro d hd; simp only [decide_eq_true_eq]; rintro rfl; exact h hd)
    (by intro d hd; simp only [decide_eq_true_eq]; rintro rfl; exact h' hd) (by intro d hd; cases hd; rfl) (by intro d hd; cases hd; rfl) e
  exact ⟨h1, (List.cons.inj h2).2⟩

theorem lexed_unique {t : List Char} {ts : List Tok} (h : Lexed t ts) : ∀ {u : List Char} {us : List Tok}, Lexed u us → t = u → ts = us := by
  induction h with
  | nil => intro u us h e; exact (lexed_nil h e.symm).symm
  | @space c s ts hc _ ih =>
    have hk : cls c = 0 := by simp [cls, hc]
    intro u us h e
    cases h with
    | nil => cases e
    | space _ h => exact ih h (List.cons.inj e).2
    | comment => rw [(List.cons.inj e).1] at hk; exact absurd hk (by decide)
    | word h1 h2 => rw [(List.cons.inj e).1, cls_word h1 h2] at hk; cases hk
    | @num w _ _ h1 h2 =>
      cases w with
      | nil => exact absurd rfl h1
      | cons d w => rw [(List.cons.inj e).1, cls_digit (h2 d (by simp))] at hk; cases hk
    | str => rw [(List.cons.inj e).1] at hk; exact absurd hk (by decide)
    | double h => rw [(List.cons.inj e).1, cls_double h] at hk; cases hk
    | single h => rw [(List.cons.inj e).1, cls_single h] at hk; cases hk
  | comment hl _ _ _ ih =>
    intro u us h e
    cases h with
    | nil => cases e
    | space h => rw [← (List.cons.inj e).1] at h; exact absurd h (by decide)
    | comment hl' _ _ h =>
      replace e := (List.cons.inj e).2
      replace e := (List.cons.inj e).2
      exact ih h (line_unique hl hl' e).2
    | word h1 => rw [← (List.cons.inj e).1] at h1; exact absurd h1 (by decide)
    | @num w _ _ h1 h2 =>
      cases w with
      | nil => exact absurd rfl h1
      | cons d w => have := h2 d (by simp); rw [← (List.cons.inj e).1] at this; exact absurd this (by decide)
    | str => exact absurd (List.cons.inj e).1 (by decide)
    | double h =>
      have e1 := (List.cons.inj e).1; replace e := (List.cons.inj e).2; subst e1
      have e1 := (List.cons.inj e).1; replace e := (List.cons.inj e).2; subst e1
      exact absurd h (by decide)
    | single _ h =>
      have e1 := (List.cons.inj e).1; replace e := (List.cons.inj e).2; subst e1
      exact absurd rfl (((h '/' (by rw [← e]; rfl)).2 rfl).1)
  | @word c w s ts h1 h2 h3 h4 _ ih =>
    have hk := cls_word h1 h2
    intro u us h e
    cases h with
    | nil => cases e
    | space h => rw [(List.cons.inj e).1] at hk; rcases h with rfl | rfl <;> exact absurd hk (by decide)
    | comment => rw [(List.cons.inj e).1] at hk; exact absurd hk (by decide)
    | word _ _ h3' h4' h =>
      have e1 := (List.cons.inj e).1; replace e := (List.cons.inj e).2; subst e1
      obtain ⟨rfl, rfl⟩ := span_unique h3 h3' (fun d hd => (h4 d hd).1) (fun d hd => (h4' d hd).1) e
      rw [ih h rfl]
    | @num w _ _ h1 h2 =>
      cases w with
      | nil => exact absurd rfl h1
      | cons d w => rw [(List.cons.inj e).1, cls_digit (h2 d (by simp))] at hk; cases hk
    | str => rw [(List.cons.inj e).1] at hk; exact absurd hk (by decide)
    | double h => rw [(List.cons.inj e).1, cls_double h] at hk; cases hk
    | single h => rw [(List.cons.inj e).1, cls_single h] at hk; cases hk
  | @num w s ts h1 h2 h3 _ _ ih =>
    intro u us h e
    cases w with
    | nil => exact absurd rfl h1
    | cons c w =>
      have hk := cls_digit (h2 c (by simp))
      cases h with
      | nil => cases e
      | space h => rw [(List.cons.inj e).1] at hk; rcases h with rfl | rfl <;> exact absurd hk (by decide)
      | comment => rw [(List.cons.inj e).1] at hk; exact absurd hk (by decide)
      | word h1 h2 => rw [(List.cons.inj e).1, cls_word h1 h2] at hk; cases hk
      | num _ h2' h3' _ h =>
        have hd : ∀ {d}, wordChar d = false → Syn.digit d = false := by
          intro d hd
          by_contra h
          have h : Syn.digit d = true := by simpa using h
          have : asciiAlnum d = true := by
            simp only [asciiAlnum, Bool.or_eq_true]
            exact .inl (.inl h)
          rw [asciiAlnum_wordChar this] at hd
          cases hd
        obtain ⟨e1, rfl⟩ := span_unique h2 h2' (fun d hd' => hd (h3 d hd')) (fun d hd' => hd (h3' d hd')) e
        rw [e1, ih h rfl]
      | str => rw [(List.cons.inj e).1] at hk; exact absurd hk (by decide)
      | double h => rw [(List.cons.inj e).1, cls_double h] at hk; cases hk
      | single h => rw [(List.cons.inj e).1, cls_single h] at hk; cases hk
  | str h1 _ _ ih =>
    intro u us h e
    cases h with
    | nil => cases e
    | space h => rw [← (List.cons.inj e).1] at h; exact absurd h (by decide)
    | comment => exact absurd (List.cons.inj e).1 (by decide)
    | word h1 => rw [← (List.cons.inj e).1] at h1; exact absurd h1 (by decide)
    | @num w _ _ h1 h2 =>
      cases w with
      | nil => exact absurd rfl h1
      | cons d w => have := h2 d (by simp); rw [← (List.cons.inj e).1] at this; exact absurd this (by decide)
    | str h1' _ h =>
      replace e := (List.cons.inj e).2
      obtain ⟨rfl, rfl⟩ := quoted_unique h1 h1' e
      rw [ih h rfl]
    | double h => have := cls_double h; rw [← (List.cons.inj e).1] at this; exact absurd this (by decide)
    | single h => have := cls_single h; rw [← (List.cons.inj e).1] at this; exact absurd this (by decide)
  | @double a b s ts h1 _ ih =>
    have hk := cls_double h1
    intro u us h e
    cases h with
    | nil => cases e
    | space h => rw [(List.cons.inj e).1] at hk; rcases h with rfl | rfl <;> exact absurd hk (by decide)
    | comment =>
      have e1 := (List.cons.inj e).1; replace e := (List.cons.inj e).2; subst e1
      have e1 := (List.cons.inj e).1; replace e := (List.cons.inj e).2; subst e1
      exact absurd h1 (by decide)
    | word h1 h2 => rw [(List.cons.inj e).1, cls_word h1 h2] at hk; cases hk
    | @num w _ _ h1 h2 =>
      cases w with
      | nil => exact absurd rfl h1
      | cons d w => rw [(List.cons.inj e).1, cls_digit (h2 d (by simp))] at hk; cases hk
    | str => rw [(List.cons.inj e).1] at hk; exact absurd hk (by decide)
    | double _ h =>
      have e1 := (List.cons.inj e).1; replace e := (List.cons.inj e).2; subst e1
      have e1 := (List.cons.inj e).1; replace e := (List.cons.inj e).2; subst e1
      rw [ih h e]
    | single _ h =>
      have e1 := (List.cons.inj e).1; replace e := (List.cons.inj e).2; subst e1
      exact absurd h1 (h b (by rw [← e]; rfl)).1
  | @single a s ts h1 h2 _ ih =>
    have hk := cls_single h1
    intro u us h e
    cases h with
    | nil => cases e
    | space h => rw [(List.cons.inj e).1] at hk; rcases h with rfl | rfl <;> exact absurd hk (by decide)
    | comment =>
      have e1 := (List.cons.inj e).1; replace e := (List.cons.inj e).2; subst e1
      exact absurd rfl (((h2 '/' (by rw [e]; rfl)).2 rfl).1)
    | word h1 h2 => rw [(List.cons.inj e).1, cls_word h1 h2] at hk; cases hk
    | @num w _ _ h1 h2 =>
      cases w with
      | nil => exact absurd rfl h1
      | cons d w => rw [(List.cons.inj e).1, cls_digit (h2 d (by simp))] at hk; cases hk
    | str => rw [(List.cons.inj e).1] at hk; exact absurd hk (by decide)
    | @double _ b _ _ h =>
      have e1 := (List.cons.inj e).1; replace e := (List.cons.inj e).2; subst e1
      exact absurd h (h2 b (by rw [e]; rfl)).1
    | single _ _ h =>
      have e1 := (List.cons.inj e).1; replace e := (List.cons.inj e).2; subst e1
      rw [ih h e]

/-! ## Words -/

/-- Words which are not identifiers. -/
def reserved : List String := ["self", "Self", "super", "crate", "return", "if", "pub", "fn", "struct", "enum", "type", "impl", "for", "use", "mod"]

def WordsOk (ts : List Tok) : Prop := ∀ w, Tok.word w ∈ ts → LegalIdent w ∨ w ∈ reserved.map String.toList

theorem wordsOk_nil : WordsOk [] := fun _ h => nomatch h
theorem wordsOk_app {a b : List Tok} (h1 : WordsOk a) (h2 : WordsOk b) : WordsOk (a ++ b) :=
  fun w hw => (List.mem_append.1 hw).elim (h1 w) (h2 w)
theorem wordsOk_op {w : List Char} {a : List Tok} (h : WordsOk a) : WordsOk (.op w :: a) :=
  fun v hv => by rcases List.mem_cons.1 hv with h' | h'; cases h'; exact h v h'
theorem wordsOk_str {w : List Char} {a : List Tok} (h : WordsOk a) : WordsOk (.str w :: a) :=
  fun v hv => by rcases List.mem_cons.1 hv with h' | h'; cases h'; exact h v h'
theorem wordsOk_num {w : List Char} {a : List Tok} (h : WordsOk a) : WordsOk (.num w :: a) :=
  fun v hv => by rcases List.mem_cons.1 hv with h' | h'; cases h'; exact h v h'
theorem wordsOk_word {w : List Char} {a : List Tok} (hw : LegalIdent w) (h : WordsOk a) : WordsOk (.word w :: a) :=
  fun v hv => by rcases List.mem_cons.1 hv with h' | h'; cases h'; exact .inl hw; exact h v h'
theorem wordsOk_kw {s : String} {a : List Tok} (hs : s ∈ reserved) (h : WordsOk a) : WordsOk (kw s :: a) :=
  fun v hv => by rcases List.mem_cons.1 hv with h' | h'; cases h'; exact .inr (List.mem_map.2 ⟨s, hs, rfl⟩); exact h v h'

theorem wordsOk_commas {as : List (List Tok)} (h : ∀ a ∈ as, WordsOk a) : WordsOk (commas as) := by
  cases as with
  | nil => exact wordsOk_nil
  | cons a as =>
    refine wordsOk_app (h a (by simp)) ?_
    intro w hw
    obtain ⟨b, hb, hw⟩ := List.mem_flatMap.1 hw
    exact wordsOk_op (h b (by simp [hb])) w hw

macro "wok" : tactic => `(tactic| repeat' (first | assumption | exact wordsOk_nil | apply wordsOk_commas | apply wordsOk_app | apply wordsOk_op | apply wordsOk_str | apply wordsOk_num | refine wordsOk_kw (by decide) ?_ | refine wordsOk_word (by assumption) ?_))

theorem path_words {p : List Tok} (h : Path p) : WordsOk p := by
  induction h with
  | one h => wok
  | @keyword s h => refine wordsOk_kw ?_ wordsOk_nil; revert h; revert s; decide
  | more _ h ih => wok

theorem ty_words {t : List Tok} (h : Ty t) : WordsOk t := by
  induction h with
  | unit => wok
  | path h => exact path_words h
  | generic h _ _ ih => have := path_words h; wok

theorem meta_words {t : List Tok} (h : Meta t) : WordsOk t := by
  induction h with
  | path h => exact path_words h
  | value h => have := path_words h; wok
  | list h _ ih => have := path_words h; wok

theorem many_words {P : List Tok → Prop} (hP : ∀ t, P t → WordsOk t) {t : List Tok} (h : Many P t) : WordsOk t := by
  induction h with
  | nil => exact wordsOk_nil
  | cons h _ ih => exact wordsOk_app (hP _ h) ih

theorem attr_words {t : List Tok} (h : Attr t) : WordsOk t := by
  cases h with
  | mk h => have := meta_words h; wok

theorem operand_words {t : List Tok} (h : Operand t) : WordsOk t := by
  induction h with
  | unit => wok
  | num => wok
  | str => wok
  | path h => exact path_words h
  | call h _ ih => have := path_words h; wok
  | «macro» h _ ih => have := path_words h; wok
  | field _ ih => wok
  | method _ _ _ ih ih' => wok
  | methodAt _ _ h _ ih ih' => have := ty_words h; wok

theorem cond_words {t : List Tok} (h : Cond t) : WordsOk t := by
  cases h with
  | mk h1 _ h2 => have := operand_words h1; have := operand_words h2; wok

theorem stmt_words {t : List Tok} (h : Stmt t) : WordsOk t := by
  refine Stmt.rec (motive_1 := fun t _ => WordsOk t) (motive_2 := fun t _ => WordsOk t) ?_ ?_ ?_ ?_ h
  · intro e h; have := operand_words h; wok
  · intro as c b h1 h2 _ ih
    have := many_words (fun _ => attr_words) h1
    have := cond_words h2
    wok
  · exact wordsOk_nil
  · intro a b _ _ h1 h2; exact wordsOk_app h1 h2

theorem field_words {t : List Tok} (h : Syn.Field t) : WordsOk t := by
  cases h with
  | mk h1 h2 h3 => have := many_words (fun _ => attr_words) h1; have := ty_words h3; wok

theorem variant_words {t : List Tok} (h : Variant t) : WordsOk t := by
  cases h with
  | bare h1 h2 => have := many_words (fun _ => attr_words) h1; wok
  | «with» h1 h2 h3 => have := many_words (fun _ => attr_words) h1; have := ty_words h3; wok

theorem func_words {t : List Tok} (h : Func t) : WordsOk t := by
  cases h with
  | mk h1 h2 h3 h4 h5 =>
    have := ty_words h3
    have := many_words (fun _ => stmt_words) h4
    have := operand_words h5
    rcases h2 with rfl | rfl <;> wok

theorem item_words {t : List Tok} (h : Syn.Item t) : WordsOk t := by
  refine Syn.Item.rec (motive_1 := fun t _ => WordsOk t) (motive_2 := fun t _ => WordsOk t) ?_ ?_ ?_ ?_ ?_ ?_ ?_ ?_ ?_ h
  · intro as n fs h1 h2 h3
    have := many_words (fun _ => attr_words) h1
    have := many_words (fun _ => field_words) h3
    wok
  · intro as n t h1 h2 h3
    have := many_words (fun _ => attr_words) h1
    have := ty_words h3
    wok
  · intro as n fs h1 h2 h3
    have := many_words (fun _ => attr_words) h1
    have := many_words (fun _ => variant_words) h3
    wok
  · intro n t h1 h2
    have := ty_words h2
    wok
  · intro p t fs h1 h2 h3
    have := path_words h1
    have := ty_words h2
    have := many_words (fun _ => func_words) h3
    wok
  · intro p h; have := path_words h; wok
  · intro n is h1 _ ih; wok
  · exact wordsOk_nil
  · intro a b _ _ h1 h2; exact wordsOk_app h1 h2

/-- The words of code are identifiers, or keywords which the code needs. -/
theorem rust_words {t : List Char} (h : IsRust t) {ts : List Tok} (hl : Lexed t ts) : WordsOk ts := by
  obtain ⟨us, h1, h2⟩ := h
  rw [lexed_unique hl h1 rfl]
  exact many_words (fun _ => item_words) h2

end Verif.Lemmas.Syn
