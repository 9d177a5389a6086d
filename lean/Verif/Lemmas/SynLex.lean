import Verif.Spec.Syntax
import Verif.Lemmas.GenItems2

/-! # Tokens of generated code -/

namespace Verif.Lemmas.Syn

open Verif Verif.Spec Verif.Spec.Syn

abbrev Str := List Char

/-- Has these tokens, whatever follows. -/
def Seg (t : Str) (ts : List Tok) : Prop := ∀ s us, Lexed s us → Lexed (t ++ s) (ts ++ us)

/-- May follow a word or a closing bracket. -/
def Follow (d : Char) : Prop := wordChar d = false ∧ d ∉ ['"', '\'', '#', '=', '.']

instance : DecidablePred Follow := fun _ => inferInstanceAs (Decidable (_ ∧ _))

/-- Has these tokens, if what follows does not add to the last one. -/
def Opn (t : Str) (ts : List Tok) : Prop := ∀ s us, (∀ d, s.head? = some d → Follow d) → Lexed s us → Lexed (t ++ s) (ts ++ us)

theorem Seg.nil : Seg [] [] := fun _ _ h => h

theorem Seg.app {a b : Str} {as bs : List Tok} (h1 : Seg a as) (h2 : Seg b bs) : Seg (a ++ b) (as ++ bs) := by
  intro s us h
  rw [List.append_assoc, List.append_assoc]
  exact h1 _ _ (h2 _ _ h)

theorem Seg.lexed {t : Str} {ts : List Tok} (h : Seg t ts) : Lexed t ts := by
  have := h [] [] .nil
  rwa [List.append_nil, List.append_nil] at this

theorem Seg.opn {t : Str} {ts : List Tok} (h : Seg t ts) : Opn t ts := fun s us _ hs => h s us hs

theorem Opn.app {a b : Str} {as bs : List Tok} (h1 : Opn a as) (h2 : Seg b bs) (h : ∃ d, b.head? = some d ∧ Follow d) :
    Seg (a ++ b) (as ++ bs) := by
  intro s us hs
  rw [List.append_assoc, List.append_assoc]
  refine h1 _ _ ?_ (h2 _ _ hs)
  obtain ⟨d, h, hd⟩ := h
  intro d' hd'
  cases b with
  | nil => cases h
  | cons c b =>
    cases h
    cases hd'
    exact hd

theorem Opn.opn {a b : Str} {as bs : List Tok} (h1 : Opn a as) (h2 : Opn b bs) (h : ∃ d, b.head? = some d ∧ Follow d) :
    Opn (a ++ b) (as ++ bs) := by
  intro s us hf hs
  rw [List.append_assoc, List.append_assoc]
  refine h1 _ _ ?_ (h2 _ _ hf hs)
  obtain ⟨d, h, hd⟩ := h
  intro d' hd'
  cases b with
  | nil => cases h
  | cons c b =>
    cases h
    cases hd'
    exact hd

theorem Seg.appOpn {a b : Str} {as bs : List Tok} (h1 : Seg a as) (h2 : Opn b bs) : Opn (a ++ b) (as ++ bs) := by
  intro s us hf hs
  rw [List.append_assoc, List.append_assoc]
  exact h1 _ _ (h2 _ _ hf hs)

theorem seg_cast {t u : Str} {ts us : List Tok} (h : Seg t ts) (e : u = t) (e' : us = ts) : Seg u us := e ▸ e' ▸ h

theorem opn_cast {t u : Str} {ts us : List Tok} (h : Opn t ts) (e : u = t) (e' : us = ts) : Opn u us := e ▸ e' ▸ h

theorem seg_space {c : Char} (hc : c = ' ' ∨ c = '\n') : Seg [c] [] := fun _ _ h => .space hc h

theorem seg_spaces : ∀ n, Seg (List.replicate n ' ') []
  | 0 => Seg.nil
  | n + 1 => (seg_space (.inl rfl)).app (seg_spaces n)

theorem seg_nl : Seg ['\n'] [] := seg_space (.inr rfl)

/-! ## Words and strings -/

theorem asciiAlnum_wordChar {c : Char} (h : asciiAlnum c = true) : wordChar c = true := by
  rw [wordChar, h]; rfl

theorem word_upper (c : Char) (h : asciiUpper c = true) : wordChar c = true ∧ Syn.digit c = false := by
  constructor
  · exact asciiAlnum_wordChar (by simp [asciiAlnum, h])
  · simp only [asciiUpper, Bool.and_eq_true, decide_eq_true_eq] at h
    simp only [Syn.digit, Bool.and_eq_false_iff, decide_eq_false_iff_not]
    right
    intro h'
    exact absurd (Char.le_trans h.1 h') (by decide)

theorem word_lower (c : Char) (h : asciiLower c = true) : wordChar c = true ∧ Syn.digit c = false := by
  constructor
  · exact asciiAlnum_wordChar (by simp [asciiAlnum, h])
  · simp only [asciiLower, Bool.and_eq_true, decide_eq_true_eq] at h
    simp only [Syn.digit, Bool.and_eq_false_iff, decide_eq_false_iff_not]
    right
    intro h'
    exact absurd (Char.le_trans h.1 h') (by decide)

theorem opn_word {n : Str} (h : LegalIdent n) : Opn n [.word n] := by
  obtain ⟨⟨c, cs, rfl, h1, h2, -⟩, -⟩ := h
  intro s us hf hs
  have hc : wordChar c = true ∧ Syn.digit c = false := by
    rcases h1 with h | h | rfl
    · revert h
      exact word_upper c
    · revert h
      exact word_lower c
    · decide
  refine .word hc.1 hc.2 ?_ ?_ hs
  · intro d hd
    rcases h2 d hd with h | rfl
    · exact asciiAlnum_wordChar h
    · decide
  · intro d hd
    obtain ⟨k1, k2⟩ := hf d hd
    simp only [List.mem_cons, List.not_mem_nil, or_false, not_or] at k2
    exact ⟨k1, k2.1, k2.2.1, k2.2.2.1⟩

theorem Quoted.app {a b : Str} (h1 : Quoted a) (h2 : Quoted b) : Quoted (a ++ b) := by
  induction h1 with
  | nil => exact h2
  | char k1 k2 k3 _ ih => exact .char k1 k2 k3 ih
  | esc k _ ih => exact .esc k ih

theorem quoted_safe {a : Str} (h : QuoteSafe a) : Quoted a := by
  induction a with
  | nil => exact .nil
  | cons c a ih =>
    obtain ⟨h1, h2, h3⟩ := h c (by simp)
    exact .char h1 h2 h3 (ih fun d hd => h d (by simp [hd]))

/-- For texts which are given. -/
def quotedB : Str → Bool
  | [] => true
  | '\\' :: c :: s => decide (c ∈ ['n', 'r', 't', '\\', '0', '\'', '"']) && quotedB s
  | c :: s => decide (c ≠ '"' ∧ c ≠ '\\' ∧ c ≠ '\n') && quotedB s

theorem quoted_of : ∀ {a : Str}, quotedB a = true → Quoted a
  | [], _ => .nil
  | c :: s, h => by
    unfold quotedB at h
    split at h
    · rename_i e; cases e
    · rename_i d s' e
      cases e
      rw [Bool.and_eq_true, decide_eq_true_eq] at h
      exact .esc h.1 (quoted_of h.2)
    · rename_i e
      cases e
      rw [Bool.and_eq_true, decide_eq_true_eq] at h
      exact .char h.1.1 h.1.2.1 h.1.2.2 (quoted_of h.2)

theorem opn_str {w : Str} (h : Quoted w) : Opn ('"' :: w ++ ['"']) [.str w] := by
  intro s us hf hs
  rw [show '"' :: w ++ ['"'] ++ s = '"' :: w ++ '"' :: s by simp]
  exact .str h (fun d hd => (hf d hd).1) hs

/-! ## Texts which are given -/

def firsts : List Char := doubles.filterMap List.head?

/-- The tokens of a given text which does not end within a token. -/
def lexFn : Nat → Str → Option (List Tok)
  | 0, _ => none
  | _ + 1, [] => some []
  | k + 1, c :: cs =>
    if c = ' ' ∨ c = '\n' then lexFn k cs
    else if Syn.digit c = true then
      let w := c :: cs.takeWhile Syn.digit
      let s := cs.dropWhile Syn.digit
      if s ≠ [] ∧ s.head?.all (fun d => !wordChar d) = true ∧ (s[0]? = some '.' → (s[1]?).any (fun d => !Syn.digit d) = true) then
        (lexFn k s).map (.num w :: ·)
      else none
    else if wordChar c = true then
      let w := cs.takeWhile wordChar
      let s := cs.dropWhile wordChar
      if s ≠ [] ∧ s.head?.all (fun d => !wordChar d && decide (d ≠ '"' ∧ d ≠ '\'' ∧ d ≠ '#')) = true then
        (lexFn k s).map (.word (c :: w) :: ·)
      else none
    else if c = '"' then
      let w := cs.takeWhile (· ≠ '"')
      match cs.dropWhile (· ≠ '"') with
      | '"' :: d :: s => if quotedB w = true ∧ wordChar d = false then (lexFn k (d :: s)).map (.str w :: ·) else none
      | _ => none
    else
      match cs with
      | d :: s =>
        if [c, d] ∈ doubles then (lexFn k s).map (.op [c, d] :: ·)
        else if c ∈ singles ∧ c ≠ '/' then (lexFn k cs).map (.op [c] :: ·) else none
      | [] => if c ∈ singles ∧ c ≠ '/' ∧ c ∉ firsts then some [.op [c]] else none

theorem mem_takeWhile {p : Char → Bool} : ∀ {s : Str} {d : Char}, d ∈ s.takeWhile p → p d = true
  | c :: s, d, h => by
    rw [List.takeWhile_cons] at h
    split at h
    · rcases List.mem_cons.1 h with rfl | h
      · assumption
      · exact mem_takeWhile h
    · cases h

theorem head?_all {s : Str} {p : Char → Bool} (h : s.head?.all p = true) : ∀ d, s.head? = some d → p d = true := by
  intro d hd
  rw [hd] at h
  exact h

theorem head?_append {s u : Str} (h : s ≠ []) : (s ++ u).head? = s.head? := by
  cases s with
  | nil => exact absurd rfl h
  | cons c s => rfl

theorem lexFn_seg : ∀ {k : Nat} {t : Str} {ts : List Tok}, lexFn k t = some ts → Seg t ts
  | 0, _, _, h => by cases h
  | _ + 1, [], _, h => by cases h; exact Seg.nil
  | k + 1, c :: cs, ts, h => by
    unfold lexFn at h
    split at h
    · rename_i hc
      exact (seg_space hc).app (lexFn_seg h)
    rename_i hsp
    split at h
    · rename_i hd
      dsimp only at h
      split at h
      · rename_i hs
        obtain ⟨hs1, hs2, hs3⟩ := hs
        obtain ⟨us, hu, rfl⟩ := Option.map_eq_some_iff.1 h
        intro r vs hr
        have e : c :: cs ++ r = (c :: cs.takeWhile Syn.digit) ++ (cs.dropWhile Syn.digit ++ r) := by
          rw [List.cons_append, List.cons_append, ← List.append_assoc, List.takeWhile_append_dropWhile]
        rw [e]
        refine .num (by simp) ?_ ?_ ?_ (lexFn_seg hu r vs hr)
        · intro d hd'
          rcases List.mem_cons.1 hd' with rfl | hd'
          · exact hd
          · exact mem_takeWhile hd'
        · intro d hd'
          rw [head?_append hs1] at hd'
          have := head?_all hs2 d hd'
          simpa using this
        · intro d h0 h1
          generalize cs.dropWhile Syn.digit = s at *
          cases s with
          | nil => exact absurd rfl hs1
          | cons x s =>
            have hx : x = '.' := by simpa using h0
            subst hx
            have := hs3 rfl
            cases s with
            | nil => simp at this
            | cons y s =>
              simp only [List.cons_append, List.getElem?_cons_succ, List.getElem?_cons_zero, Option.some.injEq] at h1
              subst h1
              simpa using this
      · cases h
    rename_i hd
    split at h
    · rename_i hw
      dsimp only at h
      split at h
      · rename_i hs
        obtain ⟨hs1, hs2⟩ := hs
        obtain ⟨us, hu, rfl⟩ := Option.map_eq_some_iff.1 h
        intro r vs hr
        have e : c :: cs ++ r = c :: cs.takeWhile wordChar ++ (cs.dropWhile wordChar ++ r) := by
          rw [List.cons_append, List.cons_append, ← List.append_assoc, List.takeWhile_append_dropWhile]
        rw [e]
        refine .word hw (by simpa using hd) ?_ ?_ (lexFn_seg hu r vs hr)
        · intro d hd'
          exact mem_takeWhile hd'
        · intro d hd'
          rw [head?_append hs1] at hd'
          have := head?_all hs2 d hd'
          simp only [Bool.and_eq_true, Bool.not_eq_true', decide_eq_true_eq] at this
          exact this
      · cases h
    split at h
    · rename_i hq
      subst hq
      dsimp only at h
      split at h
      · rename_i d s he
        split at h
        · rename_i hw
          obtain ⟨us, hu, rfl⟩ := Option.map_eq_some_iff.1 h
          intro r vs hr
          have e : '"' :: cs ++ r = '"' :: cs.takeWhile (· ≠ '"') ++ '"' :: (d :: s ++ r) := by
            conv_lhs => rw [← List.takeWhile_append_dropWhile (p := (· ≠ '"')) (l := cs), he]
            simp
          rw [e]
          refine .str (quoted_of hw.1) ?_ (lexFn_seg hu r vs hr)
          intro d' hd'
          cases hd'
          exact hw.2
        · cases h
      · cases h
    split at h
    · rename_i d s
      split at h
      · rename_i hm
        obtain ⟨us, hu, rfl⟩ := Option.map_eq_some_iff.1 h
        intro r vs hr
        exact .double hm (lexFn_seg hu r vs hr)
      · rename_i hm
        split at h
        · rename_i hs
          obtain ⟨us, hu, rfl⟩ := Option.map_eq_some_iff.1 h
          intro r vs hr
          refine .single hs.1 ?_ (lexFn_seg hu r vs hr)
          intro b hb
          cases hb
          exact ⟨hm, fun h => absurd h hs.2⟩
        · cases h
    · split at h
      · rename_i hs
        cases h
        intro r vs hr
        refine .single hs.1 ?_ hr
        intro b _
        refine ⟨fun hm => hs.2.2 ?_, fun h => absurd h hs.2.1⟩
        exact List.mem_filterMap.2 ⟨_, hm, rfl⟩
      · cases h

/-- The tokens of a given text. -/
theorem seg_of (k : Nat) {t : Str} {ts : List Tok} (h : lexFn k t = some ts) : Seg t ts := lexFn_seg h

example : Seg "impl Validate for ".toList [kw "impl", kw "Validate", kw "for"] := seg_of 30 (by decide +kernel)

/-! ## Lines -/

theorem split_prefix {w s a b : Str} (hw : '\n' ∉ w) (h : w ++ s = a ++ '\n' :: b) : ∃ a', a = w ++ a' ∧ s = a' ++ '\n' :: b := by
  induction w generalizing a with
  | nil => exact ⟨a, rfl, h⟩
  | cons c w ih =>
    cases a with
    | nil => cases h; exact absurd (by simp) hw
    | cons d a =>
      simp only [List.cons_append, List.cons.injEq] at h
      obtain ⟨rfl, h⟩ := h
      obtain ⟨a', rfl, h2⟩ := ih (fun h => hw (by simp [h])) h
      exact ⟨a', rfl, h2⟩

theorem head_nl (a b : Str) : (a ++ ['\n']).head? = (a ++ '\n' :: b).head? := by cases a <;> rfl

theorem second_nl {a : Str} (b : Str) {d : Char} (h0 : (a ++ ['\n'])[0]? = some '.') (h : (a ++ ['\n'])[1]? = some d) :
    (a ++ '\n' :: b)[0]? = some '.' ∧ (a ++ '\n' :: b)[1]? = some d := by
  cases a with
  | nil => exact absurd h0 (by decide)
  | cons x a =>
    refine ⟨h0, ?_⟩
    cases a with
    | nil => exact h
    | cons y a => exact h

theorem wordChar_nl {w : Str} (h : ∀ d ∈ w, wordChar d = true) : '\n' ∉ w := fun hm => absurd (h _ hm) (by decide)

theorem quoted_nl {w : Str} (h : Quoted w) : '\n' ∉ w := by
  induction h with
  | nil => simp
  | char _ _ h3 _ ih =>
    intro hm
    rcases List.mem_cons.1 hm with h | h
    · exact h3 h.symm
    · exact ih h
  | esc h _ ih =>
    intro hm
    rcases List.mem_cons.1 hm with h' | h'
    · cases h'
    rcases List.mem_cons.1 h' with h' | h'
    · subst h'; revert h; decide
    · exact ih h'

theorem double_nl {a b : Char} (h : [a, b] ∈ doubles) : '\n' ∉ [a, b] := by
  have : ∀ x ∈ doubles, '\n' ∉ x := by decide
  exact this _ h

theorem single_nl {a : Char} (h : a ∈ singles) : '\n' ∉ [a] := by
  intro hm
  obtain rfl := List.mem_singleton.1 hm
  revert h; decide

theorem lexed_nil {t : Str} {ts : List Tok} (h : Lexed t ts) (e : t = []) : ts = [] := by
  cases h with
  | nil => rfl
  | num h1 =>
    exact absurd (List.append_eq_nil_iff.1 e).1 h1
  | _ => cases e

theorem lexed_newline {t : Str} {ts : List Tok} (h : Lexed t ts) (e : t = ['\n']) : ts = [] := by
  cases h with
  | nil => rfl
  | space _ h => cases e; exact lexed_nil h rfl
  | comment => cases e
  | word h1 => rw [(List.cons.inj e).1] at h1; exact absurd h1 (by decide)
  | @num w s ts h1 h2 h3 h4 h5 =>
    cases w with
    | nil => exact absurd rfl h1
    | cons c w => rw [(List.cons.inj e).1] at h2; exact absurd (h2 '\n' (by simp)) (by decide)
  | str => cases e
  | double => cases e
  | single h => cases e; exact absurd h (by decide)

theorem lexed_dot {t : Str} {ts : List Tok} (h : Lexed t ts) (e : t = ['.']) : ts = [pt "."] := by
  cases h with
  | nil => cases e
  | space h => cases e; exact absurd h (by decide)
  | comment => cases e
  | word h1 => rw [(List.cons.inj e).1] at h1; exact absurd h1 (by decide)
  | @num w s ts h1 h2 h3 h4 h5 =>
    cases w with
    | nil => exact absurd rfl h1
    | cons c w => rw [(List.cons.inj e).1] at h2; exact absurd (h2 '.' (by simp)) (by decide)
  | str => cases e
  | double => cases e
  | single _ _ h => cases e; rw [lexed_nil h rfl]; rfl

/-- No token goes over the end of a line. -/
theorem lexed_split {t : Str} {ts : List Tok} (h : Lexed t ts) : ∀ {a b : Str}, t = a ++ '\n' :: b →
    ∃ xs ys, ts = xs ++ ys ∧ Lexed (a ++ ['\n']) xs ∧ Lexed b ys := by
  induction h with
  | nil => intro a b h; cases a <;> cases h
  | @space c s ts hc hs ih =>
    intro a b h
    cases a with
    | nil => cases h; exact ⟨[], ts, rfl, .space (.inr rfl) .nil, hs⟩
    | cons d a =>
      cases h
      obtain ⟨xs, ys, rfl, h1, h2⟩ := ih rfl
      exact ⟨xs, ys, rfl, .space hc h1, h2⟩
  | @comment l s ts hl h1 h2 hs ih =>
    intro a b h
    obtain ⟨a', rfl, e⟩ := split_prefix (w := '/' :: '/' :: l) (by simpa using hl) h
    clear h
    cases a' with
    | nil =>
      cases e
      refine ⟨[], ts, rfl, ?_, hs⟩
      rw [List.append_nil]
      exact .comment hl h1 h2 .nil
    | cons d a' =>
      cases e
      obtain ⟨xs, ys, rfl, k1, k2⟩ := ih rfl
      refine ⟨xs, ys, rfl, ?_, k2⟩
      rw [List.append_assoc]
      exact .comment hl h1 h2 k1
  | @word c w s ts h1 h2 h3 h4 hs ih =>
    intro a b h
    obtain ⟨a', rfl, rfl⟩ := split_prefix (w := c :: w)
      (wordChar_nl (fun d hd => by rcases List.mem_cons.1 hd with rfl | hd; exact h1; exact h3 d hd)) h
    obtain ⟨xs, ys, rfl, k1, k2⟩ := ih rfl
    refine ⟨Tok.word (c :: w) :: xs, ys, rfl, ?_, k2⟩
    rw [List.append_assoc]
    exact .word h1 h2 h3 (fun d hd => h4 d (by rw [← head_nl]; exact hd)) k1
  | @num w s ts h1 h2 h3 h4 hs ih =>
    intro a b h
    obtain ⟨a', rfl, rfl⟩ := split_prefix (w := w)
      (fun hm => absurd (h2 _ hm) (by decide)) h
    obtain ⟨xs, ys, rfl, k1, k2⟩ := ih rfl
    refine ⟨Tok.num w :: xs, ys, rfl, ?_, k2⟩
    rw [List.append_assoc]
    exact .num h1 h2 (fun d hd => h3 d (by rw [← head_nl]; exact hd))
      (fun d g0 g1 => h4 d (second_nl b g0 g1).1 (second_nl b g0 g1).2) k1
  | @str w s ts h1 h2 hs ih =>
    intro a b h
    obtain ⟨a', rfl, rfl⟩ := split_prefix (w := '"' :: w ++ ['"']) (by
      intro hm
      simp only [List.cons_append, List.mem_cons, List.mem_append, List.not_mem_nil, or_false] at hm
      rcases hm with h | h | h
      · cases h
      · exact quoted_nl h1 h
      · cases h) (show '"' :: w ++ ['"'] ++ s = a ++ '\n' :: b by rw [← h]; simp)
    obtain ⟨xs, ys, rfl, k1, k2⟩ := ih rfl
    refine ⟨Tok.str w :: xs, ys, rfl, ?_, k2⟩
    rw [show '"' :: w ++ ['"'] ++ a' ++ ['\n'] = '"' :: w ++ '"' :: (a' ++ ['\n']) by simp]
    exact .str h1 (fun d hd => h2 d (by rw [← head_nl]; exact hd)) k1
  | @double x y s ts h1 hs ih =>
    intro a b h
    obtain ⟨a', rfl, rfl⟩ := split_prefix (w := [x, y]) (double_nl h1) h
    obtain ⟨xs, ys, rfl, k1, k2⟩ := ih rfl
    exact ⟨.op [x, y] :: xs, ys, rfl, .double h1 k1, k2⟩
  | @single x s ts h1 h2 hs ih =>
    intro a b h
    obtain ⟨a', rfl, rfl⟩ := split_prefix (w := [x]) (single_nl h1) h
    obtain ⟨xs, ys, rfl, k1, k2⟩ := ih rfl
    exact ⟨.op [x] :: xs, ys, rfl, .single h1 (fun d hd => h2 d (by rw [← head_nl]; exact hd)) k1, k2⟩

theorem ends_tail {w s : Str} (hw : '\n' ∉ w) (h : (w ++ s).getLast? = some '\n') : s ≠ [] ∧ s.getLast? = some '\n' := by
  cases s with
  | nil =>
    rw [List.append_nil] at h
    exact absurd (List.mem_of_getLast? h) hw
  | cons c s =>
    rw [List.getLast?_append] at h
    refine ⟨by simp, ?_⟩
    rw [List.getLast?_cons] at h ⊢
    simpa using h

theorem head_more {s r : Str} (h : s ≠ []) : (s ++ r).head? = s.head? := head?_append h

theorem second_more {s r : Str} {d : Char} (hl : s.getLast? = some '\n') (h0 : (s ++ r)[0]? = some '.') (h1 : (s ++ r)[1]? = some d) :
    s[0]? = some '.' ∧ s[1]? = some d := by
  cases s with
  | nil => cases hl
  | cons x s =>
    cases s with
    | nil =>
      have : x = '\n' := by simpa using hl
      subst this
      simp at h0
    | cons y s => exact ⟨h0, h1⟩

/-- Complete lines have their tokens whatever follows. -/
theorem lexed_seg {t : Str} {ts : List Tok} (h : Lexed t ts) : t = [] ∨ t.getLast? = some '\n' → Seg t ts := by
  intro ht
  rcases ht with rfl | ht
  · rw [lexed_nil h rfl]; exact Seg.nil
  intro r us hr
  induction h with
  | nil => cases ht
  | @space c s ts hc hs ih =>
    cases s with
    | nil => rw [lexed_nil hs rfl]; exact .space hc hr
    | cons d s =>
      rw [List.getLast?_cons_cons] at ht
      exact .space hc (ih ht)
  | @comment l s ts hl h1 h2 hs ih =>
    rw [show '/' :: '/' :: l ++ '\n' :: s ++ r = '/' :: '/' :: l ++ '\n' :: (s ++ r) by simp]
    refine .comment hl h1 h2 ?_
    cases s with
    | nil => rw [lexed_nil hs rfl]; exact hr
    | cons d s =>
      refine ih ?_
      rw [show '/' :: '/' :: l ++ '\n' :: d :: s = ('/' :: '/' :: l ++ ['\n']) ++ (d :: s) by simp, List.getLast?_append] at ht
      rw [List.getLast?_cons] at ht ⊢
      simpa using ht
  | @word c w s ts h1 h2 h3 h4 hs ih =>
    obtain ⟨k1, k2⟩ := ends_tail (w := c :: w)
      (wordChar_nl (fun d hd => by rcases List.mem_cons.1 hd with rfl | hd; exact h1; exact h3 d hd)) ht
    rw [List.append_assoc]
    exact .word h1 h2 h3 (fun d hd => h4 d (by rw [← hd, head_more k1])) (ih k2)
  | @num w s ts h1 h2 h3 h4 hs ih =>
    obtain ⟨k1, k2⟩ := ends_tail (w := w) (fun hm => absurd (h2 _ hm) (by decide)) ht
    rw [List.append_assoc]
    exact .num h1 h2 (fun d hd => h3 d (by rw [← hd, head_more k1]))
      (fun d g0 g1 => h4 d (second_more k2 g0 g1).1 (second_more k2 g0 g1).2) (ih k2)
  | @str w s ts h1 h2 hs ih =>
    obtain ⟨k1, k2⟩ := ends_tail (w := '"' :: w ++ ['"']) (by
      intro hm
      simp only [List.cons_append, List.mem_cons, List.mem_append, List.not_mem_nil, or_false] at hm
      rcases hm with h | h | h
      · cases h
      · exact quoted_nl h1 h
      · cases h) (show ('"' :: w ++ ['"'] ++ s).getLast? = _ by rw [← ht]; simp)
    rw [show '"' :: w ++ '"' :: s ++ r = '"' :: w ++ '"' :: (s ++ r) by simp]
    exact .str h1 (fun d hd => h2 d (by rw [← hd, head_more k1])) (ih k2)
  | @double x y s ts h1 hs ih =>
    obtain ⟨k1, k2⟩ := ends_tail (w := [x, y]) (double_nl h1) ht
    exact .double h1 (ih k2)
  | @single x s ts h1 h2 hs ih =>
    obtain ⟨k1, k2⟩ := ends_tail (w := [x]) (single_nl h1) ht
    exact .single h1 (fun d hd => h2 d (by rw [← hd]; exact (head_more k1).symm)) (ih k2)

/-- The tokens of lines. -/
inductive Lns : List Str → List Tok → Prop where
  | nil : Lns [] []
  | cons {l ls a b} : Seg (l ++ ['\n']) a → Lns ls b → Lns (l :: ls) (a ++ b)

theorem lns_seg {ls : List Str} {ts : List Tok} (h : Lns ls ts) : Seg (ls.flatMap (· ++ ['\n'])) ts := by
  induction h with
  | nil => exact Seg.nil
  | cons h1 _ ih => rw [List.flatMap_cons]; exact h1.app ih

theorem lns_of : ∀ {ls : List Str} {ts : List Tok}, (∀ l ∈ ls, '\n' ∉ l) → Lexed (ls.flatMap (· ++ ['\n'])) ts → Lns ls ts
  | [], ts, _, h => by rw [lexed_nil h rfl]; exact .nil
  | l :: ls, ts, hn, h => by
    obtain ⟨xs, ys, rfl, h1, h2⟩ := lexed_split h (a := l) (b := ls.flatMap (· ++ ['\n'])) (by simp)
    exact .cons (lexed_seg h1 (.inr (by simp))) (lns_of (fun m hm => hn m (by simp [hm])) h2)

theorem lns_filter {ls : List Str} {ts : List Tok} (h : Lns ls ts) : Lns (ls.filter (· ≠ [])) ts := by
  induction h with
  | nil => exact .nil
  | @cons l ls a b h1 _ ih =>
    by_cases hl : l = []
    · subst hl
      have : a = [] := by
        exact lexed_newline h1.lexed rfl
      subst this
      rw [List.filter_cons_of_neg (by simp)]
      exact ih
    · rw [List.filter_cons_of_pos (by simpa using hl)]
      exact .cons h1 ih

theorem lns_unfilter : ∀ {ls : List Str} {ts : List Tok}, Lns (ls.filter (· ≠ [])) ts → Lns ls ts
  | [], _, h => h
  | l :: ls, ts, h => by
    by_cases hl : l = []
    · subst hl
      rw [List.filter_cons_of_neg (by simp)] at h
      exact .cons (a := []) seg_nl (lns_unfilter h)
    · rw [List.filter_cons_of_pos (by simpa using hl)] at h
      cases h with
      | cons h1 h2 => exact .cons h1 (lns_unfilter h2)

theorem lns_indent (n : Nat) {ls : List Str} {ts : List Tok} (h : Lns ls ts) : Lns (ls.map (List.replicate n ' ' ++ ·)) ts := by
  induction h with
  | nil => exact .nil
  | cons h1 _ ih =>
    refine .cons ?_ ih
    rw [List.append_assoc]
    exact (seg_spaces n).app h1

/-- Indenting the lines leaves the tokens as they are. -/
theorem seg_shift {t : Str} {ts : List Tok} (h : Seg t ts) (n : Nat) : Seg (Model.shift t (List.replicate n ' ') ++ ['\n']) ts := by
  have h0 : Lns (Gen.lns t) ts := by
    refine lns_of Gen.splitOn_not_mem ?_
    rw [Gen.lines_eq]
    have := (h.app seg_nl).lexed
    rwa [List.append_nil] at this
  rw [← Gen.lines_eq]
  obtain ⟨h1, h2⟩ := Gen.shift_lines t n
  cases hsh : Gen.lns (Model.shift t (List.replicate n ' ')) with
  | nil => rw [hsh] at h1; cases h1
  | cons x xs =>
    rw [hsh] at h1 h2
    cases h1
    refine lns_seg (.cons (a := []) ((seg_spaces n).app seg_nl) (lns_unfilter ?_))
    rw [show xs.filter (· ≠ []) = _ from h2]
    exact lns_indent n (lns_filter h0)

/-! ## Types -/

/-- Can be followed by other text. -/
def Ending (ts : List Tok) : Prop := (∃ w, ts.getLast? = some (.word w)) ∨ ts.getLast? = some (pt ">") ∨ ts.getLast? = some (pt ")")

theorem ending_cons {t x : Tok} {ts : List Tok} (h : Ending (t :: x :: ts)) : Ending (x :: ts) := by
  rw [Ending, List.getLast?_cons_cons] at h; exact h

theorem lexed_opn {t : Str} {ts : List Tok} (h : Lexed t ts) (he : ts = [] ∨ Ending ts) : Opn t ts := by
  intro r us hf hr
  have hmore : ∀ {s : Str}, ∀ d, (s ++ r).head? = some d → s.head? = some d ∨ (s = [] ∧ Follow d) := by
    intro s d hd
    cases s with
    | nil => exact .inr ⟨rfl, hf d hd⟩
    | cons c s => exact .inl hd
  have htl : ∀ {x : Tok} {s : Str} {ts : List Tok}, Lexed s ts → (x :: ts = [] ∨ Ending (x :: ts)) → (ts = [] ∨ Ending ts) := by
    intro x s ts _ h
    cases ts with
    | nil => exact .inl rfl
    | cons y ts =>
      rcases h with h | h
      · cases h
      · exact .inr (ending_cons h)
  induction h with
  | nil => exact hr
  | space hc _ ih => exact .space hc (ih he)
  | @comment l s ts hl h1 h2 hs ih =>
    rw [show '/' :: '/' :: l ++ '\n' :: s ++ r = '/' :: '/' :: l ++ '\n' :: (s ++ r) by simp]
    exact .comment hl h1 h2 (ih he)
  | @word c w s ts h1 h2 h3 h4 hs ih =>
    rw [List.append_assoc]
    refine .word h1 h2 h3 (fun d hd => ?_) (ih (htl hs he))
    rcases hmore d hd with h | ⟨-, h⟩
    · exact h4 d h
    · obtain ⟨k1, k2⟩ := h
      simp only [List.mem_cons, List.not_mem_nil, or_false, not_or] at k2
      exact ⟨k1, k2.1, k2.2.1, k2.2.2.1⟩
  | @num w s ts h1 h2 h3 h4 hs ih =>
    rw [List.append_assoc]
    refine .num h1 h2 (fun d hd => ?_) ?_ (ih (htl hs he))
    · rcases hmore d hd with h | ⟨-, h⟩
      · exact h3 d h
      · exact h.1
    · intro d g0 g1
      cases s with
      | nil =>
        exfalso
        have h0 : r.head? = some '.' := by rw [List.head?_eq_getElem?]; exact g0
        exact (hf _ h0).2 (by decide)
      | cons x s =>
        cases s with
        | nil =>
          exfalso
          have hx : x = '.' := by simpa using g0
          subst hx
          rw [lexed_dot hs rfl] at he
          rcases he with he | ⟨w, he⟩ | he | he
          · cases he
          · cases he
          · exact absurd (show pt "." = pt ">" from Option.some.inj he) (by decide)
          · exact absurd (show pt "." = pt ")" from Option.some.inj he) (by decide)
        | cons y s => exact h4 d g0 g1
  | @str w s ts h1 h2 hs ih =>
    rw [show '"' :: w ++ '"' :: s ++ r = '"' :: w ++ '"' :: (s ++ r) by simp]
    refine .str h1 (fun d hd => ?_) (ih (htl hs he))
    rcases hmore d hd with h | ⟨-, h⟩
    · exact h2 d h
    · exact h.1
  | @double x y s ts h1 hs ih => exact .double h1 (ih (htl hs he))
  | @single x s ts h1 h2 hs ih =>
    refine .single h1 (fun d hd => ?_) (ih (htl hs he))
    rcases hmore d hd with h | ⟨rfl, h⟩
    · exact h2 d h
    · rw [lexed_nil hs rfl] at he
      have hx : x = '>' ∨ x = ')' := by
        rcases he with he | ⟨w, he⟩ | he | he
        · cases he
        · cases he
        · left; simpa using he
        · right; simpa using he
      obtain ⟨-, k⟩ := h
      simp only [List.mem_cons, List.not_mem_nil, or_false, not_or] at k
      rcases hx with rfl | rfl
      · refine ⟨?_, fun h => absurd h (by decide)⟩
        intro hm
        have : ∀ x ∈ doubles, x.head? = some '>' → x[1]? = some '=' := by decide
        exact k.2.2.2.1 (Option.some.inj (this _ hm rfl))
      · refine ⟨?_, fun h => absurd h (by decide)⟩
        intro hm
        have : ∀ x ∈ doubles, x.head? ≠ some ')' := by decide
        exact this _ hm rfl

theorem path_ending {p : List Tok} (h : Path p) : Ending p := by
  cases h with
  | one _ => exact .inl ⟨_, rfl⟩
  | keyword _ => exact .inl ⟨_, rfl⟩
  | more _ _ => exact .inl ⟨_, by rw [List.getLast?_append]; rfl⟩

theorem ty_ending {t : List Tok} (h : Ty t) : Ending t := by
  cases h with
  | unit => exact .inr (.inr rfl)
  | path h => exact path_ending h
  | generic => right; left; rw [List.getLast?_append]; rfl

theorem opn_ty {s : Str} {t : List Tok} (h : Lexed s t) (ht : Ty t) : Opn s t := lexed_opn h (.inr (ty_ending ht))

end Verif.Lemmas.Syn
