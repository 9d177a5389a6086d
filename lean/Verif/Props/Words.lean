import Verif.Props.GenNames
import Verif.Spec.Words

/-! # C30: names of several words -/

namespace Verif.Props

open Verif Verif.Model Verif.Spec Verif.Lemmas.Gen Verif.Inflector

private theorem lower_of {c : Char} (h : 'a' ≤ c ∧ c ≤ 'z') : asciiLower c = true := by
  simp only [asciiLower, Bool.and_eq_true, decide_eq_true_eq]; exact h

private theorem sep_not (U : UnicodeTable) {c : Char} (h : c ∈ "-_. ".toList) : U.isAlphanumeric c = false := by
  have : ∀ c ∈ "-_. ".toList, c.toNat < 128 ∧ asciiAlnum c = false := by decide
  rw [U.alnum_ascii c (this c h).1, (this c h).2]

private theorem small (U : UnicodeTable) {c : Char} (hc : asciiLower c = true) :
    U.isAlphanumeric c = true ∧ U.isNumeric c = false ∧ U.isUppercase c = false := by
  have hlt := alnum_lt (alnum_of_lower hc)
  refine ⟨alnum_of_ascii U (alnum_of_lower hc), ?_, ?_⟩
  · rw [U.numeric_ascii c hlt, ← Bool.not_eq_true, Str.isAsciiDigit_iff]
    have := asciiLower_iff.1 hc; omega
  · rw [U.upper_ascii c hlt, ← Bool.not_eq_true, asciiUpper_iff]
    have := asciiLower_iff.1 hc; omega

private theorem go_rest (U : UnicodeTable) : ∀ {w : Str}, (∀ c ∈ w, asciiLower c = true) → ∀ (last : Char) (rest : Str),
    ∃ last', pascalGo U true false last (w ++ rest) = w ++ pascalGo U true false last' rest
  | [], _, last, rest => ⟨last, rfl⟩
  | c :: cs, h, last, rest => by
    have hc := h c List.mem_cons_self
    obtain ⟨h1, h2, h3⟩ := small U hc
    obtain ⟨l, hl⟩ := go_rest U (fun d hd => h d (List.mem_cons_of_mem _ hd)) c rest
    refine ⟨l, ?_⟩
    rw [List.cons_append, pascalGo]
    simp only [h1, h2, h3, Bool.not_true, Bool.false_and, Bool.and_false, Bool.or_false, Bool.false_eq_true, if_false]
    rw [hl, lower_fix hc]
    rfl

private theorem go_seps (U : UnicodeTable) : ∀ {s : Str}, (∀ c ∈ s, c ∈ "-_. ".toList) → ∀ (b : Bool) (last : Char) (rest : Str),
    pascalGo U true b last (s ++ rest) = pascalGo U true (b || !s.isEmpty) last rest
  | [], _, b, last, rest => by simp
  | c :: cs, h, b, last, rest => by
    have hc := sep_not U (h c List.mem_cons_self)
    rw [List.cons_append, pascalGo]
    simp only [hc, Bool.not_false, Bool.and_self, if_true]
    rw [go_seps U (fun d hd => h d (List.mem_cons_of_mem _ hd))]
    simp

private theorem go_word (U : UnicodeTable) {w : Str} (h : LowerWord w) (f : Bool) (last : Char) (rest : Str) :
    ∃ v last', Capital w v ∧ pascalGo U f true last (w ++ rest) = v ++ pascalGo U true false last' rest := by
  obtain ⟨hne, h⟩ := h
  cases w with
  | nil => exact absurd rfl hne
  | cons c cs =>
    have hc := lower_of (h c List.mem_cons_self)
    obtain ⟨h1, h2, h3⟩ := small U hc
    obtain ⟨l, hl⟩ := go_rest U (fun d hd => lower_of (h d (List.mem_cons_of_mem _ hd))) last rest
    refine ⟨toAsciiUpper c :: cs, l, .mk ?_, ?_⟩
    · have := asciiLower_iff.1 hc
      rw [toNat_upper, if_pos (by omega)]
      omega
    · rw [List.cons_append, pascalGo]
      simp only [h1, h2, Bool.not_true, Bool.false_and, Bool.and_false, Bool.true_or, Bool.false_eq_true, if_false, if_true]
      rw [hl]
      rfl

private theorem go_words (U : UnicodeTable) {t : Str} {ws : List Str} (h : Separated t ws) :
    ∀ (f : Bool) (last : Char), ∃ vs, List.Forall₂ Capital ws vs ∧ pascalGo U f true last t = vs.flatten := by
  induction h with
  | @one w h =>
    intro f last
    obtain ⟨v, l, h1, h2⟩ := go_word U h f last []
    refine ⟨[v], .cons h1 .nil, ?_⟩
    rw [List.append_nil] at h2
    rw [h2]
    simp [pascalGo]
  | @more w s t ws h hs hm _ ih =>
    intro f last
    obtain ⟨v, l, h1, h2⟩ := go_word U h f last (s ++ t)
    obtain ⟨vs, h3, h4⟩ := ih true l
    refine ⟨v :: vs, .cons h1 h3, ?_⟩
    have : (false || !s.isEmpty) = true := by cases s <;> simp at hs ⊢
    rw [h2, go_seps U hm, this, h4, List.flatten_cons]

private theorem words_last {t : Str} {ws : List Str} (h : Separated t ws) : ∃ c, t.getLast? = some c ∧ asciiLower c = true := by
  induction h with
  | @one w h =>
    cases hl : w.getLast? with
    | none => exact absurd (List.getLast?_eq_none_iff.1 hl) h.1
    | some c => exact ⟨c, rfl, lower_of (h.2 c (List.mem_of_getLast? hl))⟩
  | @more w s t ws _ _ _ _ ih =>
    obtain ⟨c, h1, h2⟩ := ih
    refine ⟨c, ?_, h2⟩
    rw [List.getLast?_append, List.getLast?_append, h1]
    rfl

private theorem words_chars {t : Str} {ws : List Str} (h : Separated t ws) : ':' ∉ t := by
  have word : ∀ {w : Str}, LowerWord w → ':' ∉ w := fun h hc => absurd (h.2 _ hc).1 (by decide)
  induction h with
  | one h => exact word h
  | more h _ hm _ ih =>
    intro hc
    rcases List.mem_append.1 hc with hc | hc
    · exact word h hc
    rcases List.mem_append.1 hc with hc | hc
    · exact absurd (hm _ hc) (by decide)
    · exact ih hc

private theorem capital_unique {w v v' : Str} (h : Capital w v) (h' : Capital w v') : v = v' := by
  cases h with
  | @mk c d cs h => cases h' with | @mk _ d' _ h' => rw [char_ext (a := d) (b := d') (by omega)]

private theorem capital_alnum {w v : Str} (h : Capital w v) (hw : LowerWord w) : ∀ c ∈ v, asciiAlnum c = true := by
  cases h with
  | @mk c d cs h =>
    intro x hx
    rcases List.mem_cons.1 hx with rfl | hx
    · have := asciiLower_iff.1 (lower_of (hw.2 c List.mem_cons_self))
      exact alnum_of_upper (asciiUpper_iff.2 (by omega))
    · exact alnum_of_lower (lower_of (hw.2 x (List.mem_cons_of_mem _ hx)))

private theorem words_lower {t : Str} {ws : List Str} (h : Separated t ws) : ∀ w ∈ ws, LowerWord w := by
  induction h with
  | one h => intro w hw; obtain rfl := List.mem_singleton.1 hw; exact h
  | more h _ _ _ ih =>
    intro w hw
    rcases List.mem_cons.1 hw with rfl | hw
    · exact h
    · exact ih w hw

/-- **C30** The type name for a name of several words consists of these words, each with a capital letter (and is sanitized). -/
theorem C30_type_words (U : UnicodeTable) (t : Str) (ws vs : List Str) (h : Separated t ws) (hv : List.Forall₂ Capital ws vs) :
    defaultFormatType U t none = sanitize U vs.flatten := by
  rw [defaultFormatType, splitName_none.2 ⟨words_chars h, rfl⟩]
  show sanitize U (filterTypeName U (toPascalCase U t)) = _
  obtain ⟨c, h1, h2⟩ := words_last h
  obtain ⟨vs', h3, h4⟩ := go_words U h false ' '
  have e : vs' = vs := by
    have hw := words_lower h
    clear h h1 h4
    induction h3 generalizing vs with
    | nil => cases hv; rfl
    | cons a _ ih =>
      cases hv with
      | cons b hv => rw [capital_unique a b, ih _ hv fun w hw' => hw w (List.mem_cons_of_mem _ hw')]
  rw [typeName_eq, toPascalCase, trimRight_id U h1 (alnum_of_ascii U (alnum_of_lower h2)), h4, e, List.filter_eq_self.2]
  have hw := words_lower h
  intro x hx
  clear h h1 h4 h3 e h2
  induction hv with
  | nil => cases hx
  | cons a _ ih =>
    rw [List.flatten_cons] at hx
    rcases List.mem_append.1 hx with hx | hx
    · exact capital_alnum a (hw _ List.mem_cons_self) x hx
    · exact ih (fun w hw' => hw w (List.mem_cons_of_mem _ hw')) hx

example : Separated "my-own_type".toList ["my".toList, "own".toList, "type".toList] ∧
    List.Forall₂ Capital ["my".toList, "own".toList, "type".toList] ["My".toList, "Own".toList, "Type".toList] ∧
    ∀ U, defaultFormatType U "my-own_type".toList none = sanitize U "MyOwnType".toList := by
  have lw : ∀ w ∈ ["my".toList, "own".toList, "type".toList], LowerWord w := by unfold LowerWord; decide
  have h1 : Separated "my-own_type".toList ["my".toList, "own".toList, "type".toList] :=
    .more (s := ['-']) (lw "my".toList (by decide)) (by decide) (by decide) (.more (s := ['_']) (lw "own".toList (by decide)) (by decide) (by decide)
      (.one (lw "type".toList (by decide))))
  have h2 : List.Forall₂ Capital ["my".toList, "own".toList, "type".toList] ["My".toList, "Own".toList, "Type".toList] :=
    .cons (.mk (by decide)) (.cons (.mk (by decide)) (.cons (.mk (by decide)) .nil))
  exact ⟨h1, h2, fun U => C30_type_words U _ _ _ h1 h2⟩

private theorem snake_seps (U : UnicodeTable) (whole : Str) : ∀ {s : Str}, (∀ c ∈ s, c ∈ "-_. ".toList) → ∀ (i : Nat) (rest : Str),
    ∃ j, snakeGo U whole i true (s ++ rest) = snakeGo U whole j true rest
  | [], _, i, rest => ⟨i, rfl⟩
  | c :: cs, h, i, rest => by
    obtain ⟨j, hj⟩ := snake_seps U whole (fun d hd => h d (List.mem_cons_of_mem _ hd)) (i + c.utf8Size) rest
    refine ⟨j, ?_⟩
    rw [List.cons_append, snakeGo]
    simp only [sep_not U (h c List.mem_cons_self), Bool.not_false, if_true]
    exact hj

private theorem snake_word (U : UnicodeTable) (whole : Str) {w : Str} (h : LowerWord w) (i : Nat) (rest : Str) :
    ∃ j, snakeGo U whole i true (w ++ rest) = w ++ snakeGo U whole j false rest := by
  obtain ⟨hne, h⟩ := h
  cases w with
  | nil => exact absurd rfl hne
  | cons c cs =>
    have hc := lower_of (h c List.mem_cons_self)
    refine ⟨i + c.utf8Size + cs.length, ?_⟩
    rw [List.cons_append, snakeGo]
    simp only [(small U hc).1, Bool.not_true, Bool.false_and, Bool.false_eq_true, if_false]
    rw [snakeGo_lower U whole (fun d hd => lower_of (h d (List.mem_cons_of_mem _ hd))), lower_fix hc]
    rfl

private theorem snake_words (U : UnicodeTable) (whole : Str) {t : Str} {ws : List Str} (h : Separated t ws) :
    ∀ i : Nat, snakeGo U whole i true t = ['_'].intercalate ws := by
  induction h with
  | @one w h =>
    intro i
    obtain ⟨j, hj⟩ := snake_word U whole h i []
    rw [List.append_nil] at hj
    rw [hj]
    simp [snakeGo, List.intercalate]
  | @more w s t ws h hs hm ht ih =>
    intro i
    obtain ⟨j, hj⟩ := snake_word U whole h i (s ++ t)
    rw [hj]
    cases s with
    | nil => exact absurd rfl hs
    | cons c cs =>
      obtain ⟨k, hk⟩ := snake_seps U whole (fun d hd => hm d (List.mem_cons_of_mem _ hd)) (j + c.utf8Size) t
      rw [List.cons_append, snakeGo]
      simp only [sep_not U (hm c List.mem_cons_self), Bool.not_false, Bool.false_eq_true, if_true, if_false]
      rw [hk, ih]
      cases ws with
      | nil => cases ht
      | cons v vs => simp [List.intercalate]

/-- **C30** The field name for a name of several words consists of these words, with one underscore between two of them however
many separators the name has there (and is sanitized). -/
theorem C30_field_words (U : UnicodeTable) (t : Str) (ws : List Str) (h : Separated t ws) :
    defaultFormatName U t = sanitize U (['_'].intercalate ws) := by
  obtain ⟨c, h1, h2⟩ := words_last h
  rw [defaultFormatName, lastSegment_iff.2 ⟨words_chars h, .inl rfl⟩, toSnakeCase,
    trimRight_id U h1 (alnum_of_ascii U (alnum_of_lower h2)), snake_words U t h]

example : Separated "my-._own type".toList ["my".toList, "own".toList, "type".toList] ∧
    ∀ U, defaultFormatName U "my-._own type".toList = sanitize U "my_own_type".toList := by
  have lw : ∀ w ∈ ["my".toList, "own".toList, "type".toList], LowerWord w := by unfold LowerWord; decide
  have h1 : Separated "my-._own type".toList ["my".toList, "own".toList, "type".toList] :=
    .more (s := "-._".toList) (lw "my".toList (by decide)) (by decide) (by decide) (.more (s := [' ']) (lw "own".toList (by decide)) (by decide) (by decide)
      (.one (lw "type".toList (by decide))))
  exact ⟨h1, fun U => C30_field_words U _ _ h1⟩

private theorem span_eq {p : Char → Prop} : ∀ {a b r s : Str}, (∀ c ∈ a, p c) → (∀ c ∈ b, p c) → (∀ c, r.head? = some c → ¬ p c) →
    (∀ c, s.head? = some c → ¬ p c) → a ++ r = b ++ s → a = b ∧ r = s
  | [], [], _, _, _, _, _, _, h => ⟨rfl, h⟩
  | [], b :: bs, r, s, _, hb, hr, _, h => by
    rw [List.nil_append] at h
    exact absurd (hb b List.mem_cons_self) (hr b (by rw [h]; rfl))
  | a :: as, [], r, s, ha, _, _, hs, h => by
    rw [List.nil_append] at h
    exact absurd (ha a List.mem_cons_self) (hs a (by rw [← h]; rfl))
  | a :: as, b :: bs, r, s, ha, hb, hr, hs, h => by
    rw [List.cons_append, List.cons_append, List.cons.injEq] at h
    obtain ⟨h1, h2⟩ := span_eq (fun c hc => ha c (List.mem_cons_of_mem _ hc)) (fun c hc => hb c (List.mem_cons_of_mem _ hc)) hr hs h.2
    exact ⟨by rw [h.1, h1], h2⟩

private theorem no_underscore {w : Str} (h : LowerWord w) : ∀ c ∈ w, c ≠ '_' := fun c hc e => absurd (e ▸ (h.2 c hc).1) (by decide)

private theorem joined_inj : ∀ {ws vs : List Str}, ws ≠ [] → vs ≠ [] → (∀ w ∈ ws, LowerWord w) → (∀ w ∈ vs, LowerWord w) →
    ['_'].intercalate ws = ['_'].intercalate vs → ws = vs
  | [], _, h, _, _, _, _ => absurd rfl h
  | _, [], _, h, _, _, _ => absurd rfl h
  | w :: ws, v :: vs, _, _, hw, hv, h => by
    have key : ∀ (w : Str) (ws : List Str), ∃ r, ['_'].intercalate (w :: ws) = w ++ r ∧ (∀ c, r.head? = some c → ¬ c ≠ '_') ∧
        (ws = [] ∧ r = [] ∨ ws ≠ [] ∧ r = '_' :: ['_'].intercalate ws) := by
      intro w ws
      cases ws with
      | nil => exact ⟨[], by simp [List.intercalate], by simp, .inl ⟨rfl, rfl⟩⟩
      | cons v vs => exact ⟨'_' :: ['_'].intercalate (v :: vs), by simp [List.intercalate], by simp, .inr ⟨by simp, rfl⟩⟩
    obtain ⟨r, h1, h2, h3⟩ := key w ws
    obtain ⟨s, k1, k2, k3⟩ := key v vs
    rw [h1, k1] at h
    obtain ⟨e1, e2⟩ := span_eq (no_underscore (hw w List.mem_cons_self)) (no_underscore (hv v List.mem_cons_self)) h2 k2 h
    subst e1 e2
    rcases h3 with ⟨a1, a2⟩ | ⟨a1, a2⟩ <;> rcases k3 with ⟨b1, b2⟩ | ⟨b1, b2⟩
    · rw [a1, b1]
    · rw [a2] at b2; cases b2
    · rw [a2] at b2; cases b2
    · rw [a2] at b2
      rw [joined_inj a1 b1 (fun x hx => hw x (List.mem_cons_of_mem _ hx)) (fun x hx => hv x (List.mem_cons_of_mem _ hx)) (List.cons.inj b2).2]

private theorem sanitize_inj (U : UnicodeTable) {s t : Str} (hs : s.head? ≠ some '_') (ht : t.head? ≠ some '_')
    (h : sanitize U s = sanitize U t) : s = t := by
  rcases sanitize_or U s with a | a <;> rcases sanitize_or U t with b | b <;> rw [a, b] at h
  · exact h
  · rw [h] at hs; exact absurd rfl hs
  · rw [← h] at ht; exact absurd rfl ht
  · exact (List.cons.inj h).2

private theorem words_ne {t : Str} {ws : List Str} (h : Separated t ws) : ws ≠ [] := by cases h <;> simp

private theorem joined_head {ws : List Str} (hne : ws ≠ []) (h : ∀ w ∈ ws, LowerWord w) : (['_'].intercalate ws).head? ≠ some '_' := by
  cases ws with
  | nil => exact absurd rfl hne
  | cons w ws =>
    have hw := h w List.mem_cons_self
    have hn := no_underscore hw
    cases w with
    | nil => exact absurd rfl hw.1
    | cons c cs =>
      have hc := hn c List.mem_cons_self
      cases ws <;> simpa [List.intercalate] using hc

/-- **C31** Two names of several words have the same field name exactly if they have the same words: the separators do not matter. -/
theorem C31_field_words (U : UnicodeTable) (a b : Str) (ws vs : List Str) (ha : Separated a ws) (hb : Separated b vs) :
    defaultFormatName U a = defaultFormatName U b ↔ ws = vs := by
  rw [C30_field_words U a ws ha, C30_field_words U b vs hb]
  refine ⟨fun h => ?_, fun h => by rw [h]⟩
  have hw := words_lower ha
  have hv := words_lower hb
  exact joined_inj (words_ne ha) (words_ne hb) hw hv (sanitize_inj U (joined_head (words_ne ha) hw) (joined_head (words_ne hb) hv) h)

private theorem capital_of {w : Str} (h : LowerWord w) : ∃ v, Capital w v := by
  cases w with
  | nil => exact absurd rfl h.1
  | cons c cs =>
    refine ⟨toAsciiUpper c :: cs, .mk ?_⟩
    have := asciiLower_iff.1 (lower_of (h.2 c List.mem_cons_self))
    rw [toNat_upper, if_pos (by omega)]
    omega

private theorem capitals_of : ∀ {ws : List Str}, (∀ w ∈ ws, LowerWord w) → ∃ vs, List.Forall₂ Capital ws vs
  | [], _ => ⟨[], .nil⟩
  | w :: ws, h => by
    obtain ⟨v, hv⟩ := capital_of (h w List.mem_cons_self)
    obtain ⟨vs, hvs⟩ := capitals_of (ws := ws) fun x hx => h x (List.mem_cons_of_mem _ hx)
    exact ⟨v :: vs, .cons hv hvs⟩

private theorem capitals_head {ws vs : List Str} (h : List.Forall₂ Capital ws vs) (hw : ∀ w ∈ ws, LowerWord w) :
    ∀ c, vs.flatten.head? = some c → asciiUpper c = true := by
  cases h with
  | nil => intro c hc; cases hc
  | cons a _ =>
    cases a with
    | @mk c d cs h =>
      intro x hx
      cases hx
      have := asciiLower_iff.1 (lower_of ((hw _ List.mem_cons_self).2 c List.mem_cons_self))
      exact asciiUpper_iff.2 (by omega)

private theorem capitals_inj : ∀ {ws vs ws' vs' : List Str}, List.Forall₂ Capital ws vs → List.Forall₂ Capital ws' vs' →
    (∀ w ∈ ws, LowerWord w) → (∀ w ∈ ws', LowerWord w) → vs.flatten = vs'.flatten → ws = ws' := by
  intro ws vs ws' vs' h
  induction h generalizing ws' vs' with
  | nil =>
    intro h' _ _ e
    cases h' with
    | nil => rfl
    | cons a _ => cases a; cases e
  | @cons w v ws vs a ht ih =>
    intro h' hw hw' e
    cases h' with
    | nil => cases a; cases e
    | @cons w' v' ws' vs' a' ht' =>
      have tw := fun x hx => hw x (List.mem_cons_of_mem _ hx)
      have tw' := fun x hx => hw' x (List.mem_cons_of_mem _ hx)
      have up : ∀ {ws vs : List Str}, List.Forall₂ Capital ws vs → (∀ w ∈ ws, LowerWord w) →
          ∀ c, vs.flatten.head? = some c → ¬ asciiLower c = true := by
        intro ws vs h hw c hc hl
        have := asciiUpper_iff.1 (capitals_head h hw c hc)
        have := asciiLower_iff.1 hl
        omega
      have lw := (hw w List.mem_cons_self).2
      have lw' := (hw' w' List.mem_cons_self).2
      cases a with
      | @mk c d cs h1 =>
        cases a' with
        | @mk c' d' cs' h2 =>
          rw [List.flatten_cons, List.flatten_cons, List.cons_append, List.cons_append, List.cons.injEq] at e
          obtain ⟨e1, e2⟩ := span_eq (fun x hx => lower_of (lw x (List.mem_cons_of_mem _ hx)))
            (fun x hx => lower_of (lw' x (List.mem_cons_of_mem _ hx))) (up ht tw) (up ht' tw') e.2
          have e3 : c = c' := char_ext (a := c) (b := c') (by rw [h1, h2, e.1])
          rw [e1, e3, ih ht' tw tw' e2]

/-- **C31** Likewise two names of several words have the same type name exactly if they have the same words. -/
theorem C31_type_words (U : UnicodeTable) (a b : Str) (ws vs : List Str) (ha : Separated a ws) (hb : Separated b vs) :
    defaultFormatType U a none = defaultFormatType U b none ↔ ws = vs := by
  have hw := words_lower ha
  have hv := words_lower hb
  obtain ⟨xs, hx⟩ := capitals_of hw
  obtain ⟨ys, hy⟩ := capitals_of hv
  rw [C30_type_words U a ws xs ha hx, C30_type_words U b vs ys hb hy]
  have un : asciiUpper '_' ≠ true := by decide
  constructor
  · intro h
    exact capitals_inj hx hy hw hv (sanitize_inj U (fun e => un (capitals_head hx hw _ e)) (fun e => un (capitals_head hy hv _ e)) h)
  · rintro rfl
    have e : ∀ {ws xs ys : List Str}, List.Forall₂ Capital ws xs → List.Forall₂ Capital ws ys → xs = ys := by
      intro ws xs ys h
      induction h generalizing ys with
      | nil => intro h; cases h; rfl
      | cons a _ ih => intro h; cases h with | cons b h => rw [capital_unique a b, ih h]
    rw [e hx hy]

example : Separated "my-type".toList ["my".toList, "type".toList] ∧ Separated "my_type".toList ["my".toList, "type".toList] ∧
    Separated "mytype".toList ["mytype".toList] ∧
    ∀ U, defaultFormatName U "my-type".toList = defaultFormatName U "my_type".toList ∧
      defaultFormatName U "my-type".toList ≠ defaultFormatName U "mytype".toList ∧
      defaultFormatType U "my-type".toList none = defaultFormatType U "my_type".toList none ∧
      defaultFormatType U "my-type".toList none ≠ defaultFormatType U "mytype".toList none := by
  have lw : ∀ w ∈ ["my".toList, "type".toList, "mytype".toList], LowerWord w := by unfold LowerWord; decide
  have h1 : Separated "my-type".toList ["my".toList, "type".toList] :=
    .more (s := ['-']) (lw "my".toList (by decide)) (by decide) (by decide) (.one (lw "type".toList (by decide)))
  have h2 : Separated "my_type".toList ["my".toList, "type".toList] :=
    .more (s := ['_']) (lw "my".toList (by decide)) (by decide) (by decide) (.one (lw "type".toList (by decide)))
  have h3 : Separated "mytype".toList ["mytype".toList] := .one (lw "mytype".toList (by decide))
  exact ⟨h1, h2, h3, fun U => ⟨(C31_field_words U _ _ _ _ h1 h2).2 rfl, fun e => absurd ((C31_field_words U _ _ _ _ h1 h3).1 e) (by decide),
    (C31_type_words U _ _ _ _ h1 h2).2 rfl, fun e => absurd ((C31_type_words U _ _ _ _ h1 h3).1 e) (by decide)⟩⟩

private theorem camel_word {w v : Str} (h : Capital w v) (hw : LowerWord w ∧ 2 ≤ w.length) : CamelWord v ∧ v.map toAsciiLower = w := by
  cases h with
  | @mk c d cs h =>
    have hl := fun x hx => lower_of (hw.1.2 x hx)
    have hc := asciiLower_iff.1 (hl c List.mem_cons_self)
    have ht : ∀ x ∈ cs, asciiLower x = true := fun x hx => hl x (List.mem_cons_of_mem _ hx)
    have hu : asciiUpper d = true := asciiUpper_iff.2 (by omega)
    refine ⟨?_, ?_⟩
    · cases cs with
      | nil => exact absurd hw.2 (by simp)
      | cons e es => exact ⟨d, e, es, rfl, hu, ht e List.mem_cons_self, fun x hx => ht x (List.mem_cons_of_mem _ hx)⟩
    · rw [List.map_cons, map_lower_fix ht]
      congr 1
      apply char_ext
      have := asciiUpper_iff.1 hu
      rw [toNat_lower, if_pos (by omega)]
      omega

private theorem camel_words {ws vs : List Str} (h : List.Forall₂ Capital ws vs) (hw : ∀ x ∈ ws, LowerWord x ∧ 2 ≤ x.length) :
    (∀ v ∈ vs, CamelWord v) ∧ vs.flatMap (fun v => '_' :: v.map toAsciiLower) = ws.flatMap ('_' :: ·) := by
  induction h with
  | nil => exact ⟨fun _ h => (by cases h), rfl⟩
  | cons a _ ih =>
    obtain ⟨h1, h2⟩ := camel_word a (hw _ List.mem_cons_self)
    obtain ⟨h3, h4⟩ := ih fun x hx => hw x (List.mem_cons_of_mem _ hx)
    refine ⟨fun v hv => ?_, by rw [List.flatMap_cons, List.flatMap_cons, h2, h4]⟩
    rcases List.mem_cons.1 hv with rfl | hv
    · exact h1
    · exact h3 v hv

private theorem joined_cons (w : Str) (ws : List Str) : ['_'].intercalate (w :: ws) = w ++ ws.flatMap ('_' :: ·) := by
  induction ws generalizing w with
  | nil => simp [List.intercalate]
  | cons v vs ih => rw [List.flatMap_cons, List.cons_append, ← ih v]; simp [List.intercalate]

private theorem humps_last {w : Str} {vs : List Str} (hw : LowerWord w) (hv : ∀ v ∈ vs, CamelWord v) :
    ∃ c, (w ++ vs.flatten).getLast? = some c ∧ asciiAlnum c = true := by
  by_cases hne : vs = []
  · subst hne
    rw [List.flatten_nil, List.append_nil]
    cases hl : w.getLast? with
    | none => exact absurd (List.getLast?_eq_none_iff.1 hl) hw.1
    | some c => exact ⟨c, rfl, alnum_of_lower (lower_of (hw.2 c (List.mem_of_getLast? hl)))⟩
  · obtain ⟨c, h1, h2⟩ := camel_last hv hne
    exact ⟨c, by rw [List.getLast?_append, h1]; rfl, h2⟩

private theorem humps_alnum {w : Str} {vs : List Str} (hw : LowerWord w) (hv : ∀ v ∈ vs, CamelWord v) :
    ∀ c ∈ w ++ vs.flatten, asciiAlnum c = true := by
  intro c hc
  rcases List.mem_append.1 hc with hc | hc
  · exact alnum_of_lower (lower_of (hw.2 c hc))
  · obtain ⟨v, hm, hc⟩ := List.mem_flatten.1 hc
    obtain ⟨c0, d, ds, rfl, h1, h2, h3⟩ := hv v hm
    rcases List.mem_cons.1 hc with rfl | hc
    · exact alnum_of_upper h1
    · rcases List.mem_cons.1 hc with rfl | hc
      · exact alnum_of_lower h2
      · exact alnum_of_lower (h3 _ hc)

private theorem no_colon {t : Str} (h : ∀ c ∈ t, asciiAlnum c = true) : ':' ∉ t := fun hc => absurd (h _ hc) (by decide)

private theorem humps_snake (U : UnicodeTable) {w : Str} {vs : List Str} (hw : LowerWord w) (hv : ∀ v ∈ vs, CamelWord v) :
    toSnakeCase U (w ++ vs.flatten) = w ++ vs.flatMap (fun v => '_' :: v.map toAsciiLower) := by
  obtain ⟨e, h1, h2⟩ := humps_last hw hv
  rw [toSnakeCase, trimRight_id U h1 (alnum_of_ascii U h2)]
  have key : ∀ whole rest : Str, snakeGo U whole 0 true (w ++ rest) = w ++ snakeGo U whole w.length false rest := by
    intro whole rest
    cases w with
    | nil => exact absurd rfl hw.1
    | cons c cs =>
      have hc := lower_of (hw.2 c List.mem_cons_self)
      rw [List.cons_append, snakeGo]
      simp only [(small U hc).1, Bool.not_true, Bool.false_and, Bool.false_eq_true, if_false]
      rw [snakeGo_lower U whole (fun d hd => lower_of (hw.2 d (List.mem_cons_of_mem _ hd))), lower_fix hc, utf8Size_alnum (alnum_of_lower hc)]
      rw [List.length_cons, Nat.zero_add, Nat.add_comm 1, List.cons_append]
  rw [key, snakeGo_camel U (w ++ vs.flatten) w vs hv rfl]

private theorem humps_pascal (U : UnicodeTable) {w v : Str} {vs : List Str} (hw : LowerWord w ∧ 2 ≤ w.length) (hc : Capital w v)
    (hv : ∀ v ∈ vs, CamelWord v) : toPascalCase U (w ++ vs.flatten) = v ++ vs.flatten := by
  obtain ⟨e, h1, h2⟩ := humps_last hw.1 hv
  rw [toPascalCase, trimRight_id U h1 (alnum_of_ascii U h2)]
  cases hc with
  | @mk c d cs hcd =>
    have hl := fun x hx => lower_of (hw.1.2 x hx)
    have hc := hl c List.mem_cons_self
    obtain ⟨a1, a2, a3⟩ := small U hc
    have hup : toAsciiUpper c = d := by
      apply char_ext
      have := asciiLower_iff.1 hc
      rw [toNat_upper, if_pos (by omega)]
      omega
    cases cs with
    | nil => exact absurd hw.2 (by simp)
    | cons x xs =>
      have hx := hl x (by simp)
      have hxs : ∀ y ∈ xs, asciiLower y = true := fun y hy => hl y (by simp [hy])
      obtain ⟨b1, b2, b3⟩ := small U hx
      cases hlast : (x :: xs).getLast? with
      | none => simp at hlast
      | some z =>
        have hz : asciiLower z = true := by
          rcases List.mem_cons.1 (List.mem_of_getLast? hlast) with rfl | h
          · exact hx
          · exact hxs z h
        rw [List.cons_append, pascalGo]
        simp only [a1, a2, Bool.not_true, Bool.and_false, Bool.true_or, Bool.false_eq_true, if_false, if_true]
        rw [List.cons_append, pascalGo]
        simp only [b1, b2, b3, Bool.not_true, Bool.false_and, Bool.and_false, Bool.or_false, Bool.false_eq_true, if_false]
        rw [pascalGo_lower U hxs x hx z vs.flatten hlast, pascalGo_camel U vs hv z hz, hup, lower_fix hx]
        rfl

/-- **C30** The field name for the words in any style (with separators, with capital letters and with or without a capital letter at the
beginning) consists of the words with underscores between them (and is sanitized). -/
theorem C30_field_styles (U : UnicodeTable) (t : Str) (ws : List Str) (h : Worded t ws) :
    defaultFormatName U t = sanitize U (['_'].intercalate ws) := by
  rcases h with h | h
  · exact C30_field_words U t ws h
  cases h with
  | @mk w v ws vs h1 h2 h3 =>
    obtain ⟨k1, k2⟩ := camel_words h2 fun x hx => h3 x (List.mem_cons_of_mem _ hx)
    have hw := h3 w List.mem_cons_self
    rw [joined_cons, ← k2]
    rcases h1 with rfl | h1
    · rw [defaultFormatName, lastSegment_iff.2 ⟨no_colon (humps_alnum hw.1 k1), .inl rfl⟩, humps_snake U hw.1 k1]
    · obtain ⟨a1, a2⟩ := camel_word h1 hw
      have := C30_field_camel U v vs fun x hx => (List.mem_cons.1 hx).elim (fun e => e ▸ a1) (k1 x)
      rw [List.flatten_cons] at this
      rw [this, a2]

/-- **C30** The type name for the words in any style consists of the words with capital letters (and is sanitized). -/
theorem C30_type_styles (U : UnicodeTable) (t : Str) (ws vs : List Str) (h : Worded t ws) (hv : List.Forall₂ Capital ws vs) :
    defaultFormatType U t none = sanitize U vs.flatten := by
  rcases h with h | h
  · exact C30_type_words U t ws vs h hv
  cases h with
  | @mk w v ws xs h1 h2 h3 =>
    have hw := h3 w List.mem_cons_self
    obtain ⟨k1, -⟩ := camel_words h2 fun x hx => h3 x (List.mem_cons_of_mem _ hx)
    have e : ∀ {ws xs ys : List Str}, List.Forall₂ Capital ws xs → List.Forall₂ Capital ws ys → xs = ys := by
      intro ws xs ys h
      induction h generalizing ys with
      | nil => intro h; cases h; rfl
      | cons a _ ih => intro h; cases h with | cons b h => rw [capital_unique a b, ih h]
    cases hv with
    | @cons _ y _ ys a hv =>
      obtain rfl := e h2 hv
      obtain ⟨a1, -⟩ := camel_word a hw
      rw [List.flatten_cons]
      rcases h1 with rfl | h1
      · rw [defaultFormatType, splitName_none.2 ⟨no_colon (humps_alnum hw.1 k1), rfl⟩]
        show sanitize U (filterTypeName U (toPascalCase U _)) = _
        rw [typeName_eq, humps_pascal U hw a k1, List.filter_eq_self.2]
        intro c hc
        rcases List.mem_append.1 hc with hc | hc
        · exact capital_alnum a hw.1 c hc
        · exact humps_alnum hw.1 k1 c (List.mem_append_right _ hc)
      · obtain rfl := capital_unique a h1
        have := C30_type_camel U (y :: xs) fun x hx => (List.mem_cons.1 hx).elim (fun e => e ▸ a1) (k1 x)
        rwa [List.flatten_cons] at this

private theorem worded {t : Str} {ws : List Str} (h : Worded t ws) : ws ≠ [] ∧ ∀ w ∈ ws, LowerWord w := by
  rcases h with h | h
  · exact ⟨words_ne h, words_lower h⟩
  · cases h with | mk _ _ h3 => exact ⟨by simp, fun w hw => (h3 w hw).1⟩

theorem worded_bare {t : Str} {ws : List Str} (h : Worded t ws) : ':' ∉ t := by
  rcases h with h | h
  · exact words_chars h
  cases h with
  | @mk w v ws vs h1 h2 h3 =>
    have hw := h3 w List.mem_cons_self
    obtain ⟨k1, -⟩ := camel_words h2 fun x hx => h3 x (List.mem_cons_of_mem _ hx)
    rcases h1 with rfl | h1
    · exact no_colon (humps_alnum hw.1 k1)
    · intro hc
      rcases List.mem_append.1 hc with hc | hc
      · exact no_colon (capital_alnum h1 hw.1) hc
      · exact no_colon (humps_alnum hw.1 k1) (List.mem_append_right _ hc)

/-- **C31** Two names in any of the styles have the same field name exactly if they have the same words. -/
theorem C31_field_styles (U : UnicodeTable) (a b : Str) (ws vs : List Str) (ha : Worded a ws) (hb : Worded b vs) :
    defaultFormatName U a = defaultFormatName U b ↔ ws = vs := by
  rw [C30_field_styles U a ws ha, C30_field_styles U b vs hb]
  refine ⟨fun h => ?_, fun h => by rw [h]⟩
  obtain ⟨n1, hw⟩ := worded ha
  obtain ⟨n2, hv⟩ := worded hb
  exact joined_inj n1 n2 hw hv (sanitize_inj U (joined_head n1 hw) (joined_head n2 hv) h)

/-- **C31** Likewise for type names. -/
theorem C31_type_styles (U : UnicodeTable) (a b : Str) (ws vs : List Str) (ha : Worded a ws) (hb : Worded b vs) :
    defaultFormatType U a none = defaultFormatType U b none ↔ ws = vs := by
  obtain ⟨-, hw⟩ := worded ha
  obtain ⟨-, hv⟩ := worded hb
  obtain ⟨xs, hx⟩ := capitals_of hw
  obtain ⟨ys, hy⟩ := capitals_of hv
  have un : asciiUpper '_' ≠ true := by decide
  constructor
  · rw [C30_type_styles U a ws xs ha hx, C30_type_styles U b vs ys hb hy]
    intro h
    exact capitals_inj hx hy hw hv (sanitize_inj U (fun e => un (capitals_head hx hw _ e)) (fun e => un (capitals_head hy hv _ e)) h)
  · rintro rfl
    rw [C30_type_styles U a ws xs ha hx, C30_type_styles U b ws xs hb hx]

/-- **C30** (finding) The assumption on single letters is needed: the word after a single letter at the beginning loses its capital
letter in the name of the type. -/
theorem C30_styles_violated (U : UnicodeTable) : defaultFormatType U "aType".toList none = "Atype".toList ∧
    defaultFormatType U "a-type".toList none = "AType".toList := by
  constructor
  · rw [defaultFormatType_ascii U (by decide)]; decide +kernel
  · rw [defaultFormatType_ascii U (by decide)]; decide +kernel

example : Worded "my-own.type".toList ["my".toList, "own".toList, "type".toList] ∧
    Worded "myOwnType".toList ["my".toList, "own".toList, "type".toList] ∧ Worded "MyOwnType".toList ["my".toList, "own".toList, "type".toList] ∧
    (∀ U, defaultFormatName U "myOwnType".toList = sanitize U "my_own_type".toList ∧
      defaultFormatType U "myOwnType".toList none = sanitize U "MyOwnType".toList) ∧
    ∀ U, defaultFormatName U "myOwnType".toList = defaultFormatName U "my-own.type".toList ∧
      defaultFormatType U "myOwnType".toList none = defaultFormatType U "MyOwnType".toList none := by
  have lw : ∀ w ∈ ["my".toList, "own".toList, "type".toList], LowerWord w ∧ 2 ≤ w.length := by unfold LowerWord; decide
  have h1 : Worded "my-own.type".toList ["my".toList, "own".toList, "type".toList] :=
    .inl (.more (s := ['-']) (lw "my".toList (by decide)).1 (by decide) (by decide) (.more (s := ['.']) (lw "own".toList (by decide)).1 (by decide)
      (by decide) (.one (lw "type".toList (by decide)).1)))
  have c1 : Capital "my".toList "My".toList := .mk (by decide)
  have c2 : List.Forall₂ Capital ["own".toList, "type".toList] ["Own".toList, "Type".toList] := .cons (.mk (by decide)) (.cons (.mk (by decide)) .nil)
  have h2 : Worded "myOwnType".toList ["my".toList, "own".toList, "type".toList] := .inr (.mk (v := "my".toList) (.inl rfl) c2 lw)
  have h3 : Worded "MyOwnType".toList ["my".toList, "own".toList, "type".toList] := .inr (.mk (v := "My".toList) (.inr c1) c2 lw)
  exact ⟨h1, h2, h3, fun U => ⟨C30_field_styles U _ _ h2, C30_type_styles U _ _ _ h2 (.cons c1 c2)⟩,
    fun U => ⟨(C31_field_styles U _ _ _ _ h2 h1).2 rfl, (C31_type_styles U _ _ _ _ h2 h3).2 rfl⟩⟩

end Verif.Props
