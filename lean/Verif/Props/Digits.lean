import Verif.Props.Words

/-! # C30: names with digits -/

namespace Verif.Props

open Verif Verif.Model Verif.Spec Verif.Lemmas.Gen Verif.Inflector

private theorem digit_facts (U : UnicodeTable) {c : Char} (h : '0' ≤ c ∧ c ≤ '9') :
    U.isAlphanumeric c = true ∧ U.isNumeric c = true ∧ asciiAlnum c = true ∧ toAsciiUpper c = c ∧ toAsciiLower c = c ∧ c.utf8Size = 1 := by
  have hd : 48 ≤ c.toNat ∧ c.toNat ≤ 57 := ⟨h.1, h.2⟩
  have ha : asciiAlnum c = true := by rw [asciiAlnum_iff]; omega
  refine ⟨alnum_of_ascii U ha, ?_, ha, ?_, ?_, utf8Size_alnum ha⟩
  · rw [U.numeric_ascii c (by omega), Str.isAsciiDigit_iff]; omega
  · apply char_ext; rw [toNat_upper, if_neg (by omega)]
  · apply char_ext; rw [toNat_lower, if_neg (by omega)]

private theorem snake_digit (U : UnicodeTable) {whole pre rest : Str} {c x : Char} (hw : whole = pre ++ c :: rest)
    (hx : pre.getLast? = some x) (hl : asciiLower x = true) (hc : '0' ≤ c ∧ c ≤ '9') :
    snakeGo U whole pre.length false (c :: rest) = '_' :: c :: snakeGo U whole (pre.length + 1) false rest := by
  obtain ⟨h1, -, -, h4, h5, h6⟩ := digit_facts U hc
  have hp : nextOrPrevLower U whole pre.length = true := by
    have : whole[pre.length - 1]? = some x := by
      rw [hw, List.getElem?_append_left, ← List.getLast?_eq_getElem?, hx]
      cases pre with
      | nil => cases hx
      | cons a as => simp
    rw [nextOrPrevLower, this, Option.getD_some, U.lower_ascii x (alnum_lt (alnum_of_lower hl)), hl, Bool.or_true]
  rw [snakeGo]
  simp only [h1, h4, h5, h6, hp, Bool.not_true, Bool.false_eq_true, if_false, beq_self_eq_true, Bool.not_false, Bool.and_self, if_true]

private theorem word_last {w : Str} (h : LowerWord w) : ∃ x, w.getLast? = some x ∧ asciiLower x = true := by
  cases hl : w.getLast? with
  | none => exact absurd (List.getLast?_eq_none_iff.1 hl) h.1
  | some c => exact ⟨c, rfl, (by simp only [asciiLower, Bool.and_eq_true, decide_eq_true_eq]; exact h.2 c (List.mem_of_getLast? hl))⟩

private theorem word_lower {w : Str} (h : LowerWord w) : ∀ c ∈ w, asciiLower c = true := fun c hc => by
  simp only [asciiLower, Bool.and_eq_true, decide_eq_true_eq]; exact h.2 c hc

private theorem snake_numbered (U : UnicodeTable) (ps : List (Char × Str)) (o : Option Char)
    (hp : ∀ p ∈ ps, ('0' ≤ p.1 ∧ p.1 ≤ '9') ∧ LowerWord p.2) (ho : ∀ c ∈ o, '0' ≤ c ∧ c ≤ '9') :
    ∀ (whole pre : Str) (x : Char), whole = pre ++ (ps.flatMap (fun p => p.1 :: p.2) ++ o.toList) → pre.getLast? = some x →
      asciiLower x = true → snakeGo U whole pre.length false (ps.flatMap (fun p => p.1 :: p.2) ++ o.toList) =
        ps.flatMap (fun p => '_' :: p.1 :: p.2) ++ o.toList.flatMap (fun c => ['_', c]) := by
  induction ps with
  | nil =>
    intro whole pre x hw hx hl
    cases o with
    | none => rfl
    | some c =>
      show snakeGo U whole pre.length false [c] = ['_', c]
      rw [snake_digit U (rest := []) hw hx hl (ho c rfl)]
      rfl
  | cons p ps ih =>
    intro whole pre x hw hx hl
    obtain ⟨hd, hv⟩ := hp p List.mem_cons_self
    obtain ⟨y, hy, hly⟩ := word_last hv
    have e1 : (p :: ps).flatMap (fun p => p.1 :: p.2) ++ o.toList = p.1 :: (p.2 ++ (ps.flatMap (fun p => p.1 :: p.2) ++ o.toList)) := by simp
    rw [e1] at hw ⊢
    rw [snake_digit U hw hx hl hd, snakeGo_lower U whole (word_lower hv)]
    have := ih (fun q hq => hp q (List.mem_cons_of_mem _ hq)) whole (pre ++ p.1 :: p.2) y (by rw [hw]; simp)
      (by rw [List.getLast?_append, List.getLast?_cons, hy]; rfl) hly
    have e2 : (pre ++ p.1 :: p.2).length = pre.length + 1 + p.2.length := by simp; omega
    rw [e2] at this
    rw [this]
    simp

private theorem numbered_chars {w : Str} {ps : List (Char × Str)} {o : Option Char} (hw : LowerWord w)
    (hp : ∀ p ∈ ps, ('0' ≤ p.1 ∧ p.1 ≤ '9') ∧ LowerWord p.2) (ho : ∀ c ∈ o, '0' ≤ c ∧ c ≤ '9') :
    ∀ c ∈ w ++ (ps.flatMap (fun p => p.1 :: p.2) ++ o.toList), asciiAlnum c = true := by
  intro c hc
  rcases List.mem_append.1 hc with hc | hc
  · exact alnum_of_lower (word_lower hw c hc)
  rcases List.mem_append.1 hc with hc | hc
  · obtain ⟨p, hm, hc⟩ := List.mem_flatMap.1 hc
    rcases List.mem_cons.1 hc with rfl | hc
    · exact (digit_facts .ascii (hp p hm).1).2.2.1
    · exact alnum_of_lower (word_lower (hp p hm).2 c hc)
  · exact (digit_facts .ascii (ho c (by simpa using hc))).2.2.1

private theorem trim_all (U : UnicodeTable) {s : Str} (h : ∀ c ∈ s, asciiAlnum c = true) : trimRight U s = s := by
  cases hl : s.getLast? with
  | none => rw [List.getLast?_eq_none_iff.1 hl]; rfl
  | some c => exact trimRight_id U hl (alnum_of_ascii U (h c (List.mem_of_getLast? hl)))

/-- **C30** A single digit between words or after them is set off by an underscore in front of it, but not behind it. -/
theorem C30_field_digits (U : UnicodeTable) (w : Str) (ps : List (Char × Str)) (o : Option Char) (hw : LowerWord w)
    (hp : ∀ p ∈ ps, ('0' ≤ p.1 ∧ p.1 ≤ '9') ∧ LowerWord p.2) (ho : ∀ c ∈ o, '0' ≤ c ∧ c ≤ '9') :
    defaultFormatName U (w ++ (ps.flatMap (fun p => p.1 :: p.2) ++ o.toList)) =
      sanitize U (w ++ (ps.flatMap (fun p => '_' :: p.1 :: p.2) ++ o.toList.flatMap (fun c => ['_', c]))) := by
  have hc := numbered_chars hw hp ho
  obtain ⟨x, hx, hl⟩ := word_last hw
  rw [defaultFormatName, lastSegment_iff.2 ⟨fun h => absurd (hc _ h) (by decide), .inl rfl⟩, toSnakeCase, trim_all U hc,
    ← snake_numbered U ps o hp ho _ w x rfl hx hl]
  generalize ps.flatMap (fun p => p.1 :: p.2) ++ o.toList = rest
  congr 1
  have key : ∀ whole : Str, snakeGo U whole 0 true (w ++ rest) = w ++ snakeGo U whole w.length false rest := by
    intro whole
    cases w with
    | nil => exact absurd rfl hw.1
    | cons c cs =>
      have hc := word_lower hw c List.mem_cons_self
      rw [List.cons_append, snakeGo]
      simp only [alnum_of_ascii U (alnum_of_lower hc), Bool.not_true, Bool.false_and, Bool.false_eq_true, if_false]
      rw [snakeGo_lower U whole (fun d hd => word_lower hw d (List.mem_cons_of_mem _ hd)), lower_fix hc, utf8Size_alnum (alnum_of_lower hc)]
      rw [List.length_cons, Nat.zero_add, Nat.add_comm 1, List.cons_append]
  exact key _

example : defaultFormatName .ascii "line2text".toList = "line_2text".toList ∧ LowerWord "line".toList ∧ LowerWord "text".toList ∧
    ∀ U, defaultFormatName U "line2text3".toList = sanitize U "line_2text_3".toList := by
  have h1 : LowerWord "line".toList := by unfold LowerWord; decide
  have h2 : LowerWord "text".toList := by unfold LowerWord; decide
  exact ⟨by decide +kernel, h1, h2, fun U => C30_field_digits U "line".toList [('2', "text".toList)] (some '3') h1
    (fun p hp => by obtain rfl := List.mem_singleton.1 hp; exact ⟨by decide, h2⟩) (fun c hc => by cases hc; decide)⟩

private theorem pascal_word (U : UnicodeTable) {w v : Str} (h : LowerWord w) (hv : Capital w v) (f : Bool) (last : Char) (rest : Str) :
    ∃ last', pascalGo U f true last (w ++ rest) = v ++ pascalGo U true false last' rest := by
  have hl := word_lower h
  have lowers : ∀ {s : Str}, (∀ c ∈ s, asciiLower c = true) → ∀ last : Char,
      ∃ last', pascalGo U true false last (s ++ rest) = s ++ pascalGo U true false last' rest := by
    intro s
    induction s with
    | nil => exact fun _ last => ⟨last, rfl⟩
    | cons c cs ih =>
      intro hs last
      have hc := hs c List.mem_cons_self
      have hlt := alnum_lt (alnum_of_lower hc)
      have := asciiLower_iff.1 hc
      have h1 := alnum_of_ascii U (alnum_of_lower hc)
      have h2 : U.isNumeric c = false := by rw [U.numeric_ascii c hlt, ← Bool.not_eq_true, Str.isAsciiDigit_iff]; omega
      have h3 : U.isUppercase c = false := by rw [U.upper_ascii c hlt, ← Bool.not_eq_true, asciiUpper_iff]; omega
      obtain ⟨l, e⟩ := ih (fun d hd => hs d (List.mem_cons_of_mem _ hd)) c
      refine ⟨l, ?_⟩
      rw [List.cons_append, pascalGo]
      simp only [h1, h2, h3, Bool.not_true, Bool.false_and, Bool.and_false, Bool.or_false, Bool.false_eq_true, if_false]
      rw [e, lower_fix hc]
      rfl
  cases hv with
  | @mk c d cs hcd =>
    have hc := hl c List.mem_cons_self
    have hlt := alnum_lt (alnum_of_lower hc)
    have := asciiLower_iff.1 hc
    have h1 := alnum_of_ascii U (alnum_of_lower hc)
    have h2 : U.isNumeric c = false := by rw [U.numeric_ascii c hlt, ← Bool.not_eq_true, Str.isAsciiDigit_iff]; omega
    have hu : toAsciiUpper c = d := by apply char_ext; rw [toNat_upper, if_pos (by omega)]; omega
    obtain ⟨l, e⟩ := lowers (fun x hx => hl x (List.mem_cons_of_mem _ hx)) last
    refine ⟨l, ?_⟩
    rw [List.cons_append, pascalGo]
    simp only [h1, h2, Bool.not_true, Bool.false_and, Bool.and_false, Bool.true_or, Bool.false_eq_true, if_false, if_true]
    rw [e, hu]
    rfl

private theorem pascal_digit (U : UnicodeTable) {c : Char} (h : '0' ≤ c ∧ c ≤ '9') (b : Bool) (last : Char) (rest : Str) :
    pascalGo U true b last (c :: rest) = c :: pascalGo U true true last rest := by
  obtain ⟨h1, h2, -⟩ := digit_facts U h
  rw [pascalGo]
  simp only [h1, h2, Bool.not_true, Bool.false_and, Bool.and_false, Bool.false_eq_true, if_false, if_true]

private theorem pascal_numbered (U : UnicodeTable) {ps qs : List (Char × Str)} (o : Option Char)
    (hq : List.Forall₂ (fun p q => p.1 = q.1 ∧ Capital p.2 q.2) ps qs)
    (hp : ∀ p ∈ ps, ('0' ≤ p.1 ∧ p.1 ≤ '9') ∧ LowerWord p.2) (ho : ∀ c ∈ o, '0' ≤ c ∧ c ≤ '9') (last : Char) :
    pascalGo U true false last (ps.flatMap (fun p => p.1 :: p.2) ++ o.toList) = qs.flatMap (fun p => p.1 :: p.2) ++ o.toList := by
  induction hq generalizing last with
  | nil =>
    cases o with
    | none => simp [pascalGo]
    | some c =>
      show pascalGo U true false last [c] = [c]
      rw [pascal_digit U (ho c rfl)]
      simp [pascalGo]
  | @cons p q ps qs h _ ih =>
    obtain ⟨hd, hv⟩ := hp p List.mem_cons_self
    have e1 : (p :: ps).flatMap (fun p => p.1 :: p.2) ++ o.toList = p.1 :: (p.2 ++ (ps.flatMap (fun p => p.1 :: p.2) ++ o.toList)) := by simp
    obtain ⟨l, e2⟩ := pascal_word U hv h.2 true last (ps.flatMap (fun p => p.1 :: p.2) ++ o.toList)
    rw [e1, pascal_digit U hd, e2, ih (fun x hx => hp x (List.mem_cons_of_mem _ hx)), h.1]
    simp

/-- **C30** In the name of a type the digits between words and after them are kept, and the letter after a digit is a capital letter. -/
theorem C30_type_digits (U : UnicodeTable) (w v : Str) (ps qs : List (Char × Str)) (o : Option Char) (hw : LowerWord w) (hv : Capital w v)
    (hp : ∀ p ∈ ps, ('0' ≤ p.1 ∧ p.1 ≤ '9') ∧ LowerWord p.2) (hq : List.Forall₂ (fun p q => p.1 = q.1 ∧ Capital p.2 q.2) ps qs)
    (ho : ∀ c ∈ o, '0' ≤ c ∧ c ≤ '9') :
    defaultFormatType U (w ++ (ps.flatMap (fun p => p.1 :: p.2) ++ o.toList)) none =
      sanitize U (v ++ (qs.flatMap (fun p => p.1 :: p.2) ++ o.toList)) := by
  have hc := numbered_chars hw hp ho
  have capital : ∀ {w v : Str}, Capital w v → LowerWord w → ∀ c ∈ v, asciiAlnum c = true := by
    intro w v h hw
    cases h with
    | @mk c d cs h =>
      intro x hx
      rcases List.mem_cons.1 hx with rfl | hx
      · have := asciiLower_iff.1 (word_lower hw c List.mem_cons_self)
        exact alnum_of_upper (asciiUpper_iff.2 (by omega))
      · exact alnum_of_lower (word_lower hw x (List.mem_cons_of_mem _ hx))
  have part : ∀ {ps qs : List (Char × Str)}, List.Forall₂ (fun p q => p.1 = q.1 ∧ Capital p.2 q.2) ps qs →
      (∀ p ∈ ps, ('0' ≤ p.1 ∧ p.1 ≤ '9') ∧ LowerWord p.2) → ∀ c ∈ qs.flatMap (fun p => p.1 :: p.2), asciiAlnum c = true := by
    intro ps qs hq
    induction hq with
    | nil => intro _ c hc; cases hc
    | cons a _ ih =>
      intro hp c hc
      have hh := hp _ List.mem_cons_self
      rw [List.flatMap_cons] at hc
      rcases List.mem_append.1 hc with hc | hc
      · rcases List.mem_cons.1 hc with rfl | hc
        · rw [← a.1]; exact (digit_facts .ascii hh.1).2.2.1
        · exact capital a.2 hh.2 c hc
      · exact ih (fun x hx => hp x (List.mem_cons_of_mem _ hx)) c hc
  rw [defaultFormatType, splitName_none.2 ⟨fun h => absurd (hc _ h) (by decide), rfl⟩]
  show sanitize U (filterTypeName U (toPascalCase U _)) = _
  obtain ⟨l, e⟩ := pascal_word U hw hv false ' ' (ps.flatMap (fun p => p.1 :: p.2) ++ o.toList)
  rw [typeName_eq, toPascalCase, trim_all U hc, e, pascal_numbered U o hq hp ho, List.filter_eq_self.2]
  intro c hc
  rcases List.mem_append.1 hc with hc | hc
  · exact capital hv hw c hc
  rcases List.mem_append.1 hc with hc | hc
  · exact part hq hp c hc
  · exact (digit_facts .ascii (ho c (by simpa using hc))).2.2.1

example : Capital "line".toList "Line".toList ∧ Capital "text".toList "Text".toList ∧
    ∀ U, defaultFormatType U "line2text3".toList none = sanitize U "Line2Text3".toList := by
  have h1 : LowerWord "line".toList := by unfold LowerWord; decide
  have h2 : LowerWord "text".toList := by unfold LowerWord; decide
  have c1 : Capital "line".toList "Line".toList := .mk (by decide)
  have c2 : Capital "text".toList "Text".toList := .mk (by decide)
  exact ⟨c1, c2, fun U => C30_type_digits U "line".toList "Line".toList [('2', "text".toList)] [('2', "Text".toList)] (some '3') h1 c1
    (fun p hp => by obtain rfl := List.mem_singleton.1 hp; exact ⟨by decide, h2⟩) (.cons ⟨rfl, c2⟩ .nil) (fun c hc => by cases hc; decide)⟩

end Verif.Props
