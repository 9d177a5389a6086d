import Verif.Lemmas.GenNames2
import Verif.Spec.XmlNames

/-! # Names which are kept as names of types -/

namespace Verif.Lemmas.Xml

open Verif Verif.Model Verif.Spec Verif.Inflector Verif.Lemmas.Gen

variable (U : UnicodeTable)

private theorem lower_lt {c : Char} (h : asciiLower c = true) : c.toNat < 128 := by
  have := asciiLower_iff.1 h; omega

private theorem upper_lt {c : Char} (h : asciiUpper c = true) : c.toNat < 128 := by
  have := asciiUpper_iff.1 h; omega

private theorem lower_alnum {c : Char} (h : asciiLower c = true) : asciiAlnum c = true := by
  simp [asciiAlnum, h]

private theorem upper_alnum {c : Char} (h : asciiUpper c = true) : asciiAlnum c = true := by
  simp [asciiAlnum, h]

private theorem digit_false {c : Char} (h : asciiLower c = true ∨ asciiUpper c = true) : U.isNumeric c = false := by
  have hlt : c.toNat < 128 := h.elim lower_lt upper_lt
  rw [U.numeric_ascii c hlt]
  have : ∀ n < 128, asciiLower (Char.ofNat n) = true ∨ asciiUpper (Char.ofNat n) = true →
      Str.isAsciiDigit (Char.ofNat n) = false := by decide
  have := this c.toNat hlt
  rw [Char.ofNat_toNat] at this
  exact this h

theorem builtInRow_ne {n : Str} (h : n ≠ []) : builtInRow n ≠ n := by
  intro e
  obtain ⟨row, h1, h2, h3⟩ := (builtInRow_iff n n).1 ⟨e, h⟩
  have : ∀ row ∈ readmeTable ++ undocumentedTable, row.1.toList ≠ row.2.toList := by decide +kernel
  exact this row h1 (h2.trans h3.symm)

private theorem dropWhile_nil {p : Char → Bool} {l : Str} : l.dropWhile p = [] ↔ ∀ x ∈ l, p x = true := by
  induction l with
  | nil => simp
  | cons a l ih =>
    by_cases h : p a = true
    · rw [List.dropWhile_cons_of_pos h, ih]; simp [h]
    · rw [List.dropWhile_cons_of_neg h]; simp [h]

theorem trimRight_cons {c : Char} {cs : Str} (h : U.isAlphanumeric c = true) :
    ∃ r, trimRight U (c :: cs) = c :: r := by
  unfold trimRight
  rw [List.reverse_cons]
  by_cases hx : ∃ x ∈ cs.reverse, U.isAlphanumeric x = true
  · obtain ⟨x, hx, hy⟩ := hx
    have : (cs.reverse ++ [c]).dropWhile (fun c => !U.isAlphanumeric c) =
        cs.reverse.dropWhile (fun c => !U.isAlphanumeric c) ++ [c] := by
      rw [List.dropWhile_append, if_neg]
      simp only [List.isEmpty_iff]
      intro e
      have := dropWhile_nil.1 e x hx
      simp [hy] at this
    rw [this, List.reverse_append]
    exact ⟨_, rfl⟩
  · have : (cs.reverse ++ [c]).dropWhile (fun c => !U.isAlphanumeric c) = [c] := by
      rw [List.dropWhile_append, if_pos]
      · rw [List.dropWhile_cons_of_neg (by simp [h])]
      · rw [List.isEmpty_iff]
        exact dropWhile_nil.2 fun x hx' => by
          have := fun k => hx ⟨x, hx', k⟩
          simpa using this
    rw [this]
    exact ⟨[], rfl⟩

/-- A name with a small first letter is not kept. -/
theorem typeName_lower {tns xsd : Option Namespace} {c : Char} {cs : Str} (h : asciiLower c = true) (hc : ':' ∉ c :: cs) :
    formatTypeName U tns xsd (c :: cs) ≠ c :: cs := by
  unfold formatTypeName matchBuiltInType defaultFormatType
  rw [splitName_none.2 ⟨hc, rfl⟩]
  dsimp only
  have key : sanitize U (filterTypeName U (toPascalCase U (c :: cs))) ≠ c :: cs := by
    obtain ⟨r, hr⟩ := trimRight_cons U (cs := cs) (alnum_of_ascii U (lower_alnum h))
    have hd := digit_false U (.inl h)
    rw [typeName_eq, toPascalCase, hr, pascalGo, alnum_of_ascii U (lower_alnum h), hd]
    simp only [Bool.not_true, Bool.and_false, Bool.false_eq_true, if_false, Bool.true_or, if_true]
    rw [List.filter_cons_of_pos (by rw [asciiAlnum_upper]; exact lower_alnum h)]
    have hne : toAsciiUpper c ≠ c := by
      intro e
      have h1 := toNat_upper c
      rw [e] at h1
      have := asciiLower_iff.1 h
      rw [if_pos this] at h1
      omega
    rcases sanitize_or U (toAsciiUpper c :: (pascalGo U true false ' ' r).filter asciiAlnum) with e | e
    · rw [e]; exact fun k => hne (List.cons.inj k).1
    · rw [e]
      intro k
      have := (List.cons.inj k).1
      rw [← this] at h
      exact absurd h (by decide)
  split
  · rename_i t ht
    split at ht
    · exact nomatch ht
    · split at ht
      · exact nomatch ht
      · rw [← Option.some.inj ht]
        exact builtInRow_ne (by simp)
  · exact key

/-! ## Names which are kept -/

private theorem trimRight_last {s : Str} {c : Char} (h : U.isAlphanumeric c = true) : trimRight U (s ++ [c]) = s ++ [c] := by
  unfold trimRight
  rw [List.reverse_append, List.reverse_singleton, List.singleton_append, List.dropWhile_cons_of_neg (by simp [h]),
    List.reverse_cons, List.reverse_reverse]

private theorem lower_keep {c : Char} (h : asciiLower c = true) : toAsciiLower c = c := by
  unfold toAsciiLower
  rw [if_neg]
  intro h'
  have h1 := asciiLower_iff.1 h
  have h2 := asciiUpper_iff.1 h'
  omega

private theorem upper_keep {c : Char} (h : asciiUpper c = true) : toAsciiUpper c = c := by
  unfold toAsciiUpper
  rw [if_neg]
  intro h'
  have h1 := asciiUpper_iff.1 h
  have h2 := asciiLower_iff.1 h'
  omega

private theorem lower_not_upper {c : Char} (h : asciiLower c = true) : asciiUpper c = false := by
  have h1 := asciiLower_iff.1 h
  rcases hc : asciiUpper c with _ | _
  · rfl
  · have := asciiUpper_iff.1 hc
    omega

/-- The rest of a word. -/
private theorem pascal_lower {l rest : Str} (hl : ∀ c ∈ l, asciiLower c = true) : ∀ {last : Char} (_ : l ≠ []),
    ∃ last', asciiLower last' = true ∧ pascalGo U true false last (l ++ rest) = l ++ pascalGo U true false last' rest := by
  induction l with
  | nil => intro _ h; exact absurd rfl h
  | cons c l ih =>
    intro last _
    have hc := hl c List.mem_cons_self
    have step : pascalGo U true false last (c :: (l ++ rest)) = c :: pascalGo U true false c (l ++ rest) := by
      rw [pascalGo, alnum_of_ascii U (lower_alnum hc), digit_false U (.inl hc), U.upper_ascii c (lower_lt hc),
        lower_not_upper hc, lower_keep hc]
      simp
    by_cases h : l = []
    · subst h; exact ⟨c, hc, step⟩
    · obtain ⟨last', h1, h2⟩ := ih (fun x hx => hl x (List.mem_cons_of_mem _ hx)) (last := c) h
      exact ⟨last', h1, by rw [List.cons_append, step, h2]; rfl⟩

private theorem pascal_words {ws : List Str}
    (hw : ∀ w ∈ ws, ∃ u l, w = u :: l ∧ asciiUpper u = true ∧ l ≠ [] ∧ ∀ c ∈ l, asciiLower c = true) :
    ∀ {last : Char}, asciiLower last = true → pascalGo U true false last ws.flatten = ws.flatten := by
  induction ws with
  | nil => intro _ _; rfl
  | cons w ws ih =>
    intro last hlast
    obtain ⟨u, l, rfl, h1, h2, h3⟩ := hw w List.mem_cons_self
    have hsp : (last != ' ') = true := by
      rw [bne_iff_ne]; rintro rfl; exact absurd hlast (by decide)
    obtain ⟨last', h4, h5⟩ := pascal_lower U (rest := ws.flatten) h3 (last := last) h2
    rw [List.flatten_cons, List.cons_append, pascalGo, alnum_of_ascii U (upper_alnum h1), digit_false U (.inr h1),
      U.upper_ascii u (upper_lt h1), U.lower_ascii last (lower_lt hlast), hlast, h1, hsp, upper_keep h1]
    simp only [Bool.not_true, Bool.and_false, Bool.false_eq_true, if_false, Bool.and_true, Bool.or_true, if_true]
    rw [h5, ih (fun w hw' => hw w (List.mem_cons_of_mem _ hw')) h4]

/-- A name made of capitalised words is kept, unless it is a keyword or the name of a built-in type. -/
theorem typeName_words {tns xsd : Option Namespace} {s : Str} (hw : CapitalWords s) (hk : s ≠ "Self".toList)
    (hb : nsPrefix xsd = none → builtInRow s = []) : formatTypeName U tns xsd s = s := by
  obtain ⟨ws, hne, rfl, hw⟩ := hw
  have hchars : ∀ c ∈ ws.flatten, asciiUpper c = true ∨ asciiLower c = true := by
    intro c hc
    obtain ⟨w, h1, h2⟩ := List.mem_flatten.1 hc
    obtain ⟨u, l, rfl, h3, -, h4⟩ := hw w h1
    rcases List.mem_cons.1 h2 with rfl | h2
    · exact .inl h3
    · exact .inr (h4 c h2)
  have hcolon : ':' ∉ ws.flatten := fun h => absurd (hchars _ h) (by decide)
  have halnum : ∀ c ∈ ws.flatten, asciiAlnum c = true := fun c hc => (hchars c hc).elim upper_alnum lower_alnum
  have htrim : trimRight U ws.flatten = ws.flatten := by
    rcases List.eq_nil_or_concat ws.flatten with h | ⟨s, c, h⟩
    · rw [h]; rfl
    · have hc := halnum c (by rw [h]; simp)
      rw [h, List.concat_eq_append, trimRight_last U (alnum_of_ascii U hc)]
  have hpascal : toPascalCase U ws.flatten = ws.flatten := by
    rw [toPascalCase, htrim]
    cases ws with
    | nil => exact absurd rfl hne
    | cons w ws =>
      obtain ⟨u, l, rfl, h1, h2, h3⟩ := hw w List.mem_cons_self
      obtain ⟨last', h4, h5⟩ := pascal_lower U (rest := ws.flatten) h3 (last := ' ') h2
      rw [List.flatten_cons, List.cons_append, pascalGo, alnum_of_ascii U (upper_alnum h1), digit_false U (.inr h1), upper_keep h1]
      simp only [Bool.not_true, Bool.and_false, Bool.false_eq_true, if_false, Bool.true_or, if_true]
      rw [h5, pascal_words U (fun w hw' => hw w (List.mem_cons_of_mem _ hw')) h4]
  have hfilter : filterTypeName U (toPascalCase U ws.flatten) = ws.flatten := by
    rw [typeName_eq, hpascal]
    exact List.filter_eq_self.2 halnum
  have hsan : sanitize U ws.flatten = ws.flatten := by
    apply sanitize_neg
    · intro c hc
      exact digit_false U (hchars c (List.mem_of_mem_head? hc)).symm
    · intro hmem
      cases ws with
      | nil => exact hne rfl
      | cons w ws =>
        obtain ⟨u, l, rfl, h1, -⟩ := hw w List.mem_cons_self
        have : ∀ k ∈ rsKeywords, k ≠ "Self".toList → ∀ c, k.head? = some c → asciiUpper c = false := by decide
        have := this _ hmem hk u rfl
        rw [h1] at this
        exact nomatch this
  unfold formatTypeName matchBuiltInType defaultFormatType
  rw [splitName_none.2 ⟨hcolon, rfl⟩]
  dsimp only
  rw [hfilter, hsan]
  by_cases hx : nsPrefix xsd = none
  · rw [hb hx, if_pos rfl, ite_self]
  · rw [if_pos hx]

end Verif.Lemmas.Xml
