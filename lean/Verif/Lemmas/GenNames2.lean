import Verif.Lemmas.GenNames

/-! # Names of generated code: table, legal identifiers, camel-case names -/

namespace Verif.Lemmas.Gen

open Verif Verif.Model Verif.Spec Inflector

/-! ## The table -/

/-- First row of a table with this key. -/
def lookup : List (String × String) → Str → Str
  | [], _ => []
  | (k, v) :: rest, n => if n = k.toList then v.toList else lookup rest n

theorem lookup_mem {t : List (String × String)} {n r : Str} (h : lookup t n = r) (hr : r ≠ []) :
    ∃ row ∈ t, row.1.toList = n ∧ row.2.toList = r := by
  induction t with
  | nil => exact absurd h.symm hr
  | cons row t ih =>
    obtain ⟨k, v⟩ := row
    rw [lookup] at h
    split at h
    · rename_i hk; exact ⟨(k, v), by simp, hk.symm, h⟩
    · obtain ⟨row, h1, h2⟩ := ih h
      exact ⟨row, by simp [h1], h2⟩

theorem lookup_of_mem {t : List (String × String)} {row : String × String} (hn : (t.map (·.1.toList)).Nodup)
    (h : row ∈ t) : lookup t row.1.toList = row.2.toList := by
  induction t with
  | nil => cases h
  | cons r t ih =>
    rw [List.map_cons, List.nodup_cons] at hn
    obtain ⟨k, v⟩ := r
    rw [lookup]
    rcases List.mem_cons.1 h with rfl | h
    · rw [if_pos rfl]
    · rw [if_neg, ih hn.2 h]
      intro he
      exact hn.1 (List.mem_map.2 ⟨row, h, he⟩)

/-- The rows in the order of the program. -/
def codeTable : List (String × String) :=
      [("hexBinary", "String"), ("base64Binary", "String"), ("boolean", "bool"),
       ("integer", "xs::Integer"), ("nonNegativeInteger", "xs::NonNegativeInteger"),
       ("positiveInteger", "xs::PositiveInteger"), ("nonPositiveInteger", "xs::NonPositiveInteger"),
       ("negativeInteger", "xs::NegativeInteger"),
       ("long", "i64"), ("int", "i32"), ("short", "i16"), ("byte", "i8"),
       ("unsignedLong", "u64"), ("unsignedInt", "u32"), ("unsignedShort", "u16"), ("unsignedByte", "u8"),
       ("decimal", "xs::Decimal"), ("double", "f64"), ("float", "f64"),
       ("date", "xs::Date"), ("time", "xs::Time"), ("dateTime", "xs::DateTime"),
       ("dateTimeStamp", "xs::DateTimeStamp"), ("duration", "xs::Duration"),
       ("gDay", "xs::GDay"), ("gMonth", "xs::GMonth"), ("gMonthDay", "xs::GMonthDay"),
       ("gYear", "xs::GYear"), ("gYearMonth", "xs::GYearMonth"),
       ("string", "String"), ("normalizedString", "String"), ("token", "String"), ("language", "String"),
       ("Name", "String"), ("NCName", "String"), ("ENTITY", "String"), ("ID", "String"), ("IDREF", "String"),
       ("NMTOKEN", "String"), ("anyURI", "String"), ("QName", "String"), ("NOTATION", "String"),
       ("anySimpleType", "String"),
       ("ENTITIES", "Vec<String>"), ("IDREFS", "Vec<String>"), ("NMTOKENS", "Vec<String>")]

theorem builtInRow_eq (n : Str) : builtInRow n = lookup codeTable n := rfl

theorem builtInRow_iff (n r : Str) : (builtInRow n = r ∧ r ≠ []) ↔
    ∃ row ∈ readmeTable ++ undocumentedTable, row.1.toList = n ∧ row.2.toList = r := by
  have hsub : ∀ row ∈ codeTable, row ∈ readmeTable ++ undocumentedTable := by decide
  have hsup : ∀ row ∈ readmeTable ++ undocumentedTable, row ∈ codeTable := by decide
  have hnd : (codeTable.map (·.1.toList)).Nodup := by decide
  have hne : ∀ row ∈ codeTable, row.2.toList ≠ [] := by decide
  rw [builtInRow_eq]
  constructor
  · rintro ⟨h, hr⟩
    obtain ⟨row, h1, h2⟩ := lookup_mem h hr
    exact ⟨row, hsub row h1, h2⟩
  · rintro ⟨row, h1, rfl, rfl⟩
    exact ⟨lookup_of_mem hnd (hsup row h1), hne row (hsup row h1)⟩

theorem matchBuiltInType_iff (t r : Str) (xsd : Option Namespace) :
    matchBuiltInType t xsd = some r ↔
      ∃ row ∈ readmeTable ++ undocumentedTable, Ref (nsPrefix xsd) row.1.toList t ∧ row.2.toList = r := by
  unfold matchBuiltInType
  cases hs : splitName t with
  | mk o n =>
    have href := splitName_iff.1 hs
    dsimp only
    by_cases ho : nsPrefix xsd = o
    · rw [if_neg (by simp [ho])]
      have := builtInRow_iff n r
      constructor
      · intro h
        have hr : builtInRow n = r ∧ r ≠ [] := by
          split at h
          · cases h
          · rename_i hne; cases h; exact ⟨rfl, hne⟩
        obtain ⟨row, h1, h2, h3⟩ := this.1 hr
        exact ⟨row, h1, by rw [ho, h2]; exact href, h3⟩
      · rintro ⟨row, h1, h2, h3⟩
        have : splitName t = (nsPrefix xsd, row.1.toList) := splitName_iff.2 h2
        rw [hs] at this
        cases this
        have := (builtInRow_iff row.1.toList r).2 ⟨row, h1, rfl, h3⟩
        rw [this.1, if_neg this.2]
    · rw [if_pos (by simpa using ho)]
      constructor
      · intro h; cases h
      · rintro ⟨row, h1, h2, h3⟩
        have : splitName t = (nsPrefix xsd, row.1.toList) := splitName_iff.2 h2
        rw [hs] at this
        cases this
        exact absurd rfl ho

/-! ## Legal identifiers -/

theorem rustKeywords_listed {k : String} (h : k ∈ rustKeywords) : k.toList ∈ rsKeywords ∨ k = "try" := by
  have : ∀ k ∈ rustKeywords, k.toList ∈ rsKeywords ∨ k = "try" := by decide
  exact this k h

theorem legal_sanitize (U : UnicodeTable) {c : Char} {cs : Str} (hc : asciiAlnum c = true)
    (hcs : ∀ d ∈ cs, asciiAlnum d = true ∨ d = '_') :
    LegalIdent (sanitize U (c :: cs)) ↔ sanitize U (c :: cs) ≠ "try".toList := by
  constructor
  · intro h; exact h.2 "try" (by decide)
  · intro h
    refine ⟨?_, ?_⟩
    · rcases sanitize_or U (c :: cs) with hs | hs
      · rw [hs]
        refine ⟨c, cs, rfl, ?_, hcs, ?_⟩
        · have hn := sanitize_head U (c :: cs) c (by rw [hs]; rfl)
          rw [U.numeric_ascii c (alnum_lt hc)] at hn
          simp only [asciiAlnum, hn, Bool.false_or, Bool.or_eq_true] at hc
          rcases hc with hc | hc
          · exact .inl hc
          · exact .inr (.inl hc)
        · intro he
          cases he
          revert hc; decide
      · rw [hs]
        refine ⟨'_', c :: cs, rfl, .inr (.inr rfl), ?_, by simp⟩
        intro d hd
        rcases List.mem_cons.1 hd with rfl | hd
        · exact .inl hc
        · exact hcs d hd
    · intro k hk he
      rcases rustKeywords_listed hk with hk | rfl
      · exact sanitize_not_keyword U (c :: cs) (he ▸ hk)
      · exact h he

/-- A lower-case letter or a digit. -/
def LowDigit (c : Char) : Prop := asciiLower c = true ∨ Str.isAsciiDigit c = true

theorem lowDigit_alnum {c : Char} (h : LowDigit c) : asciiAlnum c = true := by
  simp only [asciiAlnum, Bool.or_eq_true]
  rcases h with h | h
  · exact .inr h
  · exact .inl (.inl h)

theorem lowDigit_of (U : UnicodeTable) {d : Char} (hd : d.toNat < 128) (h : U.isAlphanumeric d = true) :
    LowDigit (toAsciiLower d) := by
  rw [U.alnum_ascii d hd, asciiAlnum_iff] at h
  rw [LowDigit, asciiLower_iff, Str.isAsciiDigit_iff, toNat_lower]
  split <;> omega

theorem snakeGo_chars (U : UnicodeTable) (whole s : Str) (i : Nat) (first : Bool) :
    ∀ c ∈ snakeGo U whole i first s, c = '_' ∨ ∃ d ∈ s, U.isAlphanumeric d = true ∧ c = toAsciiLower d := by
  induction s generalizing i first with
  | nil => simp [snakeGo]
  | cons c cs ih =>
    intro e he
    have lift : ∀ i f, e ∈ snakeGo U whole i f cs →
        e = '_' ∨ ∃ d ∈ c :: cs, U.isAlphanumeric d = true ∧ e = toAsciiLower d := by
      intro i f h
      rcases ih i f e h with h | ⟨d, h1, h2⟩
      · exact .inl h
      · exact .inr ⟨d, by simp [h1], h2⟩
    rw [snakeGo] at he
    by_cases hc : U.isAlphanumeric c = true
    · simp only [hc, Bool.not_true, Bool.false_eq_true, if_false] at he
      split at he
      · rcases List.mem_cons.1 he with he | he
        · exact .inl he
        · rcases List.mem_cons.1 he with he | he
          · exact .inr ⟨c, by simp, hc, he⟩
          · exact lift _ _ he
      · rcases List.mem_cons.1 he with he | he
        · exact .inr ⟨c, by simp, hc, he⟩
        · exact lift _ _ he
    · rw [Bool.not_eq_true] at hc
      simp only [hc, Bool.not_false, if_true] at he
      split at he
      · exact lift _ _ he
      · rcases List.mem_cons.1 he with he | he
        · exact .inl he
        · exact lift _ _ he

theorem Snake.mono {p q : Char → Prop} {s : Str} (h : Snake p s) (hpq : ∀ c ∈ s, p c → q c) : Snake q s := by
  obtain ⟨w, ws, rfl, h2⟩ := h
  refine ⟨w, ws, rfl, ?_⟩
  intro v hv
  refine ⟨(h2 v hv).1, fun c hc => hpq c ?_ ((h2 v hv).2 c hc)⟩
  rcases List.mem_cons.1 hv with rfl | hv
  · simp [hc]
  · refine List.mem_append_right _ (List.mem_flatMap.2 ⟨v, hv, by simp [hc]⟩)

theorem mem_trimRight (U : UnicodeTable) {s : Str} {c : Char} (h : c ∈ trimRight U s) : c ∈ s := by
  obtain ⟨r, h1, -, -⟩ := trimRight_spec U s
  rw [h1]; exact List.mem_append_left _ h

theorem snake_ascii_form (U : UnicodeTable) {s : Str} (ha : ∀ c ∈ s, c.toNat < 128)
    (h : ∃ c ∈ s, U.isAlphanumeric c = true) : Snake LowDigit (toSnakeCase U s) := by
  refine Snake.mono (snake_form U s h) ?_
  intro c hc hl
  rcases snakeGo_chars U s _ 0 true c hc with h | ⟨d, h1, h2, h3⟩
  · subst h
    obtain ⟨d, hd, he⟩ := hl
    have := alnum_lower U d
    rw [← he, not_alnum_underscore, hd] at this
    cases this
  · rw [h3]; exact lowDigit_of U (ha d (mem_trimRight U h1)) h2

theorem Snake.cons {p : Char → Prop} {s : Str} (h : Snake p s) :
    ∃ c cs, s = c :: cs ∧ p c ∧ ∀ d ∈ cs, p d ∨ d = '_' := by
  obtain ⟨w, ws, rfl, h2⟩ := h
  have hw := h2 w (by simp)
  cases w with
  | nil => exact absurd rfl hw.1
  | cons c w =>
    refine ⟨c, w ++ ws.flatMap ('_' :: ·), rfl, hw.2 c (by simp), ?_⟩
    intro d hd
    rcases List.mem_append.1 hd with hd | hd
    · exact .inl (hw.2 d (by simp [hd]))
    · obtain ⟨v, hv, hd⟩ := List.mem_flatMap.1 hd
      rcases List.mem_cons.1 hd with rfl | hd
      · exact .inr rfl
      · exact .inl ((h2 v (by simp [hv])).2 d hd)

/-! ## First character of a type name -/

theorem pascalGo_head (U : UnicodeTable) (s : Str) (ha : ∀ c ∈ s, c.toNat < 128) (last c : Char) (cs : Str)
    (h : pascalGo U false true last s = c :: cs) : asciiUpper c = true ∨ Str.isAsciiDigit c = true := by
  induction s with
  | nil => cases h
  | cons d ds ih =>
    rw [pascalGo] at h
    by_cases hd : U.isAlphanumeric d = true
    · simp only [hd, Bool.not_true, Bool.and_false, Bool.false_eq_true, if_false,
        Bool.true_or, if_true] at h
      have hda := ha d (by simp)
      rw [U.alnum_ascii d hda, asciiAlnum_iff] at hd
      split at h
      · rename_i hn
        rw [U.numeric_ascii d hda] at hn
        injection h with h1 h2
        subst h1; exact .inr hn
      · rename_i hn
        rw [U.numeric_ascii d hda, Str.isAsciiDigit_iff] at hn
        injection h with h1 h2
        subst h1
        left
        rw [asciiUpper_iff, toNat_upper]
        split <;> omega
    · rw [Bool.not_eq_true] at hd
      simp only [hd, Bool.not_false, Bool.and_false, Bool.false_eq_true, if_false, Bool.and_self, if_true] at h
      exact ih (fun e he => ha e (by simp [he])) h

/-! ## Independence of the table for ASCII names -/

theorem trimRight_ascii (U : UnicodeTable) {s : Str} (ha : ∀ c ∈ s, c.toNat < 128) :
    trimRight U s = trimRight .ascii s := by
  unfold trimRight
  congr 1
  have : ∀ t : Str, (∀ c ∈ t, c.toNat < 128) →
      t.dropWhile (fun c => !U.isAlphanumeric c) = t.dropWhile (fun c => !UnicodeTable.ascii.isAlphanumeric c) := by
    intro t
    induction t with
    | nil => intro _; rfl
    | cons c cs ih =>
      intro h
      have e : U.isAlphanumeric c = UnicodeTable.ascii.isAlphanumeric c := by
        rw [U.alnum_ascii c (h c (by simp))]; rfl
      rw [List.dropWhile_cons, List.dropWhile_cons, e, ih (fun d hd => h d (by simp [hd]))]
  exact this _ (fun c hc => ha c (by simpa using hc))

theorem nextOrPrev_ascii (U : UnicodeTable) {s : Str} (ha : ∀ c ∈ s, c.toNat < 128) (i : Nat) :
    nextOrPrevLower U s i = nextOrPrevLower .ascii s i := by
  have : ∀ j : Nat, U.isLowercase (s[j]?.getD 'A') = UnicodeTable.ascii.isLowercase (s[j]?.getD 'A') := by
    intro j
    have : (s[j]?.getD 'A').toNat < 128 := by
      cases h : s[j]? with
      | none => decide
      | some c => exact ha c (List.mem_of_getElem? h)
    rw [U.lower_ascii _ this]; rfl
  rw [nextOrPrevLower, nextOrPrevLower, this, this]

theorem snakeGo_ascii (U : UnicodeTable) {whole s : Str} (hw : ∀ c ∈ whole, c.toNat < 128)
    (ha : ∀ c ∈ s, c.toNat < 128) (i : Nat) (f : Bool) : snakeGo U whole i f s = snakeGo .ascii whole i f s := by
  induction s generalizing i f with
  | nil => rfl
  | cons c cs ih =>
    have e : U.isAlphanumeric c = UnicodeTable.ascii.isAlphanumeric c := by
      rw [U.alnum_ascii c (ha c (by simp))]; rfl
    have ih' := ih (fun d hd => ha d (by simp [hd]))
    rw [snakeGo, snakeGo, e, nextOrPrev_ascii U hw, ih', ih', ih']

/-- For ASCII names the case conversion does not depend on the Unicode tables. -/
theorem toSnakeCase_ascii (U : UnicodeTable) {s : Str} (ha : ∀ c ∈ s, c.toNat < 128) :
    toSnakeCase U s = toSnakeCase .ascii s := by
  rw [toSnakeCase, toSnakeCase, trimRight_ascii U ha]
  exact snakeGo_ascii U ha (fun c hc => ha c (mem_trimRight _ hc)) 0 true

theorem sanitize_ascii (U : UnicodeTable) {s : Str} (ha : ∀ c ∈ s, c.toNat < 128) :
    sanitize U s = sanitize .ascii s := by
  cases s with
  | nil => rfl
  | cons c cs =>
    rw [sanitize, sanitize, U.numeric_ascii c (ha c (by simp))]; rfl

theorem snake_is_ascii (U : UnicodeTable) {s : Str} (ha : ∀ c ∈ s, c.toNat < 128) :
    ∀ c ∈ toSnakeCase U s, c.toNat < 128 := by
  intro c hc
  rcases snakeGo_chars U s _ 0 true c hc with h | ⟨d, h1, h2, h3⟩
  · subst h; decide
  · rw [h3]; exact alnum_lt (lowDigit_alnum (lowDigit_of U (ha d (mem_trimRight U h1)) h2))

theorem mem_lastSegment {s : Str} {c : Char} (h : c ∈ lastSegment s) : c ∈ s := by
  rcases (splitOn_getLast (s := s)).2 with e | ⟨p, e⟩
  · rw [e]; exact h
  · rw [e]; simp [h]

theorem defaultFormatName_ascii (U : UnicodeTable) {s : Str} (ha : ∀ c ∈ s, c.toNat < 128) :
    defaultFormatName U s = defaultFormatName .ascii s := by
  have ha' : ∀ c ∈ lastSegment s, c.toNat < 128 := fun c hc => ha c (mem_lastSegment hc)
  rw [defaultFormatName, defaultFormatName, toSnakeCase_ascii U ha',
    sanitize_ascii U (snake_is_ascii _ ha')]

theorem pascalGo_ascii (U : UnicodeTable) {s : Str} (ha : ∀ c ∈ s, c.toNat < 128) (f n : Bool) (last : Char)
    (hl : last.toNat < 128) : pascalGo U f n last s = pascalGo .ascii f n last s := by
  induction s generalizing f n last with
  | nil => rfl
  | cons c cs ih =>
    have hc := ha c (by simp)
    have e : U.isAlphanumeric c = UnicodeTable.ascii.isAlphanumeric c := by rw [U.alnum_ascii c hc]; rfl
    have e2 : U.isNumeric c = UnicodeTable.ascii.isNumeric c := by rw [U.numeric_ascii c hc]; rfl
    have e3 : U.isUppercase c = UnicodeTable.ascii.isUppercase c := by rw [U.upper_ascii c hc]; rfl
    have e4 : U.isLowercase last = UnicodeTable.ascii.isLowercase last := by rw [U.lower_ascii last hl]; rfl
    have ih' := ih (fun d hd => ha d (by simp [hd]))
    rw [pascalGo, pascalGo, e, e2, e3, e4, ih' _ _ _ hl, ih' _ _ _ hl, ih' _ _ _ hl, ih' _ _ _ hl, ih' _ _ _ hc]

theorem toPascalCase_ascii (U : UnicodeTable) {s : Str} (ha : ∀ c ∈ s, c.toNat < 128) :
    toPascalCase U s = toPascalCase .ascii s := by
  rw [toPascalCase, toPascalCase, trimRight_ascii U ha]
  exact pascalGo_ascii U (fun c hc => ha c (mem_trimRight _ hc)) _ _ _ (by decide)

theorem defaultFormatType_ascii (U : UnicodeTable) {s : Str} (ha : ∀ c ∈ s, c.toNat < 128)
    (tns : Option Namespace) : defaultFormatType U s tns = defaultFormatType .ascii s tns := by
  unfold defaultFormatType
  cases hs : splitName s with
  | mk o n =>
    have hr := splitName_iff.1 hs
    have hn : ∀ c ∈ n, c.toNat < 128 := by
      intro c hc
      cases hr with
      | bare _ => exact ha c hc
      | prefixed _ => exact ha c (by simp [hc])
    have ho : ∀ p, o = some p → ∀ c ∈ p, c.toNat < 128 := by
      intro p hp c hc
      cases hr with
      | bare _ => cases hp
      | prefixed _ => cases hp; exact ha c (by simp [hc])
    dsimp only
    have hpa : filterTypeName U (toPascalCase U n) = filterTypeName .ascii (toPascalCase .ascii n) := by
      rw [typeName_eq, typeName_eq, toPascalCase_ascii U hn]
    rw [hpa]
    apply sanitize_ascii
    have hp2 : ∀ c ∈ filterTypeName .ascii (toPascalCase .ascii n), c.toNat < 128 := by
      intro c hc
      rw [typeName_eq] at hc
      exact alnum_lt (List.mem_filter.1 hc).2
    have hq : ∀ p, o = some p → ∀ c ∈ p ++ "::".toList ++ filterTypeName .ascii (toPascalCase .ascii n), c.toNat < 128 := by
      intro p hp c hc
      rcases List.mem_append.1 hc with hc | hc
      · rcases List.mem_append.1 hc with hc | hc
        · exact ho p hp c hc
        · have : ∀ c ∈ "::".toList, c.toNat < 128 := by decide
          exact this c hc
      · exact hp2 c hc
    split
    · split
      · exact hp2
      · exact hq _ rfl
    · exact hq _ rfl
    · exact hp2

/-! ## Camel-case and snake-case names -/

/-- An upper-case letter followed by at least one lower-case letter. -/
def CamelWord (w : Str) : Prop :=
  ∃ c d ds, w = c :: d :: ds ∧ asciiUpper c = true ∧ asciiLower d = true ∧ ∀ e ∈ ds, asciiLower e = true

theorem lower_fix {c : Char} (h : asciiLower c = true) : toAsciiLower c = c := by
  have := asciiLower_iff.1 h
  apply char_ext; rw [toNat_lower, if_neg (by omega)]

theorem map_lower_fix {s : Str} (h : ∀ c ∈ s, asciiLower c = true) : s.map toAsciiLower = s := by
  induction s with
  | nil => rfl
  | cons c cs ih => rw [List.map_cons, lower_fix (h c (by simp)), ih (fun d hd => h d (by simp [hd]))]

theorem upper_fix {c : Char} (h : asciiUpper c = true) : toAsciiUpper c = c := by
  have := asciiUpper_iff.1 h
  apply char_ext; rw [toNat_upper, if_neg (by omega)]

theorem lower_ne_upper {c : Char} (h : asciiLower c = true) : (c == toAsciiUpper c) = false := by
  have h' := asciiLower_iff.1 h
  rw [beq_eq_false_iff_ne]
  intro e
  have := congrArg Char.toNat e
  rw [toNat_upper, if_pos h'] at this
  omega

theorem alnum_of_lower {c : Char} (h : asciiLower c = true) : asciiAlnum c = true := by simp [asciiAlnum, h]
theorem alnum_of_upper {c : Char} (h : asciiUpper c = true) : asciiAlnum c = true := by simp [asciiAlnum, h]

theorem utf8Size_alnum {c : Char} (h : asciiAlnum c = true) : c.utf8Size = 1 :=
  Str.utf8Size_ascii (alnum_lt h)

theorem snakeGo_lower (U : UnicodeTable) (whole : Str) {w : Str} (hw : ∀ c ∈ w, asciiLower c = true) (i : Nat)
    (rest : Str) : snakeGo U whole i false (w ++ rest) = w ++ snakeGo U whole (i + w.length) false rest := by
  induction w generalizing i with
  | nil => rfl
  | cons c cs ih =>
    have hc := hw c (by simp)
    have ha := alnum_of_ascii U (alnum_of_lower hc)
    rw [List.cons_append, snakeGo]
    simp only [ha, Bool.not_true, Bool.false_eq_true, if_false, lower_ne_upper hc, Bool.and_false,
      Bool.false_and]
    rw [ih (fun d hd => hw d (by simp [hd])), lower_fix hc, utf8Size_alnum (alnum_of_lower hc)]
    simp [Nat.add_assoc, Nat.add_comm 1]

theorem snakeGo_camel (U : UnicodeTable) (whole pre : Str) (ws : List Str) (hws : ∀ w ∈ ws, CamelWord w)
    (hpre : whole = pre ++ ws.flatten) :
    snakeGo U whole pre.length false ws.flatten = ws.flatMap (fun w => '_' :: w.map toAsciiLower) := by
  induction ws generalizing pre with
  | nil => rfl
  | cons w ws ih =>
    obtain ⟨c, d, ds, rfl, hc, hd, hds⟩ := hws w (by simp)
    have hca := alnum_of_ascii U (alnum_of_upper hc)
    have hlow : ∀ e ∈ d :: ds, asciiLower e = true := by
      intro e he; rcases List.mem_cons.1 he with rfl | he; exact hd; exact hds e he
    have hnext : nextOrPrevLower U whole pre.length = true := by
      have : whole[pre.length + 1]? = some d := by
        rw [hpre]
        simp
      rw [nextOrPrevLower, this, Option.getD_some, U.lower_ascii d (alnum_lt (alnum_of_lower hd)), hd]
      rfl
    rw [List.flatten_cons, List.cons_append, snakeGo]
    simp only [hca, Bool.not_true, Bool.false_eq_true, if_false, upper_fix hc, beq_self_eq_true, hnext,
      Bool.not_false, Bool.and_self, if_true]
    rw [snakeGo_lower U whole hlow, utf8Size_alnum (alnum_of_upper hc)]
    have hmap : (d :: ds).map toAsciiLower = d :: ds := map_lower_fix hlow
    have := ih (pre ++ c :: d :: ds) (fun w hw => hws w (by simp [hw])) (by rw [hpre]; simp)
    rw [List.length_append, List.length_cons] at this
    rw [List.flatMap_cons, ← this, List.map_cons, hmap]
    simp [Nat.add_assoc, Nat.add_comm 1]

theorem trimRight_id (U : UnicodeTable) {s : Str} {c : Char} (h : s.getLast? = some c)
    (hc : U.isAlphanumeric c = true) : trimRight U s = s := by
  rw [trimRight]
  rw [← List.head?_reverse] at h
  cases hr : s.reverse with
  | nil => rw [hr] at h; cases h
  | cons d ds =>
    rw [hr] at h; cases h
    rw [List.dropWhile_cons_of_neg (by simp [hc]), ← hr, List.reverse_reverse]

theorem camel_last {ws : List Str} (hws : ∀ w ∈ ws, CamelWord w) (hne : ws ≠ []) :
    ∃ c, ws.flatten.getLast? = some c ∧ asciiAlnum c = true := by
  induction ws with
  | nil => exact absurd rfl hne
  | cons w ws ih =>
    cases ws with
    | nil =>
      obtain ⟨c, d, ds, rfl, hc, hd, hds⟩ := hws w (by simp)
      rw [List.flatten_cons, List.flatten_nil, List.append_nil]
      rw [List.getLast?_cons_cons]
      cases hl : (d :: ds).getLast? with
      | none => simp at hl
      | some e =>
        refine ⟨e, rfl, ?_⟩
        have := List.mem_of_getLast? hl
        rcases List.mem_cons.1 this with rfl | h
        · exact alnum_of_lower hd
        · exact alnum_of_lower (hds e h)
    | cons v vs =>
      obtain ⟨c, h1, h2⟩ := ih (fun x hx => hws x (by simp [hx])) (by simp)
      refine ⟨c, ?_, h2⟩
      rw [List.flatten_cons, List.getLast?_append, h1]; rfl

/-- An UpperCamelCase name becomes its words in lower case, joined by underscores. -/
theorem snake_camel (U : UnicodeTable) (w : Str) (ws : List Str) (hws : ∀ v ∈ w :: ws, CamelWord v) :
    toSnakeCase U (w :: ws).flatten = w.map toAsciiLower ++ ws.flatMap (fun v => '_' :: v.map toAsciiLower) := by
  obtain ⟨e, h1, h2⟩ := camel_last hws (by simp)
  rw [toSnakeCase, trimRight_id U h1 (alnum_of_ascii U h2)]
  obtain ⟨c, d, ds, rfl, hc, hd, hds⟩ := hws w (by simp)
  have hca := alnum_of_ascii U (alnum_of_upper hc)
  have hlow : ∀ e ∈ d :: ds, asciiLower e = true := by
    intro e he; rcases List.mem_cons.1 he with rfl | he; exact hd; exact hds e he
  have hmap : (d :: ds).map toAsciiLower = d :: ds := map_lower_fix hlow
  generalize hwh : (List.flatten ((c :: d :: ds) :: ws)) = whole
  have hw2 : whole = c :: ((d :: ds) ++ ws.flatten) := by rw [← hwh]; simp
  conv_lhs => rw [hw2]
  rw [snakeGo]
  simp only [hca, Bool.not_true, Bool.false_eq_true, if_false, Bool.false_and]
  rw [← hw2, snakeGo_lower U whole hlow, utf8Size_alnum (alnum_of_upper hc)]
  have := snakeGo_camel U whole (c :: d :: ds) ws (fun v hv => hws v (by simp [hv])) (by rw [← hwh]; simp)
  have hl : (c :: d :: ds).length = 0 + 1 + (d :: ds).length := by simp; omega
  rw [hl] at this
  rw [this, List.map_cons, hmap]
  rfl

/-- A snake_case name of lower-case letters is left as it is. -/
theorem snakeGo_snake (U : UnicodeTable) (whole : Str) (ws : List Str) (h : ∀ v ∈ ws, v ≠ [] ∧ ∀ c ∈ v, asciiLower c = true)
    (i : Nat) : snakeGo U whole i false (ws.flatMap ('_' :: ·)) = ws.flatMap ('_' :: ·) := by
  induction ws generalizing i with
  | nil => rfl
  | cons w ws ih =>
    have hw := h w (by simp)
    cases w with
    | nil => exact absurd rfl hw.1
    | cons c cs =>
      have hc := hw.2 c (by simp)
      have hca := alnum_of_ascii U (alnum_of_lower hc)
      rw [List.flatMap_cons, List.cons_append, snakeGo]
      simp only [not_alnum_underscore, Bool.not_false, if_true, Bool.false_eq_true, if_false]
      rw [List.cons_append, snakeGo]
      simp only [hca, Bool.not_true, Bool.false_eq_true, if_false, Bool.false_and]
      rw [snakeGo_lower U whole (fun d hd => hw.2 d (by simp [hd])), lower_fix hc,
        ih (fun v hv => h v (by simp [hv]))]

theorem snake_snake (U : UnicodeTable) {s : Str} (h : Snake (fun c => asciiLower c = true) s) :
    toSnakeCase U s = s := by
  obtain ⟨w, ws, rfl, h2⟩ := h
  have hw := h2 w (by simp)
  have hlast : ∃ c, (w ++ ws.flatMap ('_' :: ·)).getLast? = some c ∧ asciiAlnum c = true := by
    clear hw
    induction ws generalizing w with
    | nil =>
      have hw := h2 w (by simp)
      rw [List.flatMap_nil, List.append_nil]
      cases hl : w.getLast? with
      | none => rw [List.getLast?_eq_none_iff] at hl; exact absurd hl hw.1
      | some e => exact ⟨e, rfl, alnum_of_lower (hw.2 e (List.mem_of_getLast? hl))⟩
    | cons v vs ih =>
      obtain ⟨c, h1, h3⟩ := ih v (fun x hx => h2 x (List.mem_cons_of_mem _ hx))
      refine ⟨c, ?_, h3⟩
      rw [List.flatMap_cons, List.getLast?_append, List.cons_append]
      have : ('_' :: (v ++ vs.flatMap ('_' :: ·))).getLast? = some c := by
        cases hx : v ++ vs.flatMap ('_' :: ·) with
        | nil => rw [hx] at h1; cases h1
        | cons y ys => rw [List.getLast?_cons_cons, ← hx]; exact h1
      rw [this]; rfl
  obtain ⟨e, h1, h3⟩ := hlast
  rw [toSnakeCase, trimRight_id U h1 (alnum_of_ascii U h3)]
  clear h1 h3
  cases w with
  | nil => exact absurd rfl hw.1
  | cons c cs =>
    have hc := hw.2 c (by simp)
    have hca := alnum_of_ascii U (alnum_of_lower hc)
    suffices key : ∀ whole, snakeGo U whole 0 true (c :: cs ++ ws.flatMap ('_' :: ·)) =
        c :: cs ++ ws.flatMap ('_' :: ·) from key _
    intro whole
    rw [List.cons_append, snakeGo]
    simp only [hca, Bool.not_true, Bool.false_eq_true, if_false, Bool.false_and]
    rw [snakeGo_lower U whole (fun d hd => hw.2 d (by simp [hd])), lower_fix hc,
      snakeGo_snake U whole ws (fun v hv => h2 v (by simp [hv]))]

theorem pascalGo_lower (U : UnicodeTable) {w : Str} (hw : ∀ c ∈ w, asciiLower c = true) (d : Char) (hd : asciiLower d = true)
    (last : Char) (rest : Str) (hl : (d :: w).getLast? = some last) :
    pascalGo U true false d (w ++ rest) = w ++ pascalGo U true false last rest := by
  induction w generalizing d with
  | nil => simp at hl; subst hl; rfl
  | cons c cs ih =>
    have hc := hw c (by simp)
    have hlt := alnum_lt (alnum_of_lower hc)
    have hca := alnum_of_ascii U (alnum_of_lower hc)
    have hnum : U.isNumeric c = false := by
      rw [U.numeric_ascii c hlt, ← Bool.not_eq_true, Str.isAsciiDigit_iff]
      have := asciiLower_iff.1 hc; omega
    have hup : U.isUppercase c = false := by
      rw [U.upper_ascii c hlt, ← Bool.not_eq_true, asciiUpper_iff]
      have := asciiLower_iff.1 hc; omega
    rw [List.cons_append, pascalGo]
    simp only [hca, hnum, hup, Bool.not_true, Bool.false_and, Bool.and_false, Bool.or_false, Bool.false_eq_true, if_false]
    rw [ih (fun e he => hw e (by simp [he])) c hc (by rwa [List.getLast?_cons_cons] at hl), lower_fix hc]
    rfl

theorem pascalGo_camel (U : UnicodeTable) (ws : List Str) (hws : ∀ w ∈ ws, CamelWord w) (last : Char)
    (hl : asciiLower last = true) : pascalGo U true false last ws.flatten = ws.flatten := by
  induction ws generalizing last with
  | nil => rfl
  | cons w ws ih =>
    obtain ⟨c, d, ds, rfl, hc, hd, hds⟩ := hws w (by simp)
    have hlt := alnum_lt (alnum_of_upper hc)
    have hca := alnum_of_ascii U (alnum_of_upper hc)
    have hnum : U.isNumeric c = false := by
      rw [U.numeric_ascii c hlt, ← Bool.not_eq_true, Str.isAsciiDigit_iff]
      have := asciiUpper_iff.1 hc; omega
    have hup : U.isUppercase c = true := by rw [U.upper_ascii c hlt, hc]
    have hll : U.isLowercase last = true := by rw [U.lower_ascii last (alnum_lt (alnum_of_lower hl)), hl]
    have hls : (last != ' ') = true := by
      rw [bne_iff_ne]; rintro rfl; revert hl; decide
    rw [List.flatten_cons, List.cons_append, pascalGo]
    simp only [hca, hnum, hup, hll, hls, Bool.not_true, Bool.false_and, Bool.and_self, Bool.or_true,
      Bool.false_eq_true, if_false, if_true]
    have hlow : ∀ e ∈ d :: ds, asciiLower e = true := by
      intro e he; rcases List.mem_cons.1 he with rfl | he; exact hd; exact hds e he
    cases hlast : (last :: d :: ds).getLast? with
    | none => simp at hlast
    | some x =>
      rw [pascalGo_lower U hlow last hl x ws.flatten hlast]
      have hx : asciiLower x = true := by
        rw [List.getLast?_cons_cons] at hlast
        exact hlow x (List.mem_of_getLast? hlast)
      rw [ih (fun v hv => hws v (by simp [hv])) x hx, upper_fix hc]

/-- An UpperCamelCase name keeps its form. -/
theorem pascal_camel (U : UnicodeTable) (ws : List Str) (hws : ∀ w ∈ ws, CamelWord w) :
    toPascalCase U ws.flatten = ws.flatten := by
  cases ws with
  | nil => rfl
  | cons w ws =>
    obtain ⟨e, h1, h2⟩ := camel_last hws (by simp)
    rw [toPascalCase, trimRight_id U h1 (alnum_of_ascii U h2)]
    obtain ⟨c, d, ds, rfl, hc, hd, hds⟩ := hws w (by simp)
    have hlt := alnum_lt (alnum_of_upper hc)
    have hca := alnum_of_ascii U (alnum_of_upper hc)
    have hnum : U.isNumeric c = false := by
      rw [U.numeric_ascii c hlt, ← Bool.not_eq_true, Str.isAsciiDigit_iff]
      have := asciiUpper_iff.1 hc; omega
    have hda := alnum_of_ascii U (alnum_of_lower hd)
    have hdlt := alnum_lt (alnum_of_lower hd)
    have hdnum : U.isNumeric d = false := by
      rw [U.numeric_ascii d hdlt, ← Bool.not_eq_true, Str.isAsciiDigit_iff]
      have := asciiLower_iff.1 hd; omega
    have hdup : U.isUppercase d = false := by
      rw [U.upper_ascii d hdlt, ← Bool.not_eq_true, asciiUpper_iff]
      have := asciiLower_iff.1 hd; omega
    rw [List.flatten_cons, List.cons_append, pascalGo]
    simp only [hca, hnum, Bool.not_true, Bool.and_false, Bool.true_or,
      Bool.false_eq_true, if_false, if_true]
    rw [List.cons_append, pascalGo]
    simp only [hda, hdnum, hdup, Bool.not_true, Bool.false_and, Bool.and_false, Bool.or_false,
      Bool.false_eq_true, if_false]
    cases hlast : (d :: ds).getLast? with
    | none => simp at hlast
    | some x =>
      have hx : asciiLower x = true := by
        rcases List.mem_cons.1 (List.mem_of_getLast? hlast) with rfl | h
        · exact hd
        · exact hds x h
      rw [pascalGo_lower U hds d hd x ws.flatten hlast, pascalGo_camel U ws (fun v hv => hws v (by simp [hv])) x hx,
        upper_fix hc, lower_fix hd]

end Verif.Lemmas.Gen
