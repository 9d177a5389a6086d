import Verif.Lemmas.GenNames2
import Verif.Lemmas.GenComment

/-! # C28–C34: names, types and comments of generated code -/

namespace Verif.Props

open Verif Verif.Model Verif.Spec Verif.Lemmas Verif.Lemmas.Gen Inflector

private abbrev A := UnicodeTable.ascii

/-! ## C28 -/

/-- **C28** A reference is mapped to a built-in Rust type exactly when it is the name of a row of the
published table (or the one undocumented row) under the prefix of the XML Schema namespace; the prefixes
must be equal, and absent together. -/
theorem C28_builtin (t r : Str) (xsd : Option Namespace) :
    matchBuiltInType t xsd = some r ↔
      ∃ row ∈ readmeTable ++ undocumentedTable, Ref (xsd.bind (·.name)) row.1.toList t ∧ row.2.toList = r :=
  matchBuiltInType_iff t r xsd

example : matchBuiltInType "xs:unsignedShort".toList (some ⟨some "xs".toList, []⟩) = some "u16".toList := by decide
example : matchBuiltInType "tns:unsignedShort".toList (some ⟨some "xs".toList, []⟩) = none := by decide

/-- **C28** (finding) Of the built-in types of XML Schema exactly `anyType`, `anyAtomicType`,
`yearMonthDuration` and `dayTimeDuration` have no row. -/
theorem C28_missing (n : String) (h : n ∈ xsdBuiltIns) (p : Option Namespace) (hp : p.bind (·.name) = none) :
    matchBuiltInType n.toList p = none ↔
      n ∈ ["anyType", "anyAtomicType", "yearMonthDuration", "dayTimeDuration"] := by
  have hn : ∀ n ∈ xsdBuiltIns, ':' ∉ n.toList := by decide
  have hb : ∀ n ∈ xsdBuiltIns, (builtInRow n.toList = []) ↔
      n ∈ ["anyType", "anyAtomicType", "yearMonthDuration", "dayTimeDuration"] := by decide
  rw [← hb n h]
  have hs : splitName n.toList = (none, n.toList) := splitName_none.2 ⟨hn n h, rfl⟩
  rw [matchBuiltInType, hs]
  dsimp only
  rw [if_neg (by simpa [nsPrefix] using hp)]
  split <;> simp_all

/-! ## C29 -/

/-- **C29** The result is never in the list of keywords. -/
theorem C29_not_keyword (U : UnicodeTable) (s : Str) : sanitize U s ∉ rsKeywords := sanitize_not_keyword U s

/-- **C29** The result never starts with a numeric character. -/
theorem C29_not_numeric (U : UnicodeTable) (s : Str) (c : Char) (h : (sanitize U s).head? = some c) :
    U.isNumeric c = false := sanitize_head U s c h

/-- **C29** An underscore is put in front exactly when the string is listed or starts with a numeric
character; every other string is unchanged. -/
theorem C29_value (U : UnicodeTable) (s : Str) :
    (((∃ c, s.head? = some c ∧ U.isNumeric c = true) ∨ s ∈ rsKeywords) → sanitize U s = '_' :: s) ∧
    (¬ ((∃ c, s.head? = some c ∧ U.isNumeric c = true) ∨ s ∈ rsKeywords) → sanitize U s = s) := by
  refine ⟨sanitize_pos U, ?_⟩
  intro h
  simp only [not_or, not_exists, not_and, Bool.not_eq_true] at h
  exact sanitize_neg U h.1 h.2

/-- **C29** Sanitizing twice is sanitizing once. -/
theorem C29_idempotent (U : UnicodeTable) (s : Str) : sanitize U (sanitize U s) = sanitize U s :=
  sanitize_neg U (sanitize_head U s) (sanitize_not_keyword U s)

/-- **C29** The list has all keywords of Rust 2021 but `try`. -/
theorem C29_keywords (k : String) (h : k ∈ rustKeywords) : k.toList ∉ rsKeywords ↔ k = "try" := by
  have : ∀ k ∈ rustKeywords, k.toList ∉ rsKeywords ↔ k = "try" := by decide
  exact this k h

/-- **C29** (violated) Different strings can be given the same identifier, and `try` is returned. -/
theorem C29_not_injective_violated (U : UnicodeTable) :
    sanitize U "type".toList = sanitize U "_type".toList ∧ sanitize U "try".toList = "try".toList := by
  constructor
  · rw [sanitize_ascii U (by decide), sanitize_ascii U (s := "_type".toList) (by decide)]; decide
  · rw [sanitize_ascii U (by decide)]; decide

/-- **C29** (partial) Strings not starting with an underscore keep apart. -/
theorem C29_injective_partial (U : UnicodeTable) (s t : Str) (hs : s.head? ≠ some '_') (ht : t.head? ≠ some '_')
    (h : sanitize U s = sanitize U t) : s = t := by
  rcases sanitize_or U s with e1 | e1 <;> rcases sanitize_or U t with e2 | e2 <;> rw [e1, e2] at h
  · exact h
  · exact absurd (by rw [h]; rfl) hs
  · exact absurd (by rw [← h]; rfl) ht
  · exact (List.cons.inj h).2

example : sanitize A "type".toList = "_type".toList ∧ sanitize A "9".toList = "_9".toList ∧
    sanitize A "typed".toList = "typed".toList := by decide

/-! ## C30 -/

/-- **C30** The field name of a name whose part after the last colon is ASCII and has a letter or digit:
lower-case words joined by single underscores, with at most one more underscore in front; it is a legal
Rust identifier unless it is the word `try`. -/
theorem C30_field_name (U : UnicodeTable) (name seg : Str) (h : AfterLastColon name seg)
    (ha : ∀ c ∈ seg, c.toNat < 128) (hx : ∃ c ∈ seg, asciiAlnum c = true) :
    (∃ body, Snake (fun c => asciiLower c = true ∨ Str.isAsciiDigit c = true) body ∧
      (defaultFormatName U name = body ∨ defaultFormatName U name = '_' :: body)) ∧
    (LegalIdent (defaultFormatName U name) ↔ defaultFormatName U name ≠ "try".toList) := by
  have hf : Snake LowDigit (toSnakeCase U seg) := by
    refine snake_ascii_form U ha ?_
    obtain ⟨c, h1, h2⟩ := hx
    exact ⟨c, h1, alnum_of_ascii U h2⟩
  have e : defaultFormatName U name = sanitize U (toSnakeCase U seg) := by
    rw [defaultFormatName, lastSegment_iff.2 h]
  rw [e]
  refine ⟨⟨_, hf, sanitize_or U _⟩, ?_⟩
  obtain ⟨c, cs, h1, h2, h3⟩ := Snake.cons hf
  rw [h1]
  refine legal_sanitize U (lowDigit_alnum h2) ?_
  intro d hd
  rcases h3 d hd with h | h
  · exact .inl (lowDigit_alnum h)
  · exact .inr h

example : AfterLastColon "tt:IPv4-Address".toList "IPv4-Address".toList ∧
    defaultFormatName A "tt:IPv4-Address".toList = "i_pv_4_address".toList := by
  refine ⟨⟨by decide, .inr ⟨"tt".toList, rfl⟩⟩, by decide⟩

/-- **C30** For every name at all: the field name has the alphanumeric characters of the part after the
last colon, in lower case and in order, and besides them only underscores; it is empty exactly when there
is none. -/
theorem C30_field_letters (U : UnicodeTable) (name seg : Str) (h : AfterLastColon name seg) :
    (defaultFormatName U name).filter U.isAlphanumeric = skeleton U.isAlphanumeric seg ∧
    (∀ c ∈ defaultFormatName U name, U.isAlphanumeric c = true ∨ c = '_') ∧
    (defaultFormatName U name = [] ↔ ∀ c ∈ seg, U.isAlphanumeric c = false) := by
  have e : defaultFormatName U name = sanitize U (toSnakeCase U seg) := by
    rw [defaultFormatName, lastSegment_iff.2 h]
  have hmem : ∀ c ∈ toSnakeCase U seg, U.isAlphanumeric c = true ∨ c = '_' := by
    intro c hc
    rcases snakeGo_chars U seg _ 0 true c hc with h | ⟨d, -, h2, h3⟩
    · exact .inr h
    · left; rw [h3, alnum_lower, h2]
  have hfil : (sanitize U (toSnakeCase U seg)).filter U.isAlphanumeric = skeleton U.isAlphanumeric seg := by
    rcases sanitize_or U (toSnakeCase U seg) with hs | hs
    · rw [hs, snake_filter]
    · rw [hs, List.filter_cons_of_neg (by simp [not_alnum_underscore]), snake_filter]
  rw [e]
  refine ⟨hfil, ?_, ?_⟩
  · intro c hc
    rcases sanitize_or U (toSnakeCase U seg) with hs | hs
    · rw [hs] at hc; exact hmem c hc
    · rw [hs] at hc
      rcases List.mem_cons.1 hc with rfl | hc
      · exact .inr rfl
      · exact hmem c hc
  · constructor
    · intro h0 c hc
      rw [h0, List.filter_nil] at hfil
      rw [← Bool.not_eq_true]
      intro hca
      have : toAsciiLower c ∈ skeleton U.isAlphanumeric seg :=
        List.mem_map.2 ⟨c, List.mem_filter.2 ⟨hc, hca⟩, rfl⟩
      rw [← hfil] at this
      cases this
    · intro h0
      rw [snake_nil U seg h0]; rfl

/-- **C30** A name in UpperCamelCase becomes its words in lower case, joined by underscores (and
sanitized). -/
theorem C30_field_camel (U : UnicodeTable) (w : Str) (ws : List Str) (h : ∀ v ∈ w :: ws, CamelWord v) :
    defaultFormatName U (w :: ws).flatten =
      sanitize U (w.map toAsciiLower ++ ws.flatMap (fun v => '_' :: v.map toAsciiLower)) := by
  have hcol : ':' ∉ (w :: ws).flatten := by
    intro hm
    obtain ⟨v, hv, hc⟩ := List.mem_flatten.1 hm
    obtain ⟨c, d, ds, rfl, h1, h2, h3⟩ := h v hv
    rcases List.mem_cons.1 hc with hc | hc
    · subst hc; revert h1; decide
    · rcases List.mem_cons.1 hc with hc | hc
      · subst hc; revert h2; decide
      · have := h3 _ hc; revert this; decide
  rw [defaultFormatName, lastSegment_iff.2 ⟨hcol, .inl rfl⟩, snake_camel U w ws h]

example : CamelWord "Some".toList ∧ CamelWord "Type".toList ∧
    defaultFormatName A ["Some".toList, "Type".toList].flatten = "some_type".toList := by
  refine ⟨⟨'S', 'o', "me".toList, rfl, by decide, by decide, by decide⟩,
    ⟨'T', 'y', "pe".toList, rfl, by decide, by decide, by decide⟩, by decide⟩

/-- **C30** The type name for a reference without prefix or with the target namespace's prefix, for every
name `n`: its characters are ASCII letters and digits, namely those of `n` up to case (after the
underscore of `sanitize`, if any); it is a legal Rust identifier exactly when `n` has an ASCII letter or
digit and the result is not the word `try`; for ASCII names it never is `try`. -/
theorem C30_type_name (U : UnicodeTable) (t n : Str) (o : Option Str) (tns : Option Namespace)
    (hr : Ref o n t) (ho : o = none ∨ o = tns.bind (·.name)) :
    (∃ body, (defaultFormatType U t tns = body ∨ defaultFormatType U t tns = '_' :: body) ∧
      (∀ c ∈ body, asciiAlnum c = true) ∧ body.map toAsciiLower = skeleton asciiAlnum n) ∧
    (LegalIdent (defaultFormatType U t tns) ↔
      (∃ c ∈ n, asciiAlnum c = true) ∧ defaultFormatType U t tns ≠ "try".toList) ∧
    ((∀ c ∈ n, c.toNat < 128) → defaultFormatType U t tns ≠ "try".toList) := by
  have e : defaultFormatType U t tns = sanitize U (filterTypeName U (toPascalCase U n)) := by
    rw [defaultFormatType, splitName_iff.2 hr]
    dsimp only
    rcases ho with rfl | rfl
    · cases nsPrefix tns <;> rfl
    · cases ht : tns.bind (·.name) with
      | none => rw [show nsPrefix tns = none from ht]
      | some p => rw [show nsPrefix tns = some p from ht]; simp
  have hsk := typeName_skeleton U n
  have hal : ∀ c ∈ filterTypeName U (toPascalCase U n), asciiAlnum c = true := by
    intro c hc; rw [typeName_eq] at hc; exact (List.mem_filter.1 hc).2
  rw [e]
  refine ⟨⟨_, sanitize_or U _, hal, hsk⟩, ?_, ?_⟩
  · cases hb : filterTypeName U (toPascalCase U n) with
    | nil =>
      rw [hb] at hsk
      constructor
      · rintro ⟨⟨c, cs, h1, -⟩, -⟩; cases h1
      · rintro ⟨⟨c, h1, h2⟩, -⟩
        have : toAsciiLower c ∈ skeleton asciiAlnum n := List.mem_map.2 ⟨c, List.mem_filter.2 ⟨h1, h2⟩, rfl⟩
        rw [← hsk] at this
        cases this
    | cons c cs =>
      rw [hb] at hsk hal
      rw [legal_sanitize U (hal c (by simp)) (fun d hd => .inl (hal d (by simp [hd])))]
      refine ⟨fun h => ⟨?_, h⟩, fun h => h.2⟩
      have : toAsciiLower c ∈ skeleton asciiAlnum n := by rw [← hsk]; simp
      obtain ⟨d, h1, -⟩ := List.mem_map.1 this
      exact ⟨d, (List.mem_filter.1 h1).1, (List.mem_filter.1 h1).2⟩
  · intro ha hx
    rcases sanitize_or U (filterTypeName U (toPascalCase U n)) with h | h
    · rw [h] at hx
      have hp : ∀ c ∈ toPascalCase U n, asciiAlnum c = true := by
        intro c hc
        have h1 := pascalGo_alnum U _ _ _ _ c hc
        rw [toPascalCase_ascii U ha] at hc
        have h2 := pascalGo_alnum .ascii _ _ _ _ c hc
        exact h2
      rw [typeName_eq, List.filter_eq_self.2 hp] at hx
      have := pascalGo_head U (trimRight U n) (fun c hc => ha c (mem_trimRight U hc)) ' ' 't' "ry".toList hx
      revert this; decide
    · rw [h] at hx
      cases hx

example : Ref (some "tt".toList) "my-type2".toList "tt:my-type2".toList ∧
    defaultFormatType A "tt:my-type2".toList (some ⟨some "tt".toList, []⟩) = "MyType2".toList :=
  ⟨.prefixed (p := "tt".toList) (n := "my-type2".toList) (by decide), by decide⟩

/-- **C30** A type name in UpperCamelCase is kept as it is (and sanitized). -/
theorem C30_type_camel (U : UnicodeTable) (ws : List Str) (h : ∀ w ∈ ws, CamelWord w) :
    defaultFormatType U ws.flatten none = sanitize U ws.flatten := by
  have hmem : ∀ c ∈ ws.flatten, asciiAlnum c = true := by
    intro c hc
    obtain ⟨v, hv, hc⟩ := List.mem_flatten.1 hc
    obtain ⟨c0, d, ds, rfl, h1, h2, h3⟩ := h v hv
    rcases List.mem_cons.1 hc with rfl | hc
    · exact alnum_of_upper h1
    · rcases List.mem_cons.1 hc with rfl | hc
      · exact alnum_of_lower h2
      · exact alnum_of_lower (h3 _ hc)
  have hcol : ':' ∉ ws.flatten := by
    intro hc; have := hmem _ hc; revert this; decide
  rw [defaultFormatType, splitName_none.2 ⟨hcol, rfl⟩]
  show sanitize U (filterTypeName U (toPascalCase U ws.flatten)) = _
  rw [typeName_eq, pascal_camel U ws h, List.filter_eq_self.2 hmem]

/-- **C30** (findings, for every Unicode table) The field name of `Try` is the keyword `try`; the name `_`
gives the empty field name; in a reference with a foreign prefix neither the prefix nor a leading digit of
the name nor a keyword is made legal. -/
theorem C30_violated (U : UnicodeTable) :
    defaultFormatName U "Try".toList = "try".toList ∧
    defaultFormatName U "_".toList = [] ∧
    defaultFormatType U "_".toList none = [] ∧
    defaultFormatType U "type:Foo".toList none = "type::Foo".toList ∧
    defaultFormatType U "my-ns:Foo".toList none = "my-ns::Foo".toList ∧
    defaultFormatType U "p:0type".toList none = "p::0Type".toList ∧
    defaultFormatType U "p:self".toList none = "p::Self".toList := by
  refine ⟨?_, ?_, ?_, ?_, ?_, ?_, ?_⟩
  · rw [defaultFormatName_ascii U (by decide)]; decide
  · rw [defaultFormatName_ascii U (by decide)]; decide
  all_goals rw [defaultFormatType_ascii U (by decide)]; decide

/-- **C30** (finding) Letters outside ASCII are dropped from type names, so that a type with a non-Latin
name gets the empty name. -/
theorem C30_non_ascii_violated :
    defaultFormatType .latin1 "é".toList none = [] ∧ defaultFormatType .latin1 "Größe".toList none = "Gre".toList := by
  decide

/-! ## C31 -/

/-- **C31** (violated) Different names of one type can get the same field name, and different types the
same type name: case and punctuation are not kept apart, and prefixes are dropped. -/
theorem C31_clash_violated (U : UnicodeTable) :
    defaultFormatName U "fooBar".toList = defaultFormatName U "foo_bar".toList ∧
    defaultFormatName U "a:id".toList = defaultFormatName U "b:id".toList ∧
    defaultFormatName U "id".toList = defaultFormatName U "ID".toList ∧
    defaultFormatType U "foo-bar".toList none = defaultFormatType U "FooBar".toList none := by
  refine ⟨?_, ?_, ?_, ?_⟩
  · rw [defaultFormatName_ascii U (by decide), defaultFormatName_ascii U (s := "foo_bar".toList) (by decide)]; decide
  · rw [defaultFormatName_ascii U (by decide), defaultFormatName_ascii U (s := "b:id".toList) (by decide)]; decide
  · rw [defaultFormatName_ascii U (by decide), defaultFormatName_ascii U (s := "ID".toList) (by decide)]; decide
  · rw [defaultFormatType_ascii U (by decide), defaultFormatType_ascii U (s := "FooBar".toList) (by decide)]; decide

/-- **C31** (partial) Names that differ in more than case, punctuation and prefix never clash. For all
Unicode names. -/
theorem C31_field_partial (U : UnicodeTable) (a b s t : Str) (ha : AfterLastColon a s) (hb : AfterLastColon b t)
    (hne : skeleton U.isAlphanumeric s ≠ skeleton U.isAlphanumeric t) :
    defaultFormatName U a ≠ defaultFormatName U b := by
  intro h
  rw [← (C30_field_letters U a s ha).1, ← (C30_field_letters U b t hb).1, h] at hne
  exact hne rfl

/-- **C31** (partial) Likewise the names of types of the target namespace. -/
theorem C31_type_partial (U : UnicodeTable) (a b : Str) (ha : ':' ∉ a) (hb : ':' ∉ b)
    (hne : skeleton asciiAlnum a ≠ skeleton asciiAlnum b) (tns : Option Namespace) :
    defaultFormatType U a tns ≠ defaultFormatType U b tns := by
  intro h
  have key : ∀ n : Str, ':' ∉ n → skeleton asciiAlnum (defaultFormatType U n tns) = skeleton asciiAlnum n := by
    intro n hn
    obtain ⟨⟨body, h1, h2, h3⟩, -⟩ := C30_type_name U n n none tns (.bare hn) (.inl rfl)
    have hb : skeleton asciiAlnum body = body.map toAsciiLower := by rw [skeleton, List.filter_eq_self.2 h2]
    rcases h1 with h1 | h1
    · rw [h1, hb, h3]
    · have : skeleton asciiAlnum ('_' :: body) = skeleton asciiAlnum body := by
        rw [skeleton, List.filter_cons_of_neg (by decide), skeleton]
      rw [h1, this, hb, h3]
  apply hne
  rw [← key a ha, ← key b hb, h]

/-- **C31** (partial) Names which are in lower snake case (letters only) never clash. -/
theorem C31_snake_partial (U : UnicodeTable) (a b : Str) (ha : Snake (fun c => asciiLower c = true) a)
    (hb : Snake (fun c => asciiLower c = true) b) (h : defaultFormatName U a = defaultFormatName U b) : a = b := by
  have key : ∀ s : Str, Snake (fun c => asciiLower c = true) s →
      defaultFormatName U s = sanitize U s ∧ s.head? ≠ some '_' := by
    intro s hs
    obtain ⟨c, cs, h1, h2, h3⟩ := Snake.cons hs
    have hcol : ':' ∉ s := by
      rw [h1]
      intro hm
      rcases List.mem_cons.1 hm with hm | hm
      · subst hm; revert h2; decide
      · rcases h3 _ hm with h | h
        · revert h; decide
        · cases h
    refine ⟨by rw [defaultFormatName, lastSegment_iff.2 ⟨hcol, .inl rfl⟩, snake_snake U hs], ?_⟩
    rw [h1]
    intro he
    cases he
    revert h2; decide
  rw [(key a ha).1, (key b hb).1] at h
  exact C29_injective_partial U a b (key a ha).2 (key b hb).2 h

example : Snake (fun c => asciiLower c = true) "some_type".toList :=
  ⟨"some".toList, ["type".toList], rfl, by decide⟩

/-- **C31** (partial) Type names in UpperCamelCase never clash. -/
theorem C31_camel_partial (U : UnicodeTable) (vs ws : List Str) (hv : ∀ w ∈ vs, CamelWord w)
    (hw : ∀ w ∈ ws, CamelWord w) (h : defaultFormatType U vs.flatten none = defaultFormatType U ws.flatten none) :
    vs.flatten = ws.flatten := by
  rw [C30_type_camel U vs hv, C30_type_camel U ws hw] at h
  have key : ∀ us : List Str, (∀ w ∈ us, CamelWord w) → us.flatten.head? ≠ some '_' := by
    intro us hu
    cases us with
    | nil => simp
    | cons u us =>
      obtain ⟨c, d, ds, rfl, h1, -⟩ := hu u (by simp)
      intro he
      cases he
      revert h1; decide
  exact C29_injective_partial U _ _ (key vs hv) (key ws hw) h

/-! ## C32 -/

/-- **C32** A reference to a built-in type gives the built-in Rust type, whatever the target namespace. -/
theorem C32_builtin (U : UnicodeTable) (t r : Str) (tns xsd : Option Namespace)
    (h : matchBuiltInType t xsd = some r) : formatTypeName U tns xsd t = r := by
  rw [formatTypeName, h]

/-- **C32** Any other reference `p:n`: the bare type name when `p` is absent or the target namespace's
prefix, and `p::` followed by the type name otherwise (also when the target namespace has no prefix, or
there is none). `T` is the type name of `n` before sanitizing: the same in all three cases, a function of
`n` only. -/
theorem C32_qualified (U : UnicodeTable) (t n : Str) (o : Option Str) (tns xsd : Option Namespace)
    (hr : Ref o n t) (hb : matchBuiltInType t xsd = none) :
    let T := filterTypeName U (toPascalCase U n)
    (o = none → formatTypeName U tns xsd t = sanitize U T) ∧
    (∀ p, o = some p → tns.bind (·.name) = some p → formatTypeName U tns xsd t = sanitize U T) ∧
    (∀ p, o = some p → tns.bind (·.name) ≠ some p →
      formatTypeName U tns xsd t = sanitize U (p ++ [':', ':'] ++ T)) := by
  have e : formatTypeName U tns xsd t = defaultFormatType U t tns := by rw [formatTypeName, hb]
  rw [e, defaultFormatType, splitName_iff.2 hr]
  refine ⟨?_, ?_, ?_⟩
  · rintro rfl
    cases h : nsPrefix tns <;> rfl
  · rintro p rfl hp
    have : nsPrefix tns = some p := hp
    simp [this]
  · rintro p rfl hp
    have hp' : nsPrefix tns ≠ some p := hp
    dsimp only
    cases h : nsPrefix tns with
    | none => rfl
    | some q =>
      have : p ≠ q := by rintro rfl; exact hp' h
      simp [this]

example : formatTypeName A (some ⟨some "tt".toList, []⟩) (some ⟨some "xs".toList, []⟩) "onvif:Foo".toList =
    "onvif::Foo".toList := by decide

/-- **C32** (violated) The Rust type does not tell built-in types from types of the schema: a type called
`string` of the target namespace is written `String` like the built-in type, and when the XML Schema
namespace has no prefix, a type of the schema called `date` is taken for the built-in one. -/
theorem C32_shadow_violated (U : UnicodeTable) :
    (formatTypeName U (some ⟨some "tns".toList, []⟩) (some ⟨some "xs".toList, []⟩) "tns:string".toList =
      formatTypeName U (some ⟨some "tns".toList, []⟩) (some ⟨some "xs".toList, []⟩) "xs:string".toList) ∧
    formatTypeName U (some ⟨some "tns".toList, []⟩) (some ⟨none, []⟩) "date".toList = "xs::Date".toList := by
  have h1 : formatTypeName U (some ⟨some "tns".toList, []⟩) (some ⟨some "xs".toList, []⟩) "tns:string".toList =
      defaultFormatType U "tns:string".toList (some ⟨some "tns".toList, []⟩) := by
    rw [formatTypeName]
    have : matchBuiltInType "tns:string".toList (some ⟨some "xs".toList, []⟩) = none := by decide
    rw [this]
  constructor
  · rw [h1, defaultFormatType_ascii U (by decide),
      C32_builtin U "xs:string".toList "String".toList _ _ (by decide)]
    decide
  · exact C32_builtin U _ _ _ _ (by decide)

/-! ## C33 -/

/-- **C33** `Empty` anywhere gives the unit type. -/
theorem C33_empty (t : Str) (ms : List TypeModifier) (h : .empty ∈ ms) :
    defaultModifyType t ms = "()".toList := by
  rw [defaultModifyType, if_pos (by simpa using h)]

/-- **C33** Otherwise `Recursive` anywhere gives a vector of the base type. -/
theorem C33_recursive (t : Str) (ms : List TypeModifier) (h : .empty ∉ ms) (h' : .recursive ∈ ms) :
    defaultModifyType t ms = "Vec<".toList ++ t ++ ">".toList := by
  rw [defaultModifyType, if_neg (by simpa using h), if_pos (by simpa using h')]

/-- **C33** Otherwise: no modifier leaves the type, and a further last modifier wraps what the modifiers
before it gave: `Array` in `Vec`, `Option` in `Option`, `None` not at all. -/
theorem C33_nesting (t : Str) (ms : List TypeModifier) (h : .empty ∉ ms) (h' : .recursive ∉ ms) :
    defaultModifyType t [] = t ∧
    defaultModifyType t (ms ++ [.none]) = defaultModifyType t ms ∧
    defaultModifyType t (ms ++ [.array]) = "Vec<".toList ++ defaultModifyType t ms ++ ">".toList ∧
    defaultModifyType t (ms ++ [.option]) = "Option<".toList ++ defaultModifyType t ms ++ ">".toList := by
  have key : ∀ m, m ≠ .empty → m ≠ .recursive →
      defaultModifyType t (ms ++ [m]) = applyModifier (defaultModifyType t ms) m := by
    intro m h1 h2
    rw [defaultModifyType, if_neg (by simp [h, h1.symm]), if_neg (by simp [h', h2.symm]), List.foldl_append,
      defaultModifyType, if_neg (by simpa using h), if_neg (by simpa using h')]
    rfl
  exact ⟨rfl, key .none (by simp) (by simp), key .array (by simp) (by simp), key .option (by simp) (by simp)⟩

example : defaultModifyType "T".toList [.array, .none, .option] = "Option<Vec<T>>".toList := by decide

/-! ## C34 -/

/-- **C34** Whatever the documentation, the comment is a sequence of lines consisting of the indentation,
`//` and words without white space (so without line ends), each preceded by a blank: nothing of the
documentation is outside a comment. Its lines are, for each line of the documentation in order, the words
of that line, all of them and in order, wrapped greedily at the length limit; lines without a word or with
a single one-byte word are left out. -/
theorem C34_comment (doc : Option Str) (maxLen indent : Nat) :
    ∃ per : List (Str × List (List Str)),
      List.intercalate ['\n'] (per.map (·.1)) = doc.getD [] ∧
      defaultFormatComment doc maxLen indent =
        per.flatMap (fun p => p.2.flatMap fun g => commentLine indent g ++ ['\n']) ∧
      ∀ p ∈ per, '\n' ∉ p.1 ∧ (Dropped p.1 → p.2 = []) ∧
        (¬ Dropped p.1 → ∃ ws, Words p.1 ws ∧ Wrapped maxLen indent ws p.2) := by
  have key : ∀ ls : List Str, (∀ l ∈ ls, '\n' ∉ l) → ∃ per : List (Str × List (List Str)),
      per.map (·.1) = ls ∧
      (ls.flatMap fun l => if keep (strTrim l) then splitCommentLine (strTrim l) maxLen indent else []) =
        per.flatMap (fun p => p.2.flatMap fun g => commentLine indent g ++ ['\n']) ∧
      ∀ p ∈ per, '\n' ∉ p.1 ∧ (Dropped p.1 → p.2 = []) ∧
        (¬ Dropped p.1 → ∃ ws, Words p.1 ws ∧ Wrapped maxLen indent ws p.2) := by
    intro ls
    induction ls with
    | nil => intro _; exact ⟨[], rfl, rfl, by simp⟩
    | cons l ls ih =>
      intro hl
      obtain ⟨per, h1, h2, h3⟩ := ih (fun x hx => hl x (by simp [hx]))
      obtain ⟨gs, k1, k2, k3⟩ := line_groups maxLen indent l
      refine ⟨(l, gs) :: per, by simp [h1], ?_, ?_⟩
      · rw [List.flatMap_cons, List.flatMap_cons, h2, k1]
      · intro p hp
        rcases List.mem_cons.1 hp with rfl | hp
        · exact ⟨hl l (by simp), k2, k3⟩
        · exact h3 p hp
  obtain ⟨per, h1, h2, h3⟩ := key (Str.splitOn '\n' (doc.getD [])) splitOn_not_mem
  exact ⟨per, by rw [h1, splitOn_intercalate], by rw [comment_eq, h2], h3⟩

/-- **C34** So every line of the comment, that is every maximal part without line feed, starts with the
indentation and `//`, and the comment ends with a line feed unless it is empty. -/
theorem C34_every_line (doc : Option Str) (maxLen indent : Nat) :
    ∃ ls : List Str, defaultFormatComment doc maxLen indent = ls.flatMap (· ++ ['\n']) ∧
      ∀ l ∈ ls, '\n' ∉ l ∧ ∃ rest, l = List.replicate indent ' ' ++ '/' :: '/' :: rest := by
  obtain ⟨per, -, h2, h3⟩ := C34_comment doc maxLen indent
  refine ⟨per.flatMap fun p => p.2.map (commentLine indent), ?_, ?_⟩
  · rw [h2, List.flatMap_assoc]
    congr 1; funext p
    rw [List.flatMap_map]
  · intro l hl
    obtain ⟨p, hp, hl⟩ := List.mem_flatMap.1 hl
    obtain ⟨g, hg, rfl⟩ := List.mem_map.1 hl
    obtain ⟨-, k2, k3⟩ := h3 p hp
    refine ⟨?_, g.flatMap (' ' :: ·), by simp [commentLine]⟩
    by_cases hd : Dropped p.1
    · rw [k2 hd] at hg; cases hg
    · obtain ⟨ws, hw, hwr⟩ := k3 hd
      have hwords : ∀ w ∈ g, Word w := by
        intro w hwg
        have hmem : w ∈ ws := by rw [← hwr.2.1]; exact List.mem_flatten.2 ⟨g, hg, hwg⟩
        exact words_word hw w hmem
      intro hn
      rw [commentLine] at hn
      rcases List.mem_append.1 hn with hn | hn
      · rcases List.mem_append.1 hn with hn | hn
        · rw [List.mem_replicate] at hn; revert hn; simp
        · revert hn; decide
      · obtain ⟨w, hw, hn⟩ := List.mem_flatMap.1 hn
        rcases List.mem_cons.1 hn with hn | hn
        · revert hn; decide
        · exact (hwords w hw).2 _ hn (Chr.isWhitespace_iff.1 (by decide))

example : defaultFormatComment (some "/* evil */ \n } fn main() {}\nx".toList) 80 4 =
    "    // /* evil */\n    // } fn main() {}\n".toList := by decide

/-- **C34** (finding) A documentation line with a single one-byte character is lost. -/
theorem C34_one_byte_lost (c : Char) (h : c.utf8Size = 1) (hc : ¬ Space c) (maxLen indent : Nat) :
    defaultFormatComment (some [c]) maxLen indent = [] := by
  have hnl : c ≠ '\n' := by
    rintro rfl
    exact hc (Chr.isWhitespace_iff.1 (by decide))
  rw [comment_eq]
  have hs : Str.splitOn '\n' [c] = [[c]] := splitOn_of_not_mem (by simpa using fun h => hnl h.symm)
  have hk : keep (strTrim [c]) = false := by
    have hw : Chrono.isWhitespace c = false := Ser.isWhitespace_false hc
    have : strTrim [c] = [c] := by simp [strTrim, hw]
    rw [this]; simp [keep, h]
  rw [Option.getD_some, hs, List.flatMap_cons, List.flatMap_nil, hk]
  rfl

end Verif.Props
