import Verif.Lemmas.SynFile
import Verif.Lemmas.SynItems
import Verif.Lemmas.GenText
import Verif.Props.GenNames

/-! # Plain names give Rust names -/

namespace Verif.Lemmas.Syn

open Verif Verif.Model Verif.Spec Verif.Spec.Syn Verif.RoXml Verif.Lemmas Verif.Lemmas.Parse Verif.Lemmas.Gen Verif.Inflector

variable {U : UnicodeTable}

/-! ## Texts of types -/

theorem typeText_word {n : Str} (h : LegalIdent n) : TypeText n :=
  ⟨_, by have := opn_word h [] [] (by simp) .nil; simpa using this, .path (.one h)⟩

theorem typeText_path {p n : Str} (hp : LegalIdent p) (hn : LegalIdent n) : TypeText (p ++ "::".toList ++ n) := by
  have h2 : Seg "::".toList [pt "::"] := seg_of 5 (by decide +kernel)
  have h := ((opn_word hp).app h2 ⟨':', rfl, by decide⟩).appOpn (opn_word hn)
  refine ⟨_, ?_, .path (.more (.one hp) hn)⟩
  have := h [] [] (by simp) .nil
  simpa using this

/-- The Rust types for the built-in types. -/
theorem typeText_builtin : ∀ row ∈ readmeTable ++ undocumentedTable, TypeText row.2.toList := by
  have h : ∀ row ∈ readmeTable ++ undocumentedTable,
      row.2 ∈ ["String", "bool", "f32", "f64", "i8", "i16", "i32", "i64", "u8", "u16", "u32", "u64"] ∨
      (∃ s ∈ ["Integer", "NonNegativeInteger", "PositiveInteger", "NonPositiveInteger", "NegativeInteger", "Decimal",
        "DateTime", "DateTimeStamp", "Date", "Time", "Duration", "GYear", "GYearMonth", "GMonth", "GMonthDay", "GDay"],
        row.2.toList = "xs".toList ++ "::".toList ++ s.toList) ∨ row.2 = "Vec<String>" := by decide +kernel
  intro row hr
  rcases h row hr with h | ⟨s, h1, h2⟩ | h
  · have : ∀ s ∈ ["String", "bool", "f32", "f64", "i8", "i16", "i32", "i64", "u8", "u16", "u32", "u64"],
        legalB s.toList = true := by decide +kernel
    exact typeText_word (legal_of (this _ h))
  · rw [h2]
    have : ∀ s ∈ ["Integer", "NonNegativeInteger", "PositiveInteger", "NonPositiveInteger", "NegativeInteger", "Decimal",
        "DateTime", "DateTimeStamp", "Date", "Time", "Duration", "GYear", "GYearMonth", "GMonth", "GMonthDay", "GDay"],
        legalB s.toList = true := by decide +kernel
    exact typeText_path (legal_of (by decide +kernel)) (legal_of (this _ h1))
  · rw [h]
    exact typeText_wrap (p := "Vec") (typeText_word (n := "String".toList) (legal_of (by decide +kernel))) (by decide)

/-! ## Local names -/

/-- What is used of a plain name, also after a colon. -/
def Local (n : Str) : Prop :=
  (∀ c ∈ n, c.toNat < 128) ∧ (∃ c cs, skeleton asciiAlnum n = c :: cs ∧ asciiLower c = true) ∧
  skeleton asciiAlnum n ≠ "self".toList

theorem PlainName.local {n : Str} (h : PlainName n) : Local n := ⟨h.1, h.2.2.1, h.2.2.2.1⟩

theorem Local.colon {n : Str} (h : Local n) : Local (':' :: n) := by
  have e : skeleton asciiAlnum (':' :: n) = skeleton asciiAlnum n := rfl
  exact ⟨fun c hc => (List.mem_cons.1 hc).elim (fun h => by subst h; decide) (h.1 c), e ▸ h.2.1, e ▸ h.2.2⟩

theorem Local.alnum {n : Str} (h : Local n) : ∃ c ∈ n, asciiAlnum c = true := by
  obtain ⟨c, cs, h1, -⟩ := h.2.1
  have : c ∈ skeleton asciiAlnum n := by rw [h1]; exact List.mem_cons_self
  obtain ⟨d, hd, -⟩ := List.mem_map.1 this
  exact ⟨d, List.mem_filter.1 hd⟩

/-- The type name of a local name. -/
abbrev pas (U : UnicodeTable) (n : Str) : Str := filterTypeName U (toPascalCase U n)

theorem pas_eq {n : Str} (ha : ∀ c ∈ n, c.toNat < 128) : pas U n = toPascalCase U n := by
  rw [pas, typeName_eq]
  refine List.filter_eq_self.2 fun c hc => ?_
  rw [toPascalCase_ascii U ha] at hc
  exact pascalGo_alnum .ascii _ _ _ _ c hc

theorem pas_head {n : Str} (h : Local n) : ∃ c cs, pas U n = c :: cs ∧ asciiUpper c = true ∧ ∀ d ∈ cs, asciiAlnum d = true := by
  obtain ⟨c, cs, h1, h2⟩ := h.2.1
  have hsk := typeName_skeleton U n
  have hal : ∀ d ∈ pas U n, asciiAlnum d = true := by
    intro d hd; rw [pas, typeName_eq] at hd; exact (List.mem_filter.1 hd).2
  rw [h1] at hsk
  cases hp : pas U n with
  | nil => rw [show filterTypeName U (toPascalCase U n) = pas U n from rfl, hp] at hsk; cases hsk
  | cons d ds =>
    rw [show filterTypeName U (toPascalCase U n) = pas U n from rfl, hp, List.map_cons] at hsk
    refine ⟨d, ds, rfl, ?_, fun x hx => hal x (by rw [hp]; exact List.mem_cons_of_mem _ hx)⟩
    have e := (List.cons.inj hsk).1
    rw [pas_eq h.1] at hp
    rcases pascalGo_head U (trimRight U n) (fun c hc => h.1 c (mem_trimRight U hc)) ' ' d ds hp with hu | hd
    · exact hu
    · exfalso
      have hl : toAsciiLower d = d := by
        unfold toAsciiLower
        rw [if_neg]
        rw [asciiUpper_iff]
        rw [Str.isAsciiDigit_iff] at hd
        omega
      rw [← e, hl] at h2
      rw [asciiLower_iff] at h2
      rw [Str.isAsciiDigit_iff] at hd
      omega

theorem keyword_head : ∀ k ∈ rustKeywords, k = "Self" ∨ ∃ c cs, k.toList = c :: cs ∧ asciiUpper c = false := by
  have h : ∀ k ∈ rustKeywords, k = "Self" ∨ (match k.toList with | [] => false | c :: _ => !asciiUpper c) = true := by
    decide +kernel
  intro k hk
  rcases h k hk with h | h
  · exact .inl h
  · cases he : k.toList with
    | nil => rw [he] at h; cases h
    | cons c cs => rw [he] at h; exact .inr ⟨c, cs, rfl, by simpa using h⟩

theorem pas_legal {n : Str} (h : Local n) : LegalIdent (pas U n) := by
  obtain ⟨c, cs, h1, h2, h3⟩ := pas_head (U := U) h
  refine ⟨⟨c, cs, h1, .inl h2, fun d hd => .inl (h3 d hd), ?_⟩, ?_⟩
  · rw [h1]; intro e; obtain rfl := (List.cons.inj e).1; revert h2; decide
  · intro k hk e
    rcases keyword_head k hk with rfl | ⟨d, ds, hd, hu⟩
    · have := typeName_skeleton U n
      rw [show filterTypeName U (toPascalCase U n) = pas U n from rfl, e] at this
      exact h.2.2 this.symm
    · rw [h1, hd] at e
      obtain rfl := (List.cons.inj e).1
      rw [h2] at hu; cases hu

theorem legal_head {p : Str} (h : LegalIdent p) : ∃ c cs, p = c :: cs ∧ U.isNumeric c = false ∧ ':' ∉ p := by
  obtain ⟨⟨c, cs, rfl, h1, h2, -⟩, -⟩ := h
  refine ⟨c, cs, rfl, ?_, ?_⟩
  · have hlt : c.toNat < 128 ∧ Str.isAsciiDigit c = false := by
      rcases h1 with h | h | rfl
      · rw [asciiUpper_iff] at h
        refine ⟨by omega, ?_⟩
        rw [← Bool.not_eq_true, Str.isAsciiDigit_iff]
        omega
      · rw [asciiLower_iff] at h
        refine ⟨by omega, ?_⟩
        rw [← Bool.not_eq_true, Str.isAsciiDigit_iff]
        omega
      · decide
    rw [U.numeric_ascii c hlt.1]; exact hlt.2
  · intro hm
    rcases List.mem_cons.1 hm with rfl | hm
    · revert h1; decide
    · have := h2 _ hm; revert this; decide

theorem sanitize_path {p n : Str} (h : LegalIdent p) : sanitize U (p ++ "::".toList ++ n) = p ++ "::".toList ++ n := by
  obtain ⟨c, cs, rfl, hn, -⟩ := legal_head (U := U) h
  have hk : ∀ k ∈ rsKeywords, ':' ∉ k := by decide +kernel
  show (if U.isNumeric c || rsKeywords.contains (c :: (cs ++ "::".toList ++ n)) then _ else _) = _
  rw [if_neg]
  · rfl
  · rw [hn, Bool.false_or, List.contains_iff_mem]
    intro hm
    exact hk _ hm (by simp)

theorem local_sanitized {n : Str} (h : Local n) : LegalIdent (sanitize U (pas U n)) := by
  have hc : ':' ∉ sanitize U (pas U n) := by
    intro hm
    rcases sanitize_or U (pas U n) with e | e
    · rw [e] at hm; exact Gen.colon_not_pascal U n hm
    · rw [e] at hm
      rcases List.mem_cons.1 hm with e | hm
      · cases e
      · exact Gen.colon_not_pascal U n hm
  obtain ⟨c, cs, h1, h2, h3⟩ := pas_head (U := U) h
  rw [h1, legal_sanitize U (by simp [asciiAlnum, h2]) (fun d hd => .inl (h3 d hd))]
  intro e
  rcases sanitize_or U (c :: cs) with h | h
  · rw [h] at e; obtain rfl := (List.cons.inj e).1; revert h2; decide
  · rw [h] at e; cases e

/-! ## Names of a naming -/

section
variable {tns xsd : Option Namespace}

/-- The text of the type for a reference. -/
theorem type_ref {o : Option Str} {n v : Str} (hr : Ref o n v) (hn : Local n) (ho : ∀ p, o = some p → LegalIdent p) :
    TypeText (formatTypeName U tns xsd v) := by
  cases hb : matchBuiltInType v xsd with
  | some r =>
    rw [Props.C32_builtin U v r tns xsd hb]
    obtain ⟨row, h1, -, rfl⟩ := (matchBuiltInType_iff v r xsd).1 hb
    exact typeText_builtin row h1
  | none =>
    obtain ⟨h1, h2, h3⟩ := Props.C32_qualified U v n o tns xsd hr hb
    cases o with
    | none => rw [h1 rfl]; exact typeText_word (local_sanitized hn)
    | some p =>
      by_cases hp : tns.bind (·.name) = some p
      · rw [h2 p rfl hp]; exact typeText_word (local_sanitized hn)
      · have e : formatTypeName U tns xsd v = sanitize U (p ++ "::".toList ++ pas U n) := h3 p rfl hp
        rw [e, sanitize_path (ho p rfl)]
        exact typeText_path (ho p rfl) (pas_legal hn)

/-- The name of the case for a reference. -/
theorem case_ref {o : Option Str} {n v : Str} (hr : Ref o n v) (hn : Local n) :
    LegalIdent (caseName ⟨U, tns, xsd⟩ { name := v }) := by
  have h := Gen.caseName_eq (g := ⟨U, tns, xsd⟩) (c := { name := v }) hr
  by_cases ho : o = none ∨ o = tns.bind (·.name)
  · rw [h.1 ho]; exact local_sanitized hn
  · rw [h.2 ho]; exact pas_legal hn

/-- The name of the case for an enumerated value. -/
theorem case_value {v : Str} (hv : ':' ∉ v) (ha : ∀ c ∈ v, c.toNat < 128) (hx : ∃ c ∈ v, asciiAlnum c = true) :
    LegalIdent (caseName ⟨U, tns, xsd⟩ { name := v }) := by
  have h := (Gen.caseName_eq (g := ⟨U, tns, xsd⟩) (c := { name := v }) (.bare hv)).1 (.inl rfl)
  obtain ⟨-, h1, h2⟩ := Props.C30_type_name U v v none none (.bare hv) (.inl rfl)
  have e : defaultFormatType U v none = caseName ⟨U, tns, xsd⟩ { name := v } := by
    rw [h, defaultFormatType, splitName_iff.2 (.bare hv)]
  rw [← e]
  exact h1.2 ⟨hx, h2 ha⟩

/-- The name of the field for a reference. -/
theorem field_ref {v n : Str} (hr : AfterLastColon v n) (ha : ∀ c ∈ n, c.toNat < 128) (hx : ∃ c ∈ n, asciiAlnum c = true)
    (ht : skeleton asciiAlnum n ≠ "try".toList) : LegalIdent (defaultFormatName U v) := by
  refine (Props.C30_field_name U v n hr ha hx).2.2 fun e => ht ?_
  have h := (Props.C30_field_letters U v n hr).1
  have hs : skeleton U.isAlphanumeric n = skeleton asciiAlnum n := by
    unfold skeleton
    rw [List.filter_congr fun c hc => U.alnum_ascii c (ha c hc)]
  rw [← hs, ← h, e]
  simp [alnum_of_ascii U (c := 't') (by decide), alnum_of_ascii U (c := 'r') (by decide), alnum_of_ascii U (c := 'y') (by decide)]

end

/-- A name which can be used for definitions. -/
def Definable (N : Naming) (v : Str) : Prop :=
  LegalIdent (N.type v) ∧ LegalIdent (N.name v) ∧ LegalIdent (N.case v) ∧ TypeText (N.type v) ∧
  ∀ m, LegalIdent m → TypeText (N.type (m ++ "::".toList ++ v))

abbrev kindsOf (N : Naming) : Kinds :=
  ⟨Definable N, fun v => LegalIdent (N.name v), fun v => TypeText (N.type v), fun v => LegalIdent (N.case v)⟩

section
variable {tns xsd : Option Namespace}

theorem definable (hx : nsPrefix xsd ≠ none) {v : Str} (h : PlainName v) :
    Definable (Gen.GenCtx.naming ⟨U, tns, xsd⟩) v := by
  have hl := PlainName.local h
  have hr : Ref none v v := .bare h.2.1
  have hb : matchBuiltInType v xsd = none := by
    rw [matchBuiltInType, splitName_iff.2 hr]; exact if_pos hx
  refine ⟨?_, field_ref ⟨h.2.1, .inl rfl⟩ h.1 hl.alnum h.2.2.2.2, case_ref hr hl, type_ref hr hl (by simp), ?_⟩
  · show LegalIdent (formatTypeName U tns xsd v)
    rw [(Props.C32_qualified U v v none tns xsd hr hb).1 rfl]
    exact local_sanitized hl
  · intro m hm
    have e : m ++ "::".toList ++ v = m ++ ':' :: (':' :: v) := by simp
    refine type_ref (o := some m) (n := ':' :: v) ?_ hl.colon (by rintro p ⟨⟩; exact hm)
    rw [e]
    obtain ⟨c, cs, -, -, h⟩ := legal_head (U := U) hm
    exact .prefixed h

theorem PlainName.append {v s : Str} (h : PlainName v) (ha : ∀ c ∈ s, c.toNat < 128) (hc : ':' ∉ s)
    (h4 : 3 < (skeleton asciiAlnum s).length) : PlainName (v ++ s) := by
  obtain ⟨c, cs, h1, h2⟩ := h.2.2.1
  have e : skeleton asciiAlnum (v ++ s) = c :: (cs ++ skeleton asciiAlnum s) := by
    rw [skeleton, List.filter_append, List.map_append]
    show skeleton asciiAlnum v ++ _ = _
    rw [h1]; rfl
  have hlen : 4 < (skeleton asciiAlnum (v ++ s)).length := by rw [e]; simp; omega
  refine ⟨fun d hd => (List.mem_append.1 hd).elim (h.1 d) (ha d), fun hm => (List.mem_append.1 hm).elim h.2.1 hc,
    ⟨c, _, e, h2⟩, ?_, ?_⟩ <;>
  · intro e
    rw [e] at hlen
    revert hlen; decide

theorem owner (hx : nsPrefix xsd ≠ none) {v : Str} (h : PlainName v) : Owner (kindsOf (Gen.GenCtx.naming ⟨U, tns, xsd⟩)) v :=
  ⟨definable hx h, definable hx (PlainName.append h (by decide) (by decide) (by decide)),
    definable hx (PlainName.append h (by decide) (by decide) (by decide)), definable hx (PlainName.append h (by decide) (by decide) (by decide))⟩

end

/-! ## Names in a document -/

theorem xsd_prefix {root : Node} (h : ∃ a ∈ root.namespaces, a.uri = "http://www.w3.org/2001/XMLSchema".toList ∧ a.name ≠ none) :
    nsPrefix (xsdNamespace root) ≠ none := by
  obtain ⟨a, h1, h2, h3⟩ := h
  unfold xsdNamespace
  dsimp only
  cases hf : (root.namespaces.filter fun n => decide (n.uri = xsdUri)).find? fun n => n.name.isSome with
  | none =>
    have := List.find?_eq_none.1 hf a (List.mem_filter.2 ⟨h1, decide_eq_true h2⟩)
    exact absurd (Option.isSome_iff_ne_none.2 h3) this
  | some b =>
    have := List.find?_some hf
    exact Option.isSome_iff_ne_none.1 this

theorem plainName_of {s : String} (h : (match skeleton asciiAlnum s.toList with
      | [] => false
      | c :: cs => asciiLower c && decide ((∀ c ∈ s.toList, c.toNat < 128) ∧ ':' ∉ s.toList ∧ c :: cs ≠ "self".toList ∧ c :: cs ≠ "try".toList)) = true) :
    PlainName s.toList := by
  cases hs : skeleton asciiAlnum s.toList with
  | nil => rw [hs] at h; cases h
  | cons c cs =>
    rw [hs] at h
    simp only [Bool.and_eq_true, decide_eq_true_eq] at h
    obtain ⟨h1, h2, h3, h4, h5⟩ := h
    exact ⟨h2, h3, ⟨c, cs, hs, h1⟩, by rw [hs]; exact h4, by rw [hs]; exact h5⟩

theorem PlainName.number {s : String} (h : PlainName s.toList) (h4 : 4 < (skeleton asciiAlnum s.toList).length) (i : Nat) :
    PlainName (s.toList ++ Str.natStr i) := by
  obtain ⟨c, cs, h1, h2⟩ := h.2.2.1
  have hd : ∀ d ∈ Str.natStr i, 48 ≤ d.toNat ∧ d.toNat ≤ 57 := fun d hd =>
    Str.isAsciiDigit_iff.1 (List.all_eq_true.1 (Str.allDigits_natStr i) d hd)
  have e : skeleton asciiAlnum (s.toList ++ Str.natStr i) = c :: (cs ++ skeleton asciiAlnum (Str.natStr i)) := by
    rw [skeleton, List.filter_append, List.map_append]
    show skeleton asciiAlnum s.toList ++ _ = _
    rw [h1]; rfl
  have hlen : 4 < (skeleton asciiAlnum (s.toList ++ Str.natStr i)).length := by
    rw [e]; rw [h1] at h4; simp at h4 ⊢; omega
  refine ⟨fun d hd' => (List.mem_append.1 hd').elim (h.1 d) (fun h => by have := hd d h; omega),
    fun hm => (List.mem_append.1 hm).elim h.2.1 (fun h => by have := hd _ h; revert this; decide), ⟨c, _, e, h2⟩, ?_, ?_⟩ <;>
  · intro e
    rw [e] at hlen
    revert hlen; decide

theorem after_ref {o : Option Str} {n v : Str} (h : Ref o n v) (hn : ':' ∉ n) : AfterLastColon v n := by
  cases h with
  | bare _ => exact ⟨hn, .inl rfl⟩
  | @prefixed p n _ => exact ⟨hn, .inr ⟨p, rfl⟩⟩

/-- The names in a document with plain names. -/
theorem supplies {root : Node} {tns : Option Namespace} (hg : Grammatical root) (hn : PlainNames U root) :
    Supplies U (PartOf root) (kindsOf (Gen.GenCtx.naming ⟨U, tns, xsdNamespace root⟩)) := by
  have hx := xsd_prefix hn.xsd
  have hp : ∀ {n v} {a : String}, PartOf root n → a ∈ ["ref", "type", "base", "itemType"] → n.attr a.toList = some v →
      TypeText (formatTypeName U tns (xsdNamespace root) v) := by
    intro n v a h1 h2 h3
    obtain ⟨o, m, k1, k2, k3⟩ := hn.refs n a v h1 h2 h3
    exact type_ref k1 (PlainName.local k2) k3
  refine
    { hered := ?_, fields := fun h => h.2.1, types := fun h => h.2.2.2.1, variants := fun h => h.2.2.1,
      name := fun h1 h2 => owner hx (hn.names _ _ h1 h2), ref := ?_, type := fun h1 h2 => hp (a := "type") h1 (by decide) h2,
      base := fun h1 h2 => hp (a := "base") h1 (by decide) h2, item := fun h1 h2 => hp (a := "itemType") h1 (by decide) h2,
      members := ?_, value := ?_,
      unsupported := owner hx (plainName_of (by decide +kernel)), schema := owner hx (plainName_of (by decide +kernel)),
      element := owner hx (plainName_of (by decide +kernel)), other := (definable hx (plainName_of (by decide +kernel))).2.2.2.1,
      marker := (definable (U := U) (tns := tns) hx (plainName_of (s := "__base__") (by decide +kernel))).2.1,
      any := (definable (U := U) (tns := tns) hx (plainName_of (s := "any") (by decide +kernel))).2.1,
      anyAttribute := (definable (U := U) (tns := tns) hx (plainName_of (s := "any_attribute") (by decide +kernel))).2.1,
      string := (definable hx (plainName_of (by decide +kernel))).2.2.2.1, numbered := ?_, simple := ?_, list := ?_ }
  · exact fun n h c hc => .child h hc
  · intro n v h1 h2
    obtain ⟨o, m, k1, k2, k3⟩ := hn.refs n "ref" v h1 (by decide) h2
    exact ⟨field_ref (after_ref k1 k2.2.1) k2.1 (Local.alnum (PlainName.local k2)) k2.2.2.2.2, type_ref k1 (PlainName.local k2) k3, case_ref k1 (PlainName.local k2)⟩
  · intro n v h1 h2 m hm
    unfold createEnumCases at hm
    obtain ⟨w, hw, rfl⟩ := List.mem_map.1 hm
    obtain ⟨o, m, k1, k2, k3⟩ := hn.memberTypes n v _ h1 h2 (spaceSeparated_iff.2 rfl) w hw
    exact ⟨case_ref k1 (PlainName.local k2), by rintro t ⟨⟩; exact type_ref k1 (PlainName.local k2) k3⟩
  · intro n v h1 h2 h3 h4
    have h4 := (simpleValue_iff U v).1 h4
    obtain ⟨k1, k2⟩ := hn.values n v h1 h2 h3 h4
    refine case_value ?_ k1 k2
    intro hm
    rcases h4.2 _ hm with h | h
    · rw [U.alnum_ascii _ (by decide)] at h; revert h; decide
    · cases h
  · intro i
    exact ⟨definable hx (PlainName.number (plainName_of (by decide +kernel)) (by decide) i),
      (definable hx (PlainName.number (s := "EnumCase_") (plainName_of (by decide +kernel)) (by decide) i)).2.2.1⟩
  · intro n c h1 h2 h3
    exact hg.rows ("simpleType", ["restriction", "list", "union"]) (by decide) n c h1 h2 h3
  · intro n c r h1 h2 h3 h4 h5 h6
    exact hn.lists n c r h1 h2 h3 h4 h5 h6

/-- What is known about an entity gives that it is well named. -/
theorem wellNamed {N : Naming} {x : RsEntity} (h1 : Inn (kindsOf N) x) (h2 : Own (kindsOf N) x) : WellNamed N x := by
  obtain ⟨h1, -⟩ := h1
  cases x with
  | struct s =>
    refine ⟨h2.1, fun _ => h2.2.1, fun f hf _ => ?_⟩
    obtain ⟨k1, k2, k3⟩ := h1.2 f hf
    refine ⟨k1, ?_⟩
    split
    · rename_i h; exact k2 (List.isEmpty_iff.1 h)
    · rename_i h; exact (k3 fun e => h (List.isEmpty_iff.2 e)).2.2.2.2 _ h2.2.1
  | tupleStruct t => exact ⟨h2.1, h1⟩
  | enum e => exact ⟨h2.1, h1.1, fun c hc => h1.2 c hc⟩
  | «alias» a => exact ⟨h2.1, h1⟩
  | structField f => trivial
  | enumCase c => trivial
  | «import» i => trivial

/-- The entities of a parsed document with plain names are well named. -/
theorem parseFile_wellNamed {root : Node} {g : RsFile} {tns : Option Namespace} (hg : Grammatical root) (hn : PlainNames U root)
    (h : parseFile U root = .ok g) : ∀ x ∈ generatedList g.types, WellNamed (Gen.GenCtx.naming ⟨U, tns, xsdNamespace root⟩) x :=
  fun x hx => by
    obtain ⟨h1, h2⟩ := parseFile_names hg (supplies (tns := tns) hg hn)
      (fun c r hc ht hr => by rw [hn.attributes c hc ht] at hr; cases hr) h x hx
    exact wellNamed h1 h2

end Verif.Lemmas.Syn
