import Verif.Props.Items
import Verif.Lemmas.SynItems2
import Verif.Lemmas.SynUnique
import Verif.Lemmas.SynNames

/-! # C96: the code is Rust -/

namespace Verif.Props

open Verif Verif.Model Verif.Spec Verif.RoXml Verif.Lemmas Verif.Lemmas.Parse

open Verif.Props.Sample

/-- **C96** The text for a file is a sequence of Rust items, if the names and types in it are such. -/
theorem C96_file (U : UnicodeTable) (f : RsFile) (r : Str) (ht : SafeNamespace f.targetNs)
    (hs : ∀ x ∈ generatedList f.types, SafeTexts x ∧ IsItem x ∧ Syn.WellNamed (fileNaming U f) x)
    (h : (generateRsFile U f).1 = .ok r) : Syn.IsRust r :=
  Verif.Lemmas.Syn.file_rust ht hs h

/-- **C96** A text has tokens in one way only. -/
theorem C96_determined (t : Str) (ts us : List Syn.Tok) (h1 : Syn.Lexed t ts) (h2 : Syn.Lexed t us) : ts = us :=
  Verif.Lemmas.Syn.lexed_unique h1 h2 rfl

/-- **C96** The words of Rust code are identifiers or one of the keywords which occur in items: in particular a text in which
any other keyword occurs as a word is not accepted. -/
theorem C96_words (t : Str) (ts : List Syn.Tok) (w : Str) (h : Syn.IsRust t) (hl : Syn.Lexed t ts) (hw : .word w ∈ ts) :
    LegalIdent w ∨ w ∈ ["self", "Self", "super", "crate", "return", "if", "pub", "fn", "struct", "enum", "type", "impl", "for",
      "use", "mod"].map String.toList :=
  Verif.Lemmas.Syn.rust_words h hl w hw

/-- **C96** The code for a schema document with plain names is a sequence of Rust items. -/
theorem C96_document_partial (U : UnicodeTable) (root : Node) (t : Str) (hg : Grammatical root) (hs : CopySafe root)
    (hn : Syn.PlainNames U root) (h : convertXsd U root = .ok t) : Syn.IsRust t := by
  obtain ⟨f, hp, h⟩ := Res.bind_eq_ok.1 h
  obtain ⟨h1, h2⟩ := parseFile_safe hs hp
  refine C96_file U f t h1 (fun x hx => ⟨h2 x hx, parseFile_items hg hp x hx, ?_⟩) h
  have := Verif.Lemmas.Syn.parseFile_wellNamed (tns := f.targetNs) hg hn hp x hx
  rw [← (parseFile_namespaces hp).2] at this
  exact this

/-! ## Examples -/

def plainB (v : Str) : Bool :=
  v.all (fun c => decide (c.toNat < 128)) && !v.contains ':' &&
  (match skeleton asciiAlnum v with
    | [] => false
    | c :: _ => asciiLower c) && decide (skeleton asciiAlnum v ≠ "self".toList) && decide (skeleton asciiAlnum v ≠ "try".toList)

theorem plain_of {v : Str} (h : plainB v = true) : Syn.PlainName v := by
  simp only [plainB, Bool.and_eq_true, decide_eq_true_eq, List.all_eq_true, Bool.not_eq_true', List.contains_eq_mem,
    decide_eq_false_iff_not] at h
  obtain ⟨⟨⟨⟨h1, h2⟩, h3⟩, h4⟩, h5⟩ := h
  refine ⟨h1, h2, ?_, h4, h5⟩
  cases hs : skeleton asciiAlnum v with
  | nil => rw [hs] at h3; cases h3
  | cons c cs => rw [hs] at h3; exact ⟨c, cs, rfl, h3⟩

theorem ref_of {v : Str} (h : plainB (splitName v).2 = true ∧ ∀ p ∈ (splitName v).1.toList, Verif.Lemmas.Syn.legalB p = true) :
    Syn.PlainRef v :=
  ⟨_, _, Verif.Lemmas.Gen.splitName_iff.1 rfl, plain_of h.1, fun p hp => Verif.Lemmas.Syn.legal_of (h.2 p (Option.mem_toList.2 hp))⟩

theorem plainNames_of {root : Node} (h0 : ∃ a ∈ root.namespaces, a.uri = xsdUri ∧ a.name ≠ none)
    (h1 : ∀ n ∈ elements root, ∀ v ∈ (n.attr "name".toList).toList, plainB v = true)
    (h2 : ∀ n ∈ elements root, ∀ a ∈ ["ref", "type", "base", "itemType"], ∀ v ∈ (n.attr a.toList).toList,
      plainB (splitName v).2 = true ∧ ∀ p ∈ (splitName v).1.toList, Verif.Lemmas.Syn.legalB p = true)
    (h3 : ∀ n ∈ elements root, ∀ v ∈ (n.attr "memberTypes".toList).toList, ∀ w ∈ (Str.splitOn ' ' v).filter (· ≠ []),
      plainB (splitName w).2 = true ∧ ∀ p ∈ (splitName w).1.toList, Verif.Lemmas.Syn.legalB p = true)
    (h4 : ∀ n ∈ elements root, n.tag = "enumeration".toList → ∀ v ∈ (n.attr "value".toList).toList,
      (∀ c ∈ v, asciiAlnum c = true ∨ c = '-') → ∃ c ∈ v, asciiAlnum c = true)
    (h5 : ∀ c ∈ members root, c.tag = "attribute".toList → (c.attr "ref".toList).isNone = true)
    (h6 : ∀ n ∈ elements root, n.tag = "list".toList → (n.attr "itemType".toList).isNone = true → ∀ c ∈ members n,
      c.tag = "simpleType".toList → ∀ r ∈ members c, r.tag ≠ "union".toList) : Syn.PlainNames A root where
  xsd := h0
  names n v hn hv := plain_of (h1 n (partOf_elements hn) v (Option.mem_toList.2 hv))
  refs n a v hn ha hv := ref_of (h2 n (partOf_elements hn) a ha v (Option.mem_toList.2 hv))
  memberTypes n v ws hn hv hs w hw := by
    rw [spaceSeparated_iff.1 hs] at hw
    exact ref_of (h3 n (partOf_elements hn) v (Option.mem_toList.2 hv) w hw)
  values n v hn ht hv hs := by
    refine ⟨fun c hc => ?_, h4 n (partOf_elements hn) ht v (Option.mem_toList.2 hv) hs.2⟩
    rcases hs.2 c hc with h | rfl
    · exact Verif.Lemmas.Gen.alnum_lt h
    · decide
  attributes c hc ht := Option.isNone_iff_eq_none.1 (h5 c hc ht)
  lists n c r hn ht hi hc hct hr := h6 n (partOf_elements hn) ht (Option.isNone_iff_eq_none.2 hi) c hc hct r hr

/-- The theorem applies to a schema with a bit of everything. -/
example : ∃ t, convertXsd A sample = .ok t ∧ Syn.IsRust t := by
  obtain ⟨t, ht⟩ := ok_of (r := convertXsd A sample) (by decide +kernel)
  refine ⟨t, ht, C96_document_partial A sample t sample_grammatical sample_copySafe ?_ ht⟩
  exact plainNames_of (by decide +kernel) (by decide +kernel) (by decide +kernel) (by decide +kernel) (by decide +kernel)
    (by decide +kernel) (by decide +kernel)

/-- A text with one item. -/
example : Syn.IsRust "pub type Foo = Option<xs::Date>;\n".toList :=
  ⟨_, (Verif.Lemmas.Syn.seg_of 40 (by decide +kernel : Verif.Lemmas.Syn.lexFn 40 _ = some (Syn.kw "pub" :: Syn.kw "type" ::
    Syn.kw "Foo" :: Syn.pt "=" :: ([Syn.kw "Option", Syn.pt "<", Syn.kw "xs", Syn.pt "::", Syn.kw "Date", Syn.pt ">"] ++
    [Syn.pt ";"])))).lexed, by
    have h : Syn.Ty [Syn.kw "Option", Syn.pt "<", Syn.kw "xs", Syn.pt "::", Syn.kw "Date", Syn.pt ">"] :=
      .generic (as := [[Syn.kw "xs", Syn.pt "::", Syn.kw "Date"]]) (.one (Verif.Lemmas.Syn.legal_of (by decide))) (by simp)
        (fun a ha => List.mem_singleton.1 ha ▸ .path (.more (.one (Verif.Lemmas.Syn.legal_of (by decide))) (Verif.Lemmas.Syn.legal_of (by decide))))
    have k := Syn.Many.cons (P := Syn.Item) (Syn.Item.type (n := "Foo".toList) (Verif.Lemmas.Syn.legal_of (by decide)) h) .nil
    rwa [List.append_nil] at k⟩

/-- Not this: a struct called like a keyword. -/
example : ¬ Syn.IsRust "pub struct try {}\n".toList := by
  intro h
  have := C96_words _ _ "try".toList h
    (Verif.Lemmas.Syn.seg_of 40 (by decide +kernel : Verif.Lemmas.Syn.lexFn 40 _ = some [Syn.kw "pub", Syn.kw "struct",
      Syn.kw "try", Syn.pt "{", Syn.pt "}"])).lexed (by simp)
  rcases this with h | h
  · exact h.2 "try" (by decide) rfl
  · revert h; decide

/-! ## Violations -/

private def toks (t : Str) : List Syn.Tok := (Verif.Lemmas.Syn.lexFn t.length t).getD []

private theorem not_rust {t : Str} {w : String} (hl : (Verif.Lemmas.Syn.lexFn t.length t).isSome = true)
    (hw : (toks t).contains (.word w.toList) = true) (hk : w ∈ rustKeywords)
    (hr : w.toList ∉ ["self", "Self", "super", "crate", "return", "if", "pub", "fn", "struct", "enum", "type", "impl", "for",
      "use", "mod"].map String.toList) : ¬ Syn.IsRust t := by
  intro h
  obtain ⟨ts, hts⟩ := Option.isSome_iff_exists.1 hl
  rw [toks, hts] at hw
  rcases C96_words t ts w.toList h (Verif.Lemmas.Syn.seg_of _ hts).lexed (by simpa using hw) with h | h
  · exact h.2 w hk rfl
  · exact hr h

private def keywordField : Node := doc [el "complexType" [("name", "Foo")] [el "sequence" []
  [el "element" [("name", "Try"), ("type", "xs:string")] []]]]

/-- **C96** A field called `try` is not legal: the word is missing in the list of keywords. -/
theorem C96_field_violated : ∃ t, Grammatical keywordField ∧ CopySafe keywordField ∧ convertXsd A keywordField = .ok t ∧
    ¬ Syn.IsRust t :=
  ⟨_, grammatical_of rfl (by decide +kernel),
    copySafe_of (by decide +kernel) (by decide +kernel) (by decide +kernel) (by decide +kernel) (by decide +kernel),
    okText_eq (by decide +kernel), not_rust (w := "try") (by decide +kernel) (by decide +kernel) (by decide) (by decide)⟩

private def keywordPrefix : Node := .element (some xsdUri) "schema".toList [⟨none, "targetNamespace".toList, "http://example.com/a".toList⟩]
    [⟨some "xs".toList, xsdUri⟩, ⟨some "tns".toList, "http://example.com/a".toList⟩, ⟨some "ref".toList, "http://example.com/b".toList⟩]
  [el "complexType" [("name", "Foo")] [el "sequence" [] [el "element" [("name", "bar"), ("type", "ref:Bar")] []]]]

/-- **C96** Nor is the prefix of another namespace if it is a keyword. -/
theorem C96_prefix_violated : ∃ t, Grammatical keywordPrefix ∧ CopySafe keywordPrefix ∧ convertXsd A keywordPrefix = .ok t ∧
    ¬ Syn.IsRust t :=
  ⟨_, grammatical_of rfl (by decide +kernel),
    copySafe_of (by decide +kernel) (by decide +kernel) (by decide +kernel) (by decide +kernel) (by decide +kernel),
    okText_eq (by decide +kernel), not_rust (w := "ref") (by decide +kernel) (by decide +kernel) (by decide) (by decide)⟩

end Verif.Props
