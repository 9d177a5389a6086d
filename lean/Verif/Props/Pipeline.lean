import Verif.Props.Sample

/-! # C64–C67: from the document to the code -/

namespace Verif.Props

open Verif Verif.Model Verif.Spec Verif.RoXml Verif.Lemmas Verif.Lemmas.Parse

open Verif.Props.Sample

/-! ## C64: brackets, strings and comments -/

/-- **C64** If the texts of the schema can be copied, then in the code for it all brackets match and all strings and
comments end, whatever is in the schema. -/
theorem C64_lex_complete_partial (U : UnicodeTable) (root : Node) (t : Str) (hs : CopySafe root)
    (h : convertXsd U root = .ok t) : LexComplete t := by
  obtain ⟨g, hg, h⟩ := Res.bind_eq_ok.1 h
  obtain ⟨h1, h2⟩ := parseFile_safe hs hg
  exact C54_lex_complete U g t h1 h2 h

example : CopySafe sample ∧ ∃ t, convertXsd A sample = .ok t := ⟨sample_copySafe, ok_of (by decide +kernel)⟩

/-- An import with a line feed in its location. -/
private def lineFeed : Node := doc [el "import" [("namespace", "http://example.com/b"), ("schemaLocation", "a\n}")] []]

/-- **C64** (violated) A line feed in the location of an import, which is legal, leaves the comment. -/
theorem C64_lex_complete_violated : Grammatical lineFeed ∧ ∃ t, convertXsd A lineFeed = .ok t ∧ ¬ LexComplete t := by
  refine ⟨grammatical_of rfl (by decide +kernel), okText (convertXsd A lineFeed), okText_eq (by decide +kernel), ?_⟩
  unfold LexComplete
  decide +kernel

/-! ## C65: definitions -/

/-- **C65** The definitions at the top level of the code for a schema are those of its global declarations, one after
the other, and nothing else. -/
theorem C65_definitions_partial (U : UnicodeTable) (root : Node) (t : Str) (hg : Grammatical root) (hs : CopySafe root)
    (h : convertXsd U root = .ok t) : ∃ ds dss, HasDefs t ds ∧
      List.Forall₂ (GlobalDefs U root) (globals root) dss ∧
      topLevel ds = dss.flatten.map fun d =>
        (d.1, formatTypeName U (targetNamespace root) (xsdNamespace root) d.2) := by
  obtain ⟨g, hp, h⟩ := Res.bind_eq_ok.1 h
  obtain ⟨h1, h2⟩ := parseFile_safe hs hp
  have hd := C36_definitions U g t h1 (fun x hx => ⟨h2 x hx, parseFile_items hg hp x hx⟩) h
  refine ⟨_, g.types.map (entTop Gen.hasDoc), hd, parseFile_top hg hp, ?_⟩
  rw [← entTops_flatten, ← (parseFile_namespaces hp).1, ← (parseFile_namespaces hp).2]
  exact topLevel_defsList g.types

example : Grammatical sample ∧ CopySafe sample ∧ ∃ t, convertXsd A sample = .ok t :=
  ⟨sample_grammatical, sample_copySafe, ok_of (by decide +kernel)⟩

example : topLevel (defsFor sample) =
    [(.struct, "Animal".toList), (.struct, "Dog".toList), (.enum, "PersonChoice".toList), (.struct, "Person".toList),
     (.struct, "Ids".toList), (.enum, "Either".toList), (.struct, "EnumCaseType0".toList), (.struct, "Quote".toList),
     (.type, "Note".toList)] := by decide +kernel

private def twoUnions : Node := doc
  [el "simpleType" [("name", "T")] [el "union" [] [el "simpleType" [] [el "restriction" [("base", "xs:int")] []]]],
   el "simpleType" [("name", "U")] [el "union" [] [el "simpleType" [] [el "restriction" [("base", "xs:string")] []]]]]

private def choiceElement : Node := doc
  [el "element" [("name", "foo")] [el "complexType" [] [el "choice" []
    [el "element" [("name", "a"), ("type", "xs:int")] []]]]]

private def listOfUnion : Node := doc
  [el "simpleType" [("name", "T")] [el "list" [] [el "simpleType" [] [el "union" [("memberTypes", "xs:int xs:string")] []]]]]

/-- **C65** (violated) Definitions of the same name: the inline types of two unions are numbered from 0 each, an element
whose inline type is a choice is an enum and a struct. And one without a name: a list of an inline union. -/
theorem C65_names_violated :
    (∃ t, convertXsd A twoUnions = .ok t ∧ HasDefs t
      [([], .enum, "T".toList), ([], .struct, "EnumCaseType0".toList),
       ([], .enum, "U".toList), ([], .struct, "EnumCaseType0".toList)]) ∧
    (∃ t, convertXsd A choiceElement = .ok t ∧ HasDefs t [([], .enum, "Foo".toList), ([], .struct, "Foo".toList)]) ∧
    (∃ t, convertXsd A listOfUnion = .ok t ∧ HasDefs t [([], .struct, "T".toList), ([], .enum, [])]) := by
  refine ⟨?_, ?_, ?_⟩
  · obtain ⟨t, h1, h2⟩ := defsFor_has (root := twoUnions) (grammatical_of rfl (by decide +kernel))
      (copySafe_of (by decide +kernel) (by decide +kernel) (by decide +kernel) (by decide +kernel) (by decide +kernel))
      (by decide +kernel)
    exact ⟨t, h1, hasDefs_congr h2 (by decide +kernel)⟩
  · obtain ⟨t, h1, h2⟩ := defsFor_has (root := choiceElement) (grammatical_of rfl (by decide +kernel))
      (copySafe_of (by decide +kernel) (by decide +kernel) (by decide +kernel) (by decide +kernel) (by decide +kernel))
      (by decide +kernel)
    exact ⟨t, h1, hasDefs_congr h2 (by decide +kernel)⟩
  · obtain ⟨t, h1, h2⟩ := defsFor_has (root := listOfUnion) (grammatical_of rfl (by decide +kernel))
      (copySafe_of (by decide +kernel) (by decide +kernel) (by decide +kernel) (by decide +kernel) (by decide +kernel))
      (by decide +kernel)
    exact ⟨t, h1, hasDefs_congr h2 (by decide +kernel)⟩

/-! ## C66: references -/

private theorem ref_unique {o o' : Option Str} {n n' t : Str} (h : Ref o n t) (h' : Ref o' n' t) : o = o' ∧ n = n' := by
  have := (Gen.splitName_iff.2 h).symm.trans (Gen.splitName_iff.2 h')
  exact Prod.mk.inj this

/-- A reference into the target namespace and the name itself are formatted alike, and neither is a built-in type. -/
theorem own_reference (U : UnicodeTable) {root : Node} {r uri nm : Str} {x : Namespace} (hu : UniquePrefixes root)
    (hx : xsdNamespace root = some x) (hxp : x.name ≠ none ∨ ∀ row ∈ readmeTable ++ undocumentedTable, nm ≠ row.1.toList)
    (ht : uri ≠ "http://www.w3.org/2001/XMLSchema".toList)
    (h1 : ∀ a ∈ root.namespaces, ∀ b ∈ root.namespaces, a.uri = uri → b.uri = uri → a = b)
    (hr : Denotes root uri nm r) (hnm : ':' ∉ nm) :
    matchBuiltInType nm (xsdNamespace root) = none ∧
    formatTypeName U (targetNamespace root) (xsdNamespace root) r =
      formatTypeName U (targetNamespace root) (xsdNamespace root) nm := by
  obtain ⟨hta, a, ha, hau, hra⟩ := hr
  -- the namespaces
  have htn : targetNamespace root = some a := by
    cases hf : targetNamespace root with
    | none =>
      unfold targetNamespace at hf
      rw [hta] at hf
      exact absurd (decide_eq_true hau) (by simpa using List.find?_eq_none.1 hf a ha)
    | some b =>
      obtain ⟨uri', hu', hb⟩ := (C48_target root b).1 hf
      rw [hta] at hu'
      obtain rfl := Option.some.inj hu'
      obtain ⟨hbu, pre, post, hl, -⟩ := hb
      rw [h1 b (by rw [hl]; exact List.mem_append_right _ List.mem_cons_self) a ha hbu hau]
  have hxm : x ∈ root.namespaces ∧ x.uri = "http://www.w3.org/2001/XMLSchema".toList := by
    rcases (C48_xsd root x).1 hx with ⟨⟨h, -⟩, pre, post, hl, -⟩ | ⟨-, h, pre, post, hl, -⟩
    · exact ⟨by rw [hl]; exact List.mem_append_right _ List.mem_cons_self, h⟩
    · exact ⟨by rw [hl]; exact List.mem_append_right _ List.mem_cons_self, h⟩
  -- the reference is not a built-in type, nor is the name
  have hb1 : matchBuiltInType r (xsdNamespace root) = none := by
    cases hm : matchBuiltInType r (xsdNamespace root) with
    | none => rfl
    | some b =>
      obtain ⟨row, -, hrow, -⟩ := (C28_builtin r b (xsdNamespace root)).1 hm
      rw [hx] at hrow
      have := hu a ha x hxm.1 (ref_unique hra hrow).1
      exact absurd (by rw [← hau, this, hxm.2]) ht
  have hb2 : matchBuiltInType nm (xsdNamespace root) = none := by
    cases hm : matchBuiltInType nm (xsdNamespace root) with
    | none => rfl
    | some b =>
      obtain ⟨row, hmem, hrow, -⟩ := (C28_builtin nm b (xsdNamespace root)).1 hm
      rw [hx] at hrow
      obtain ⟨e1, e2⟩ := ref_unique (.bare hnm) hrow
      rcases hxp with hxp | hxp
      · exact absurd e1.symm hxp
      · exact absurd e2 (hxp row hmem)
  refine ⟨hb2, ?_⟩
  · have q1 := C32_qualified U r nm a.name (targetNamespace root) (xsdNamespace root) hra hb1
    have q2 := C32_qualified U nm nm none (targetNamespace root) (xsdNamespace root) (.bare hnm) hb2
    rw [q2.1 rfl]
    cases han : a.name with
    | none => exact q1.1 han
    | some p => exact q1.2.1 p han (by rw [htn]; exact han)

/-- **C66** A reference to a type of the schema, or to a global element without `type`, is written as the name of a
definition at the top level. -/
theorem C66_defined_partial (U : UnicodeTable) (root c : Node) (t r uri nm : Str) (x : Namespace) (hg : Grammatical root)
    (hs : CopySafe root) (h : convertXsd U root = .ok t) (hu : UniquePrefixes root)
    (hx : xsdNamespace root = some x) (hxp : x.name ≠ none ∨ ∀ row ∈ readmeTable ++ undocumentedTable, nm ≠ row.1.toList)
    (ht : uri ≠ "http://www.w3.org/2001/XMLSchema".toList)
    (h1 : ∀ a ∈ root.namespaces, ∀ b ∈ root.namespaces, a.uri = uri → b.uri = uri → a = b)
    (hr : Denotes root uri nm r) (hc : c ∈ globals root) (hn : c.attr "name".toList = some nm) (hnm : ':' ∉ nm)
    (hk : Referable c) :
    ∃ ds k, HasDefs t ds ∧ (k, formatTypeName U (targetNamespace root) (xsdNamespace root) r) ∈ topLevel ds := by
  obtain ⟨ds, dss, hd, hall, htop⟩ := C65_definitions_partial U root t hg hs h
  have heq := (own_reference U hu hx hxp ht h1 hr hnm).2
  -- the definition
  have hdef : ∀ d, GlobalDefs U root c d → ∃ k, (k, nm) ∈ d := by
    intro d hd
    have hin : ∀ nm', c.attr "name".toList = some nm' → nm' = nm := fun nm' h => by
      rw [hn] at h; exact (Option.some.inj h).symm
    cases hd with
    | complexType _ h _ => obtain rfl := hin _ h; exact ⟨_, List.mem_cons_self⟩
    | choiceType _ h _ => obtain rfl := hin _ h; exact ⟨_, List.mem_cons_of_mem _ List.mem_cons_self⟩
    | simpleType _ h _ => obtain rfl := hin _ h; exact ⟨_, List.mem_cons_self⟩
    | typed _ _ h _ _ => obtain rfl := hin _ h; exact ⟨_, List.mem_cons_self⟩
    | inlineSimple _ _ h _ _ _ _ => obtain rfl := hin _ h; exact ⟨_, List.mem_cons_self⟩
    | inlineComplex _ h _ _ _ _ => obtain rfl := hin _ h; exact ⟨_, List.mem_cons_self⟩
    | inlineChoice _ h _ _ _ _ => obtain rfl := hin _ h; exact ⟨_, List.mem_cons_self⟩
    | empty _ _ h _ _ => obtain rfl := hin _ h; exact ⟨_, List.mem_cons_self⟩
    | typedSilent htag _ _ hty _ =>
      rcases hk with hk | hk | ⟨-, hk⟩
      · rw [hk] at htag; exact absurd htag (by decide)
      · rw [hk] at htag; exact absurd htag (by decide)
      · rw [hk] at hty; cases hty
    | reference htag _ _ =>
      rcases hk with hk | hk | ⟨hk, -⟩ <;> rw [hk] at htag <;> exact absurd htag (by decide)
    | referenceSilent htag _ _ =>
      rcases hk with hk | hk | ⟨hk, -⟩ <;> rw [hk] at htag <;> exact absurd htag (by decide)
    | «import» htag => rcases hk with hk | hk | ⟨hk, -⟩ <;> rw [hk] at htag <;> exact absurd htag (by decide)
  obtain ⟨d, hdm, hgd⟩ := forall₂_right hall c hc
  obtain ⟨k, hk⟩ := hdef d hgd
  exact ⟨ds, k, hd, by rw [htop, heq]; exact List.mem_map.2 ⟨(k, nm), List.mem_flatten.2 ⟨d, hdm, hk⟩, rfl⟩⟩

example : ∃ c x, UniquePrefixes sample ∧ xsdNamespace sample = some x ∧ x.name ≠ none ∧
    (∀ a ∈ sample.namespaces, ∀ b ∈ sample.namespaces, a.uri = "http://example.com/a".toList →
      b.uri = "http://example.com/a".toList → a = b) ∧
    Denotes sample "http://example.com/a".toList "Dog".toList "tns:Dog".toList ∧ c ∈ globals sample ∧
    c.attr "name".toList = some "Dog".toList ∧ Referable c := by
  refine ⟨_, ⟨some "xs".toList, xsdUri⟩, ?_, rfl, by decide, ?_, ⟨rfl, ⟨some "tns".toList, _⟩,
    List.mem_cons_of_mem _ List.mem_cons_self, rfl, .prefixed (p := "tns".toList) (n := "Dog".toList) (by decide)⟩,
    List.mem_cons_of_mem _ List.mem_cons_self, rfl, .inl rfl⟩
  · unfold UniquePrefixes; decide
  · decide

/-- References to an element which has a type. -/
private def typedElement : Node := doc
  [el "element" [("name", "foo"), ("type", "xs:int")] [],
   el "complexType" [("name", "Bar")] [el "sequence" [] [el "element" [("ref", "tns:foo")] []]]]

/-- Two prefixes for the target namespace. -/
private def twoPrefixes : Node :=
  .element (some xsdUri) "schema".toList [⟨none, "targetNamespace".toList, "http://example.com/a".toList⟩]
    [⟨some "xs".toList, xsdUri⟩, ⟨some "tns".toList, "http://example.com/a".toList⟩,
      ⟨some "a".toList, "http://example.com/a".toList⟩]
    [el "complexType" [("name", "Foo")] [el "sequence" [] [el "element" [("name", "x"), ("type", "xs:int")] []]],
     el "complexType" [("name", "Bar")] [el "sequence" [] [el "element" [("name", "y"), ("type", "a:Foo")] []]]]

/-- A type with the name of a built-in type, and the namespace of XML Schema without prefix. -/
private def ownDate : Node :=
  .element (some xsdUri) "schema".toList [⟨none, "targetNamespace".toList, "http://example.com/a".toList⟩]
    [⟨none, xsdUri⟩, ⟨some "tns".toList, "http://example.com/a".toList⟩]
    [el "complexType" [("name", "date")] [el "sequence" [] [el "element" [("name", "x"), ("type", "int")] []]],
     el "complexType" [("name", "Bar")] [el "sequence" [] [el "element" [("name", "y"), ("type", "tns:date")] []]]]

/-- **C66** (violated) References without definition: to an element with a `type`; under a second prefix of the target
namespace; to a type called like a built-in one, if these have no prefix. -/
theorem C66_undefined_violated :
    (∃ t, convertXsd A typedElement = .ok t ∧ HasDefs t [([], .struct, "Bar".toList)] ∧
      "pub foo: Foo,".toList <:+: t) ∧
    (∃ t, convertXsd A twoPrefixes = .ok t ∧ HasDefs t [([], .struct, "Foo".toList), ([], .struct, "Bar".toList)] ∧
      "pub y: a::Foo,".toList <:+: t) ∧
    (∃ t, convertXsd A ownDate = .ok t ∧ HasDefs t [([], .struct, "xs::Date".toList), ([], .struct, "Bar".toList)] ∧
      "pub y: Date,".toList <:+: t) := by
  have key : ∀ {root : Node} (ds : List (List Str × DefKind × Str)) (s : Str), Grammatical root → CopySafe root →
      convertXsd A root ≠ .panic ∧ convertXsd A root ≠ .err → defsFor root = ds → s <:+: okText (convertXsd A root) →
      ∃ t, convertXsd A root = .ok t ∧ HasDefs t ds ∧ s <:+: t := by
    intro root ds s h1 h2 h3 h4 h5
    obtain ⟨t, ht, hd⟩ := defsFor_has h1 h2 h3
    rw [ht] at h5
    exact ⟨t, ht, h4 ▸ hd, h5⟩
  refine ⟨key _ _ ?_ ?_ ?_ ?_ ?_, key _ _ ?_ ?_ ?_ ?_ ?_, key _ _ ?_ ?_ ?_ ?_ ?_⟩
  all_goals first
    | exact grammatical_of rfl (by decide +kernel)
    | exact copySafe_of (by decide +kernel) (by decide +kernel) (by decide +kernel) (by decide +kernel)
        (by decide +kernel)
    | decide +kernel

/-! ## C67: which schemas are converted -/

/-- **C67** Every schema without the features that the program does not know is converted: neither parser nor generator
panic. -/
theorem C67_converted_partial (U : UnicodeTable) (root : Node) (h : Supported root) : ∃ t, convertXsd U root = .ok t :=
  convert_exists h

/-- **C67** So, for such schemas, there are definitions for all global declarations, in code with matching brackets. -/
theorem C67_definitions_partial (U : UnicodeTable) (root : Node) (h : Supported root) (hs : CopySafe root) :
    ∃ t ds dss, convertXsd U root = .ok t ∧ LexComplete t ∧ HasDefs t ds ∧
      List.Forall₂ (GlobalDefs U root) (globals root) dss ∧
      topLevel ds = dss.flatten.map fun d =>
        (d.1, formatTypeName U (targetNamespace root) (xsdNamespace root) d.2) := by
  obtain ⟨t, ht⟩ := C67_converted_partial U root h
  have hg : Grammatical root := by
    refine ⟨is_one.1 h.schema, fun r hr n c hn hnt hc => ?_⟩
    have hrow : ∀ r ∈ grammarRows, ∃ r' ∈ supportedRows, r'.1 = r.1 ∧ ∀ s ∈ r'.2.map String.toList, s ∈ r.2.map String.toList := by
      decide +kernel
    obtain ⟨r', h1, h2, h3⟩ := hrow r hr
    exact h3 _ (h.rows r' h1 n c hn (is_one.2 (by rw [h2]; exact hnt)) hc)
  obtain ⟨ds, dss, h1, h2, h3⟩ := C65_definitions_partial U root t hg hs ht
  exact ⟨t, ds, dss, ht, C64_lex_complete_partial U root t hs ht, h1, h2, h3⟩

set_option synthInstance.maxHeartbeats 200000 in
set_option synthInstance.maxSize 1000 in
example : Supported sample := supported_of (by decide +kernel)
  ⟨by decide +kernel, by decide +kernel, by decide +kernel⟩ (by decide +kernel) (by decide +kernel)

/-- **C67** (violated) Legal schemas which make the program panic: definitions of groups, references to groups, sequences
in sequences, elements without type, restrictions of simple content, redefinitions, notations. -/
theorem C67_panic_violated : ∀ d ∈ ([
    [el "group" [("name", "g")] [el "sequence" [] [el "element" [("name", "a"), ("type", "xs:int")] []]]],
    [el "complexType" [("name", "T")] [el "group" [("ref", "tns:g")] [el "annotation" [] []]]],
    [el "complexType" [("name", "T")] [el "sequence" [] [el "sequence" []
      [el "element" [("name", "a"), ("type", "xs:int")] []]]]],
    [el "complexType" [("name", "T")] [el "sequence" [] [el "group" [("ref", "tns:g")] []]]],
    [el "complexType" [("name", "T")] [el "sequence" [] [el "element" [("name", "a")] []]]],
    [el "complexType" [("name", "T")] [el "simpleContent" [] [el "restriction" [("base", "tns:S")]
      [el "maxLength" [("value", "5")] []]]]],
    [el "redefine" [("schemaLocation", "b.xsd")] []],
    [el "notation" [("name", "n"), ("public", "p")] []],
    [el "complexType" [("name", "T")] [el "sequence" [] [el "element" [("name", "a"), ("minOccurs", "0")]
      [el "complexType" [] [el "complexContent" [] [el "extension" [("base", "tns:T")] []]]]]]],
    [el "simpleType" [("name", "T")] [el "restriction" [("base", "xs:string")] [el "length" [("value", " 5 ")] []]]]] :
    List (List Node)), convertXsd A (doc d) = .panic := by decide +kernel

end Verif.Props
