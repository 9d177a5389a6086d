import Verif.Lemmas.GenAfter
import Verif.Props.GenNames

/-! # C35–C39, C54–C57: the generated code -/

namespace Verif.Props

open Verif Verif.Model Verif.Spec Verif.Lemmas Verif.Lemmas.Gen Inflector

private abbrev A := UnicodeTable.ascii

/-- For examples: the text, if there is one. -/
private def okText : Res Str → Str
  | .ok r => r
  | _ => []

/-! ## C35: facets -/

/-- **C35** The text for a restricted simple type ends with an implementation of `Validate` whose checks do
what the facets for bounds and lengths ask for: for every type with a linear order in which the bounds can be
parsed, a value passes exactly when it meets all facets, and is refused otherwise. -/
theorem C35_validate (g : GenCtx) (name typeName : Str) (comment : Option Str) (subtypes : List RsEntity)
    (ms : List TypeModifier) (facets : List Facet) (r : Str)
    (h : generate g (.tupleStruct (.mk name comment typeName subtypes ms facets)) = .ok r)
    (hq : ∀ f ∈ facets, ∀ v, facetBound f.facetType = some v → QuoteSafe v) :
    ∃ pre impl conds, r = pre ++ impl ++ "\n".toList ∧ ValidateImpl (g.typeName name) conds impl ∧
      (∀ c ∈ conds, ∀ op l t, c = .value op l t → t = defaultModifyType (g.typeName typeName) ms) ∧
      ∀ (V : Type) (S : Values V), S.Linear →
        (∀ f ∈ facets, ∀ v, facetBound f.facetType = some v → S.parse v ≠ none) → ∀ v : V,
        ((∀ f ∈ facets, Meets S v f.facetType) → runChecks S v conds = .ok ()) ∧
        (¬ (∀ f ∈ facets, Meets S v f.facetType) → runChecks S v conds = .err) := by
  rw [generate] at h
  obtain ⟨ss, -, h⟩ := Res.bind_eq_ok.1 h
  delta tupleText at h
  obtain ⟨body, hb, h⟩ := Res.bind_eq_ok.1 h
  obtain rfl := Res.ok.inj h
  refine ⟨_, _, facets.flatMap fun f => condsOf (tupleTypeName g typeName ms) f.facetType, rfl,
    facets_validate hb hq, ?_, ?_⟩
  · intro c hc op l t e
    obtain ⟨f, -, hc⟩ := List.mem_flatMap.1 hc
    subst e
    exact condsOf_type hc
  · intro V S hl hp v
    refine run_facets S hl v _ facets hp ?_
    intro f hf hpan
    have := (facetBodies_panic (tupleTypeName g typeName ms) facets).1.2 ⟨f, hf, (facet_panic _ _ _).1.1 hpan⟩
    rw [hb] at this
    cases this

/-- The integers with the usual order and digits for texts. -/
private def natValues : Values Nat where
  lt a b := a < b
  le a b := a ≤ b
  parse s := Str.parseDigits s
  len _ := 0

example : natValues.Linear := by
  intro a b
  by_cases h : a < b <;> (simp [natValues, h]; try omega)

example : (∀ f ∈ [Facet.mk (.minInclusive "3".toList) none, ⟨.maxExclusive "7".toList, none⟩],
      ∀ v, facetBound f.facetType = some v → QuoteSafe v ∧ natValues.parse v ≠ none) ∧
    (∃ r, generate ⟨A, none, none⟩ (.tupleStruct (.mk "T".toList none "xs:int".toList [] []
      [⟨.minInclusive "3".toList, none⟩, ⟨.maxExclusive "7".toList, none⟩])) = .ok r) := by
  refine ⟨?_, okText (generate ⟨A, none, none⟩ (.tupleStruct (.mk "T".toList none "xs:int".toList [] []
      [⟨.minInclusive "3".toList, none⟩, ⟨.maxExclusive "7".toList, none⟩]))), by decide +kernel⟩
  intro f hf v hv
  simp only [List.mem_cons, List.not_mem_nil, or_false] at hf
  rcases hf with rfl | rfl <;> cases hv <;> exact ⟨by unfold QuoteSafe; decide, by decide⟩

/-- **C35** There are no checks at all exactly when no facet is one for bounds or lengths (a minimal length
of zero aside): `enumeration`, `pattern`, `totalDigits`, `fractionDigits` and `whiteSpace` are not checked. -/
theorem C35_unchecked (ty : Str) (facets : List Facet) (body : Str) (h : facetBodies ty facets = .ok body)
    (hq : ∀ f ∈ facets, ∀ v, facetBound f.facetType = some v → QuoteSafe v) :
    body = [] ↔ ∀ f ∈ facets, Unchecked f.facetType := by
  obtain ⟨h1, h2⟩ := facets_checks facets body h hq
  rw [← checks_ne_nil h1, h2]

example : facetBodies "i32".toList [⟨.pattern "[0-9]".toList, none⟩, ⟨.minLength "0".toList, none⟩] = .ok [] := by decide

/-- Numbers with one value (`none`) which compares with nothing. -/
private def nanValues : Values (Option Nat) where
  lt a b := match a, b with | some x, some y => x < y | _, _ => false
  le a b := match a, b with | some x, some y => x ≤ y | _, _ => false
  parse s := (Str.parseDigits s).map some
  len _ := 0

/-- **C35** (violated) A value which compares with nothing (NaN) passes the check for a bound it does not
meet. -/
theorem C35_nan_violated : ∃ conds body, facetBodies "f64".toList [⟨.maxInclusive "5".toList, none⟩] = .ok body ∧
    Checks conds body ∧ runChecks nanValues none conds = .ok () ∧ ¬ Meets nanValues none (.maxInclusive "5".toList) := by
  refine ⟨[.value .gt "5".toList "f64".toList], okText (facetBodies "f64".toList [⟨.maxInclusive "5".toList, none⟩]),
    by decide +kernel, ?_, by decide, ?_⟩
  · have := (facets_checks (ty := "f64".toList) [⟨.maxInclusive "5".toList, none⟩]
      (okText (facetBodies "f64".toList [⟨.maxInclusive "5".toList, none⟩])) (by decide +kernel)
      (by intro f hf v hv; simp at hf; subst hf; cases hv; unfold QuoteSafe; decide)).1
    exact this
  · rintro ⟨x, -, h⟩; cases h

/-- Texts: Rust's `len` is the number of bytes. -/
private def textValues : Values Str where
  lt _ _ := false
  le _ _ := true
  parse s := some s
  len := Str.byteLen

/-- **C35** (violated) Lengths are counted in bytes where XML Schema counts characters: the text `ä` of
one character is refused by `maxLength` 1. -/
theorem C35_byte_length_violated : ∃ conds body, facetBodies "String".toList [⟨.maxLength "1".toList, none⟩] = .ok body ∧
    Checks conds body ∧ runChecks textValues ['ä'] conds = .err ∧ ['ä'].length = 1 := by
  refine ⟨[.length .gt 1], okText (facetBodies "String".toList [⟨.maxLength "1".toList, none⟩]), by decide +kernel, ?_,
    by decide, rfl⟩
  exact (facets_checks (ty := "String".toList) [⟨.maxLength "1".toList, none⟩]
    (okText (facetBodies "String".toList [⟨.maxLength "1".toList, none⟩])) (by decide +kernel)
    (by intro f hf v hv; simp at hf; subst hf; cases hv)).1

/-! ## C36: definitions and fields -/

/-- **C36** The fields of a generated struct are, in order, the fields of the entity (those marked empty
left out): the name, the type with its wrappers and with the module of an inline type, and the attribute
with the XML name and prefix. -/
theorem C36_fields (g : GenCtx) (n : Str) (c : Option Str) (fs : List StructField) (ags : List RAlias)
    (ss : List RsEntity) (r : Str) (ls : List Str) (hn : SafeTexts (.struct (.mk n c fs ags ss)))
    (ht : SafeNamespace g.targetNs) (h : generate g (.struct (.mk n c fs ags ss)) = .ok r) (hl : Lines r ls) :
    List.Forall₂
      (FieldMember ⟨g.typeName, g.name, fun n => caseName g { name := n }, defaultModifyType⟩
        (g.targetNs.bind (·.name)) (g.name n))
      (fs.filter fun f => !f.typeModifiers.contains .empty)
      (readFieldLines none (bodyOf ("pub struct ".toList ++ (g.typeName n ++ " {".toList)) ls)) := by
  rw [generate] at h
  obtain ⟨x, -, h⟩ := Res.bind_eq_ok.1 h
  obtain ⟨y, -, h⟩ := Res.bind_eq_ok.1 h
  obtain rfl := Res.ok.inj h
  rw [lines_unique hl]
  exact struct_members hn.1 hn.2 ht

/-- **C36** The definitions in the text of a whole file are those of its entities, in order and nothing
else, each in the modules where it belongs; a struct has a module exactly when types are defined in it. -/
theorem C36_definitions (U : UnicodeTable) (f : RsFile) (r : Str) (ht : SafeNamespace f.targetNs)
    (hs : ∀ x ∈ generatedList f.types, SafeTexts x ∧ IsItem x) (h : (generateRsFile U f).1 = .ok r) :
    HasDefs r (defsList (formatTypeName U f.targetNs f.xsdNs) (defaultFormatName U)
      (fun c => decide (defaultFormatComment c 80 0 ≠ [])) [] f.types) := by
  obtain ⟨ts, h1, h⟩ := Res.bind_eq_ok.1 h
  obtain rfl := Res.ok.inj h
  have hd := genList_defs (g := ⟨U, f.targetNs, f.xsdNs⟩) ht f.types ts hs h1
  have hseg := Seg.flatten (good_segs hd)
  have := hasDefs_of_seg hseg
  rw [defsList_eq] at this
  exact this

private def exInner : RsEntity := .struct (.mk "Bar".toList none [.mk "x".toList "xs:int".toList none [] .attribute []] [] [])
private def exOuter : RsEntity :=
  .struct (.mk "Foo".toList (some "Docs".toList)
    [.mk "bar".toList "Bar".toList none [exInner] .element [.option],
     .mk "gone".toList "xs:int".toList none [] .attribute [.empty]] [] [])
private def exNs : Option Namespace := some ⟨some "tns".toList, "urn:x".toList⟩
private def exXs : Option Namespace := some ⟨some "xs".toList, "http://www.w3.org/2001/XMLSchema".toList⟩
private def exCtx : GenCtx := ⟨A, exNs, exXs⟩

instance (s : Str) : Decidable (QuoteSafe s) := by unfold QuoteSafe; infer_instance

private theorem prefixSafe_of (t : Str) (h : ∀ c ∈ t, c ∉ codeUnsafe) : PrefixSafe t := by
  intro p n hr c hc
  have : t = p ++ ':' :: n := by cases hr; rfl
  exact h c (by rw [this]; simp [hc])

private theorem exSafe : ∀ x ∈ generated exOuter, SafeTexts x ∧ IsItem x := by
  intro x hx
  have : x = exOuter ∨ x = exInner := by
    have e : generated exOuter = [exOuter, exInner] := rfl
    rw [e] at hx; simpa using hx
  rcases this with rfl | rfl
  · refine ⟨⟨prefixSafe_of _ (by decide), ?_⟩, trivial⟩
    intro f hf
    simp only [RStruct.fields, List.mem_cons, List.not_mem_nil, or_false] at hf
    rcases hf with rfl | rfl
    · exact ⟨by decide, prefixSafe_of _ (by decide)⟩
    · exact ⟨by decide, prefixSafe_of _ (by decide)⟩
  · refine ⟨⟨prefixSafe_of _ (by decide), ?_⟩, trivial⟩
    intro f hf
    simp only [RStruct.fields, List.mem_cons, List.not_mem_nil, or_false] at hf
    subst hf
    exact ⟨by decide, prefixSafe_of _ (by decide)⟩

private theorem exNsSafe : SafeNamespace exNs := by
  intro n hn
  cases hn
  exact ⟨by decide, by intro p hp; cases hp; decide⟩

example : SafeNamespace exCtx.targetNs ∧ (∀ x ∈ generated exOuter, SafeTexts x ∧ IsItem x) ∧
    generate exCtx exOuter = .ok (okText (generate exCtx exOuter)) ∧
    defsList exCtx.typeName exCtx.name (fun _ => false) [] [exOuter] =
      [([], .struct, "Foo".toList), ([], .mod, "foo".toList), (["foo".toList], .struct, "Bar".toList)] ∧
    readFieldLines none (bodyOf "pub struct Foo {".toList (Str.splitOn '\n' (okText (generate exCtx exOuter)))) =
      [⟨some "#[yaserde(prefix = \"tns\", rename = \"bar\")]".toList, "bar".toList, some "Option<foo::Bar>".toList⟩] :=
  ⟨exNsSafe, exSafe, by decide +kernel, by decide +kernel, by decide +kernel⟩

/-! ## C37: generating twice -/

/-- **C37** Generating leaves the entity as it was exactly when no struct in it has a field with inline
types. -/
theorem C37_unchanged_iff (g : GenCtx) (e : RsEntity) :
    afterGenerate g e = e ↔ ∀ s, .struct s ∈ generated e → ∀ f ∈ s.fields, f.subtypes = [] := by
  rw [after_iff]
  constructor
  · intro h s hs f hf
    by_contra hne
    exact h _ hs ⟨f, hf, hne⟩
  · intro h x hx hn
    cases x with
    | struct s => obtain ⟨f, hf, hne⟩ := hn; exact hne (h s hx f hf)
    | _ => exact hn

/-- **C37** (violated) With an inline type a second run over the same entity gives a different text: the
module name is put in front of the type again. -/
theorem C37_repeat_violated : ∃ e r r', generate exCtx e = .ok r ∧ generate exCtx (afterGenerate exCtx e) = .ok r' ∧
    r ≠ r' :=
  ⟨exOuter, okText (generate exCtx exOuter), okText (generate exCtx (afterGenerate exCtx exOuter)),
    by decide +kernel, by decide +kernel, by decide +kernel⟩

example : ∀ s, .struct s ∈ generated exInner → ∀ f ∈ s.fields, f.subtypes = [] := by
  intro s hs f hf
  have : generated exInner = [exInner] := rfl
  rw [this] at hs
  simp [exInner] at hs
  subst hs
  simp [RStruct.fields] at hf
  subst hf
  rfl

/-! ## C38: enums -/

/-- **C38** The variants of a generated enum are, in order, the cases of the entity, each with its payload
type and renamed to its XML name, followed by the variant for unknown values. -/
theorem C38_cases (g : GenCtx) (n : Str) (cs : List EnumCase) (c : Option Str) (t : Str) (ss : List RsEntity)
    (src : EnumSource) (r : Str) (ls : List Str) (hn : SafeTexts (.enum (.mk n cs c t ss src)))
    (ht : SafeNamespace g.targetNs) (h : generate g (.enum (.mk n cs c t ss src)) = .ok r) (hl : Lines r ls) :
    ∃ ms, List.Forall₂
        (CaseMember ⟨g.typeName, g.name, fun n => caseName g { name := n }, defaultModifyType⟩) cs ms ∧
      readCaseLines none (bodyOf ("pub enum ".toList ++ (g.typeName n ++ " {".toList)) ls) =
        ms ++ [⟨none, "__Unknown__".toList, some (g.typeName t)⟩] := by
  rw [generate] at h
  obtain ⟨x, -, h⟩ := Res.bind_eq_ok.1 h
  obtain rfl := Res.ok.inj h
  rw [lines_unique hl]
  exact enum_members hn.1 hn.2.1 hn.2.2 ht

/-- **C38** The name of a variant: the type name of the local part; it is made a legal identifier only if
the prefix is absent or that of the target namespace. -/
theorem C38_case_name (g : GenCtx) (c : EnumCase) (o : Option Str) (n : Str) (hr : Ref o n c.name) :
    let T := filterTypeName g.U (toPascalCase g.U n)
    ((o = none ∨ o = g.targetNs.bind (·.name)) → caseName g c = sanitize g.U T) ∧
    (¬ (o = none ∨ o = g.targetNs.bind (·.name)) → caseName g c = T) := caseName_eq hr

/-- **C38** No case has the name of the variant for unknown values. -/
theorem C38_unknown_distinct (g : GenCtx) (c : EnumCase) : caseName g c ≠ "__Unknown__".toList := by
  cases hs : splitName c.name with
  | mk o n =>
    obtain ⟨h1, h2⟩ := caseName_eq (g := g) (splitName_iff.1 hs)
    have hal : ∀ d ∈ filterTypeName g.U (toPascalCase g.U n), asciiAlnum d = true := by
      intro d hd
      rw [typeName_eq] at hd
      exact (List.mem_filter.1 hd).2
    have hT : filterTypeName g.U (toPascalCase g.U n) ≠ "__Unknown__".toList := by
      intro e
      rw [e] at hal
      exact absurd (hal '_' (by decide)) (by decide)
    by_cases ho : o = none ∨ o = g.targetNs.bind (·.name)
    · rw [h1 ho]
      rcases sanitize_or g.U (filterTypeName g.U (toPascalCase g.U n)) with e | e
      · rw [e]; exact hT
      · rw [e]
        intro e'
        have : filterTypeName g.U (toPascalCase g.U n) = "_Unknown__".toList := (List.cons.inj e').2
        rw [this] at hal
        exact absurd (hal '_' (by decide)) (by decide)
    · rw [h2 ho]; exact hT

private def exEnum : RsEntity :=
  .enum (.mk "Kind".toList [{ name := "one-way".toList, source := .restriction }, { name := "Two".toList, source := .restriction }]
    none "xs:string".toList [] .restriction)

example : SafeTexts exEnum ∧ generate exCtx exEnum = .ok (okText (generate exCtx exEnum)) ∧
    readCaseLines none (bodyOf "pub enum Kind {".toList (Str.splitOn '\n' (okText (generate exCtx exEnum)))) =
      [⟨some "#[yaserde(rename = \"one-way\")]".toList, "OneWay".toList, none⟩, ⟨none, "Two".toList, none⟩,
        ⟨none, "__Unknown__".toList, some "String".toList⟩] := by
  refine ⟨⟨prefixSafe_of _ (by decide), prefixSafe_of _ (by decide), ?_⟩, by decide +kernel, by decide +kernel⟩
  intro c hc
  simp only [REnum.cases, List.mem_cons, List.not_mem_nil, or_false] at hc
  rcases hc with rfl | rfl
  · exact ⟨by decide, by intro t h; cases h⟩
  · exact ⟨by decide, by intro t h; cases h⟩

/-- **C38** (violated) Different values can be given the same variant, a value without letters or digits an
empty one, and a value with a colon one which starts with a digit. -/
theorem C38_case_names_violated : caseName exCtx { name := "+1".toList } = caseName exCtx { name := "-1".toList } ∧
    caseName exCtx { name := "*".toList } = [] ∧ caseName exCtx { name := "12:30".toList } = "30".toList ∧
    caseMacros exCtx { name := "12:30".toList } = "    #[yaserde(prefix = \"12\", rename = \"30\")]\n".toList := by
  decide +kernel

/-! ## C39: the builder -/

/-- A call of one of the `with_…` functions. -/
inductive BuilderCall (K : GenTypes) where
  | base (x : K.Base) | tuple (x : K.Tuple) | struct (x : K.Struct) | field (x : K.Field)
  | case (x : K.Case) | enum (x : K.Enum) | alias (x : K.Alias) | imports (x : K.Import)

def BuilderCall.apply {K : GenTypes} (g : GenParts K) : BuilderCall K → GenParts K
  | .base x => g.withBase x | .tuple x => g.withTuple x | .struct x => g.withStruct x | .field x => g.withField x
  | .case x => g.withCase x | .enum x => g.withEnum x | .alias x => g.withAlias x | .imports x => g.withImport x

/-- The argument of the last call for which `p` gives one, or the default. -/
def lastOr {K : GenTypes} {α : Type} (p : BuilderCall K → Option α) (d : α) (cs : List (BuilderCall K)) : α :=
  ((cs.filterMap p).getLast?).getD d

/-- **C39** After any sequence of calls the built generator has, in each place, the implementation given
last for that place, or the default one if none was given. -/
theorem C39_build (K : GenTypes) (d : GenDefaults K) (cs : List (BuilderCall K)) :
    let g := (cs.foldl BuilderCall.apply {}).build d
    g.base = some (lastOr (fun | .base x => some x | _ => none) d.base cs) ∧
    g.tuple = some (lastOr (fun | .tuple x => some x | _ => none) d.tuple cs) ∧
    g.struct = some (lastOr (fun | .struct x => some x | _ => none) d.struct cs) ∧
    g.field = some (lastOr (fun | .field x => some x | _ => none) d.field cs) ∧
    g.case = some (lastOr (fun | .case x => some x | _ => none) d.case cs) ∧
    g.enum = some (lastOr (fun | .enum x => some x | _ => none) d.enum cs) ∧
    g.alias = some (lastOr (fun | .alias x => some x | _ => none) d.alias cs) ∧
    g.importGen = some (lastOr (fun | .imports x => some x | _ => none) d.importGen cs) := by
  have hgo : ∀ {α : Type} (o : Option α) (d : α), GenParts.getOrInsert o d = some (o.getD d) := by
    intro α o d; cases o <;> rfl
  have key : ∀ {α : Type} (proj : GenParts K → Option α) (p : BuilderCall K → Option α),
      proj {} = none → (∀ g c, proj (BuilderCall.apply g c) = (p c).or (proj g)) →
      ∀ cs : List (BuilderCall K), proj (cs.foldl BuilderCall.apply {}) = (cs.filterMap p).getLast? := by
    intro α proj p h0 h1 cs
    induction cs using List.reverseRecOn with
    | nil => simpa using h0
    | append_singleton cs c ih =>
      rw [List.foldl_append, List.foldl_cons, List.foldl_nil, h1, ih, List.filterMap_append]
      cases hc : p c with
      | none => simp [hc]
      | some x => simp [hc]
  intro g
  refine ⟨?_, ?_, ?_, ?_, ?_, ?_, ?_, ?_⟩
  · rw [lastOr, ← key (·.base) _ rfl (by intro g c; cases c <;> rfl) cs]; exact hgo _ _
  · rw [lastOr, ← key (·.tuple) _ rfl (by intro g c; cases c <;> rfl) cs]; exact hgo _ _
  · rw [lastOr, ← key (·.struct) _ rfl (by intro g c; cases c <;> rfl) cs]; exact hgo _ _
  · rw [lastOr, ← key (·.field) _ rfl (by intro g c; cases c <;> rfl) cs]; exact hgo _ _
  · rw [lastOr, ← key (·.case) _ rfl (by intro g c; cases c <;> rfl) cs]; exact hgo _ _
  · rw [lastOr, ← key (·.enum) _ rfl (by intro g c; cases c <;> rfl) cs]; exact hgo _ _
  · rw [lastOr, ← key (·.alias) _ rfl (by intro g c; cases c <;> rfl) cs]; exact hgo _ _
  · rw [lastOr, ← key (·.importGen) _ rfl (by intro g c; cases c <;> rfl) cs]; exact hgo _ _

/-- **C39** A built generator never panics for want of an implementation, and the tuple structs, structs,
fields, enums, cases, aliases and imports go to the implementations for them. -/
theorem C39_dispatch (K : GenTypes) (R : Type) (run : GenParts.Run K R) (d : GenDefaults K) (cs : List (BuilderCall K))
    (e : RsEntity) :
    let g := (cs.foldl BuilderCall.apply {}).build d
    GenParts.generate run g e = .ok (match e with
      | .tupleStruct t => run.tuple (lastOr (fun | .tuple x => some x | _ => none) d.tuple cs) t g
      | .struct s => run.struct (lastOr (fun | .struct x => some x | _ => none) d.struct cs) s g
      | .structField f => run.field (lastOr (fun | .field x => some x | _ => none) d.field cs) f g
      | .enum e => run.enum (lastOr (fun | .enum x => some x | _ => none) d.enum cs) e g
      | .enumCase c => run.case (lastOr (fun | .case x => some x | _ => none) d.case cs) c g
      | .alias a => run.alias (lastOr (fun | .alias x => some x | _ => none) d.alias cs) a g
      | .import i => run.importGen (lastOr (fun | .imports x => some x | _ => none) d.importGen cs) i g) := by
  obtain ⟨-, h2, h3, h4, h5, h6, h7, h8⟩ := C39_build K d cs
  intro g
  cases e <;> simp only [GenParts.generate]
  · rw [h3]; rfl
  · rw [h4]; rfl
  · rw [h2]; rfl
  · rw [h6]; rfl
  · rw [h5]; rfl
  · rw [h7]; rfl
  · rw [h8]; rfl

private abbrev kNat : GenTypes := ⟨Nat, Nat, Nat, Nat, Nat, Nat, Nat, Nat⟩

private def kDefaults : GenDefaults kNat := ⟨(10 : Nat), (11 : Nat), (12 : Nat), (13 : Nat), (14 : Nat), (15 : Nat), (16 : Nat), (17 : Nat)⟩

example : (([.tuple (1 : Nat), .enum (2 : Nat), .tuple (3 : Nat)].foldl BuilderCall.apply {} : GenParts kNat).build
    kDefaults).tuple = some (3 : Nat) := rfl

/-! ## C54: brackets, strings and comments -/

/-- **C54** Whatever the entities, if the strings copied from the schema have no quotes, backslashes or
line feeds (and the prefixes no punctuation), then in the text of the whole file all brackets match and all
strings and comments end. -/
theorem C54_lex_complete (U : UnicodeTable) (f : RsFile) (r : Str) (ht : SafeNamespace f.targetNs)
    (hs : ∀ x ∈ generatedList f.types, SafeTexts x) (h : (generateRsFile U f).1 = .ok r) : LexComplete r := by
  obtain ⟨ts, h1, h⟩ := Res.bind_eq_ok.1 h
  obtain rfl := Res.ok.inj h
  exact neutral_flatten (genList_neutral (g := ⟨U, f.targetNs, f.xsdNs⟩) ht f.types ts hs h1) []

example : (∀ x ∈ generatedList [exOuter], SafeTexts x) ∧ SafeNamespace exNs := by
  refine ⟨?_, exNsSafe⟩
  intro x hx
  rw [generatedList, generatedList, List.append_nil] at hx
  exact (exSafe x hx).1

/-- **C54** (violated) Without the assumption: an enumeration value, a bound or a namespace URI with a
quotation mark, and an import location with a line feed leave the string or comment. -/
theorem C54_injection_violated :
    (∃ r, generate exCtx (.enum (.mk "E".toList [{ name := "a\"b".toList, source := .restriction }] none
      "xs:string".toList [] .restriction)) = .ok r ∧ ¬ LexComplete r) ∧
    (∃ r, generate exCtx (.tupleStruct (.mk "T".toList none "xs:string".toList [] []
      [⟨.maxInclusive "\"".toList, none⟩])) = .ok r ∧ ¬ LexComplete r) ∧
    (∃ r, generate ⟨A, some ⟨none, "a\"b".toList⟩, none⟩ (.struct (.mk "S".toList none [] [] [])) = .ok r ∧
      ¬ LexComplete r) ∧
    (∃ r, generate exCtx (.import { name := "n".toList, location := "a\n}".toList }) = .ok r ∧ ¬ LexComplete r) := by
  refine ⟨⟨okText (generate exCtx (.enum (.mk "E".toList [{ name := "a\"b".toList, source := .restriction }] none
      "xs:string".toList [] .restriction))), ?_, ?_⟩,
    ⟨okText (generate exCtx (.tupleStruct (.mk "T".toList none "xs:string".toList [] []
      [⟨.maxInclusive "\"".toList, none⟩]))), ?_, ?_⟩,
    ⟨okText (generate ⟨A, some ⟨none, "a\"b".toList⟩, none⟩ (.struct (.mk "S".toList none [] [] []))), ?_, ?_⟩,
    ⟨okText (generate exCtx (.import { name := "n".toList, location := "a\n}".toList })), ?_, ?_⟩⟩
  all_goals first | decide +kernel | (unfold LexComplete; decide +kernel)

/-! ## C55: panics of the generator -/

/-- **C55** Generating a file panics exactly when a length facet of one of its simple types, at any depth,
is not a number which fits into 32 bits. -/
theorem C55_panic_iff (U : UnicodeTable) (f : RsFile) :
    (generateRsFile U f).1 = .panic ↔
      ∃ t, .tupleStruct t ∈ generatedList f.types ∧ ∃ fc ∈ t.facets, ∃ v,
        (fc.facetType = .length v ∨ fc.facetType = .maxLength v ∨ fc.facetType = .minLength v) ∧
        ¬ ∃ n, U32Text v n := by
  have hno : ∀ v : Str, Str.parseUnsigned u32Max v = none ↔ ¬ ∃ n, U32Text v n := by
    intro v
    constructor
    · rintro h ⟨n, hn⟩; rw [parseUnsigned_u32.2 hn] at h; cases h
    · intro h
      cases hp : Str.parseUnsigned u32Max v with
      | none => rfl
      | some n => exact absurd ⟨n, parseUnsigned_u32.1 hp⟩ h
  have hb : (generateRsFile U f).1 = .panic ↔ genList ⟨U, f.targetNs, f.xsdNs⟩ f.types = .panic := by
    show (genList ⟨U, f.targetNs, f.xsdNs⟩ f.types).bind _ = .panic ↔ _
    cases genList ⟨U, f.targetNs, f.xsdNs⟩ f.types <;> simp
  rw [hb, (genList_panic (g := ⟨U, f.targetNs, f.xsdNs⟩) f.types).1]
  constructor
  · rintro ⟨x, hx, h⟩
    cases x with
    | tupleStruct t =>
      obtain ⟨fc, hf, v, h1, h2⟩ := h
      exact ⟨t, hx, fc, hf, v, h1, (hno v).1 h2⟩
    | _ => exact absurd h id
  · rintro ⟨t, hx, fc, hf, v, h1, h2⟩
    exact ⟨_, hx, fc, hf, v, h1, (hno v).2 h2⟩

/-- **C55** It never returns anything else: there is a text, or a panic. -/
theorem C55_total (U : UnicodeTable) (f : RsFile) : (generateRsFile U f).1 = .panic ∨ ∃ r, (generateRsFile U f).1 = .ok r := by
  have h := (genList_panic (g := ⟨U, f.targetNs, f.xsdNs⟩) f.types).2
  show (genList ⟨U, f.targetNs, f.xsdNs⟩ f.types).bind _ = .panic ∨ ∃ r, (genList ⟨U, f.targetNs, f.xsdNs⟩ f.types).bind _ = .ok r
  cases hg : genList ⟨U, f.targetNs, f.xsdNs⟩ f.types with
  | ok ts => exact .inr ⟨_, rfl⟩
  | err => exact absurd hg h
  | panic => exact .inl rfl

example : generate exCtx (.tupleStruct (.mk "T".toList none "xs:string".toList [] [] [⟨.maxLength " 4".toList, none⟩])) =
    .panic := by decide +kernel
example : U32Text "+4".toList 4 :=
  ⟨.plus, by simp, ⟨[4], ⟨by simp, by intro d hd; simp at hd; omega⟩, rfl, rfl⟩, by omega⟩

/-! ## C56: aliases and imports -/

/-- **C56** An alias is meant to be a comment; it is one exactly if no line of its documentation is kept.
With documentation the definition itself becomes code. -/
theorem C56_alias (g : GenCtx) (n o : Str) (c : Option Str) (ss : List RsEntity) (r : Str)
    (hs : SafeTexts (.alias (.mk n o c ss))) (ht : SafeNamespace g.targetNs)
    (h : generate g (.alias (.mk n o c ss)) = .ok r) :
    ((∀ ls, Lines (c.getD []) ls → ∀ l ∈ ls, Dropped l) → HasDefs r []) ∧
    ((∃ ls, Lines (c.getD []) ls ∧ ∃ l ∈ ls, ¬ Dropped l) → HasDefs r [([], .type, g.typeName n)]) := by
  have hd := (generate_defs ht _ r (by intro x hx; simp [generated] at hx; subst hx; exact ⟨hs, trivial⟩) h).1
  have hdefs := hasDefs_of_seg hd
  obtain ⟨per, h1, h2, h3⟩ := C34_comment c 80 0
  have hlines : ∀ ls, Lines (c.getD []) ls → ls = per.map (·.1) ∨ (per = [] ∧ ls = [[]]) := by
    intro ls hl
    cases per with
    | nil =>
      right
      refine ⟨rfl, (lines_unique hl).trans (lines_unique ⟨by simpa using h1, by simp, by simp⟩).symm⟩
    | cons p ps =>
      left
      refine (lines_unique hl).trans (lines_unique ⟨h1, by simp, ?_⟩).symm
      intro l hl
      obtain ⟨q, hq, rfl⟩ := List.mem_map.1 hl
      exact (h3 q hq).1
  have hempty : ¬ ∃ l ∈ ([[]] : List Str), ¬ Dropped l := by
    rintro ⟨l, hl, hnd⟩
    simp at hl
    subst hl
    exact hnd (.inl (.nil (fun c hc => by cases hc)))
  have hdoc : (∀ p ∈ per, Dropped p.1) ↔ defaultFormatComment c 80 0 = [] := by
    rw [h2]
    simp only [List.flatMap_eq_nil_iff]
    constructor
    · intro h p hp g hg
      rw [(h3 p hp).2.1 (h p hp)] at hg
      cases hg
    · intro h p hp
      by_contra hnd
      obtain ⟨ws, -, hw⟩ := (h3 p hp).2.2 hnd
      obtain ⟨g0, hg0⟩ := List.exists_mem_of_ne_nil _ hw.1
      have := h p hp g0 hg0
      simp at this
  have e : eDefs g (.alias (.mk n o c ss)) [] = if decide (defaultFormatComment c 80 0 ≠ []) then [([], .type, g.typeName n)] else [] := rfl
  rw [e] at hdefs
  constructor
  · intro h
    have : ∀ p ∈ per, Dropped p.1 := by
      intro p hp
      refine h (per.map (·.1)) ⟨h1, List.ne_nil_of_mem (List.mem_map.2 ⟨p, hp, rfl⟩), ?_⟩ p.1
        (List.mem_map.2 ⟨p, hp, rfl⟩)
      intro l hl
      obtain ⟨q, hq, rfl⟩ := List.mem_map.1 hl
      exact (h3 q hq).1
    rw [hdoc.1 this] at hdefs
    simpa using hdefs
  · rintro ⟨ls, hl, l, hlm, hnd⟩
    rcases hlines ls hl with rfl | ⟨-, rfl⟩
    · have : ¬ defaultFormatComment c 80 0 = [] := by
        rw [← hdoc]
        intro h
        obtain ⟨p, hp, rfl⟩ := List.mem_map.1 hlm
        exact hnd (h p hp)
      simpa [this] using hdefs
    · exact absurd ⟨l, hlm, hnd⟩ hempty

/-- **C56** (violated) So documentation decides whether there is a definition. -/
theorem C56_alias_violated :
    generate exCtx (.alias (.mk "a".toList "tns:Foo".toList none [])) = .ok "// pub type A = Foo;\n".toList ∧
    generate exCtx (.alias (.mk "a".toList "tns:Foo".toList (some "Docs".toList) [])) =
      .ok "//// Docs\n pub type A = Foo;\n".toList := by decide +kernel

/-- **C56** An import is a comment if its strings have no line feed. -/
theorem C56_import (g : GenCtx) (i : Import) (r : Str) (h1 : '\n' ∉ i.location) (h2 : '\n' ∉ i.name)
    (h : generate g (.import i) = .ok r) : ∃ s, '\n' ∉ s ∧ r = '/' :: '/' :: (s ++ ['\n']) := by
  rw [generate] at h
  have e : r = genImport i := (Res.ok.inj h).symm
  refine ⟨"use ".toList ++ (i.location ++ ("  ".toList ++ (i.name ++ ";".toList))), ?_, ?_⟩
  · have d1 : '\n' ∉ "use ".toList := by decide
    have d2 : '\n' ∉ "  ".toList := by decide
    have d3 : '\n' ∉ ";".toList := by decide
    simp only [List.mem_append, h1, h2, d1, d2, d3, or_self, not_false_eq_true]
  · rw [e]
    delta genImport
    have e1 : ∀ x : Str, "//use ".toList ++ x = '/' :: '/' :: ("use ".toList ++ x) := fun _ => rfl
    have e2 : ";\n".toList = ";".toList ++ ['\n'] := rfl
    rw [e2]
    simp only [List.append_assoc]
    rw [e1]

example : generate exCtx (.import { name := "urn:a".toList, location := "a.xsd".toList }) =
    .ok "//use a.xsd  urn:a;\n".toList := by decide +kernel

/-! ## C57: inline types -/

/-- The definition of an entity: its kind. -/
def kindOf : RsEntity → Option DefKind
  | .struct _ => some .struct
  | .tupleStruct _ => some .struct
  | .enum _ => some .enum
  | _ => none

private theorem mem_defsOf {tn mn : Str → Str} {doc : Option Str → Bool} {p : List Str} {x : RsEntity} {k : DefKind}
    (hk : kindOf x = some k) : (p, k, tn x.name) ∈ defsOf tn mn doc p x := by
  cases x with
  | struct s => cases s; cases hk; simp [defsOf, RsEntity.name, RStruct.name]
  | tupleStruct t => cases t; cases hk; simp [defsOf, RsEntity.name, TupleStruct.name]
  | enum e => cases e; cases hk; simp [defsOf, RsEntity.name, REnum.name]
  | _ => cases hk

private theorem mem_defsList {tn mn : Str → Str} {doc : Option Str → Bool} {p : List Str} {x : RsEntity}
    {d : List Str × DefKind × Str} : ∀ {es : List RsEntity}, x ∈ es → d ∈ defsOf tn mn doc p x → d ∈ defsList tn mn doc p es
  | e :: es, hx, hd => by
    rw [defsList]
    rcases List.mem_cons.1 hx with rfl | hx
    · exact List.mem_append_left _ hd
    · exact List.mem_append_right _ (mem_defsList hx hd)

private theorem mem_defsFields {tn mn : Str → Str} {doc : Option Str → Bool} {p : List Str} {f : StructField}
    {d : List Str × DefKind × Str} : ∀ {fs : List StructField}, f ∈ fs → d ∈ defsList tn mn doc p f.subtypes →
      d ∈ defsFields tn mn doc p fs
  | .mk _ _ _ _ _ _ :: fs, hf, hd => by
    rw [defsFields]
    rcases List.mem_cons.1 hf with rfl | hf
    · exact List.mem_append_left _ hd
    · exact List.mem_append_right _ (mem_defsFields hf hd)

/-- **C57** An inline type is found where the field's type says: the type is written `m::T`, and a type `T`
is defined in the module `m` of the struct. Assumed: the field names the inline type, which is not called
like a built-in type of a schema whose default namespace is XML Schema's; its Rust name needs no
underscore; and the module is not called like the prefix of the target namespace. -/
theorem C57_inline_partial (g : GenCtx) (n : Str) (c : Option Str) (fs : List StructField) (ags : List RAlias)
    (ss : List RsEntity) (f : StructField) (x : RsEntity) (k : DefKind) (path : List Str) (doc : Option Str → Bool)
    (hf : f ∈ fs) (hx : x ∈ f.subtypes) (hk : kindOf x = some k) (hn : x.name = f.typeName) (hc : ':' ∉ f.typeName)
    (hb : matchBuiltInType f.typeName g.xsdNs = none)
    (hs : sanitize g.U (filterTypeName g.U (toPascalCase g.U f.typeName)) = filterTypeName g.U (toPascalCase g.U f.typeName))
    (ht : g.targetNs.bind (·.name) ≠ some (g.name n)) :
    ∃ T, g.typeName (g.name n ++ "::".toList ++ f.typeName) = g.name n ++ "::".toList ++ T ∧
      (path ++ [g.name n], k, T) ∈ defsOf g.typeName g.name doc path (.struct (.mk n c fs ags ss)) := by
  refine ⟨filterTypeName g.U (toPascalCase g.U f.typeName), ?_, ?_⟩
  · rw [inline_typeName, if_neg ht]
  · have hT : g.typeName x.name = filterTypeName g.U (toPascalCase g.U f.typeName) := by
      rw [hn]
      have := (C32_qualified g.U f.typeName f.typeName none g.targetNs g.xsdNs (Ref.bare hc) hb).1 rfl
      rw [GenCtx.typeName, this, hs]
    have hi : hasInner fs ss = true := by
      simp only [hasInner, Bool.or_eq_true, List.any_eq_true]
      right
      exact ⟨f, hf, by cases hfs : f.subtypes with
        | nil => rw [hfs] at hx; cases hx
        | cons _ _ => rfl⟩
    rw [defsOf, if_pos hi, ← hT]
    refine List.mem_cons_of_mem _ (List.mem_cons_of_mem _ (List.mem_append_right _ ?_))
    exact mem_defsFields hf (mem_defsList hx (mem_defsOf hk))

example : exInner.name = "Bar".toList ∧ kindOf exInner = some .struct ∧ matchBuiltInType "Bar".toList exXs = none ∧
    sanitize A (filterTypeName A (toPascalCase A "Bar".toList)) = filterTypeName A (toPascalCase A "Bar".toList) ∧
    exNs.bind (·.name) ≠ some (exCtx.name "Foo".toList) := by decide

/-- **C57** (violated) The assumptions are needed: the prefix of the target namespace drops the module, a
name which starts with a digit gets its underscore only where it is defined, and a name of a built-in type
gives a definition which is no identifier. -/
theorem C57_inline_violated :
    (∃ g : GenCtx, g.typeName (g.name "foo".toList ++ "::".toList ++ "Bar".toList) = "Bar".toList ∧
      defsOf g.typeName g.name (fun _ => false) [] (.struct (.mk "foo".toList none
        [.mk "b".toList "Bar".toList none [exInner] .element []] [] [])) =
      [([], .struct, "Foo".toList), ([], .mod, "foo".toList), (["foo".toList], .struct, "Bar".toList)]) ∧
    (exCtx.typeName (exCtx.name "foo".toList ++ "::".toList ++ "1a".toList) = "foo::1A".toList ∧
      exCtx.typeName "1a".toList = "_1A".toList) ∧
    (∃ g : GenCtx, g.typeName "date".toList = "xs::Date".toList) :=
  ⟨⟨⟨A, some ⟨some "foo".toList, []⟩, exXs⟩, by decide +kernel, by decide +kernel⟩, by decide +kernel,
    ⟨⟨A, none, some ⟨none, []⟩⟩, by decide +kernel⟩⟩

end Verif.Props
