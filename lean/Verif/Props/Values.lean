import Verif.Lemmas.Values

/-! # C79: texts are read as the values which the schema gives them -/

namespace Verif.Props

open Verif Verif.Model Verif.Spec Verif.Lemmas Verif.Lemmas.Blt Verif.Lemmas.Val Verif.Props.Sample RoXml

/-- Type names are letters, digits and underscores. -/
theorem own_plain (U : UnicodeTable) {root : Node} {nm : Str} (hn : ':' ∉ nm)
    (hb : matchBuiltInType nm (xsdNamespace root) = none) : Plain ((naming U root).type nm) := by
  have e := (C32_qualified U nm nm none (targetNamespace root) (xsdNamespace root) (.bare hn) hb).1 rfl
  have hal : ∀ c ∈ filterTypeName U (Inflector.toPascalCase U nm), asciiAlnum c = true := by
    intro c hc; rw [Gen.typeName_eq] at hc; exact (List.mem_filter.1 hc).2
  have key : ∀ c, asciiAlnum c = true → c ∉ ":<> ()".toList := by
    intro c hc hm
    have : ∀ c ∈ ":<> ()".toList, asciiAlnum c = false := by decide
    rw [this c hm] at hc; cases hc
  intro c hc
  have hc : c ∈ formatTypeName U (targetNamespace root) (xsdNamespace root) nm := hc
  rw [e] at hc
  rcases Gen.sanitize_or U (filterTypeName U (Inflector.toPascalCase U nm)) with h | h
  · rw [h] at hc; exact key c (hal c hc)
  · rw [h] at hc
    rcases List.mem_cons.1 hc with rfl | hc
    · decide
    · exact key c (hal c hc)

/-- No type of the schema is called like a library type or like one which the macros treat in a special way. -/
structure Unshadowed (U : UnicodeTable) (root : Node) (is : List Item) : Prop where
  declared : ∀ c ∈ globals root, ∀ nm, c.attr "name".toList = some nm →
    (naming U root).type nm ∉ reservedNames.map String.toList
  items : ∀ w ∈ reservedNames, ¬ InScope is [] w.toList

theorem xsd_member {root : Node} {x : Namespace} (hx : xsdNamespace root = some x) :
    x ∈ root.namespaces ∧ x.uri = xmlSchemaUri := by
  rcases (C48_xsd root x).1 hx with ⟨⟨h, -⟩, pre, post, hl, -⟩ | ⟨-, h, pre, post, hl, -⟩
  · exact ⟨by rw [hl]; exact List.mem_append_right _ List.mem_cons_self, h⟩
  · exact ⟨by rw [hl]; exact List.mem_append_right _ List.mem_cons_self, h⟩

theorem xsd_found {root : Node} {uri : Str} (hp : PlainNames root uri) :
    ∃ x p, xsdNamespace root = some x ∧ x.name = some p := by
  obtain ⟨a, ha, hu, hn⟩ := hp.xsd
  have hs : ∃ x, xsdNamespace root = some x := by
    cases hx : xsdNamespace root with
    | some x => exact ⟨x, rfl⟩
    | none =>
      unfold xsdNamespace at hx
      dsimp only at hx
      rw [Option.or_eq_none_iff, List.head?_eq_none_iff] at hx
      have := (List.mem_filter (p := fun n : Namespace => decide (n.uri = xmlSchemaUri))).2 ⟨ha, decide_eq_true hu⟩
      rw [show (root.namespaces.filter fun n => decide (n.uri = xmlSchemaUri)) = [] from hx.2] at this
      cases this
  obtain ⟨x, hx⟩ := hs
  obtain ⟨hm, hxu⟩ := xsd_member hx
  obtain rfl := hp.uris a ha x hm (hu.trans hxu.symm)
  cases h : a.name with
  | none => exact absurd h hn
  | some p => exact ⟨a, p, hx, h⟩

/-- References to built-in types are written as the table says. -/
theorem builtin_type {U : UnicodeTable} {root : Node} {uri : Str} (hp : PlainNames root uri) {n r : String} {ref : Str}
    (hrow : (n, r) ∈ readmeTable ++ undocumentedTable) (hd : DenotesXsd root n ref) :
    (naming U root).type ref = r.toList := by
  obtain ⟨x, p, hx, -⟩ := xsd_found hp
  obtain ⟨a, ha, hu, hr⟩ := hd
  obtain ⟨hxm, hxu⟩ := xsd_member hx
  obtain rfl := hp.uris a ha x hxm (hu.trans hxu.symm)
  refine C32_builtin U ref r.toList _ _ ((C28_builtin ref r.toList _).2 ⟨_, hrow, ?_, rfl⟩)
  rw [hx]; exact hr

theorem own_type {U : UnicodeTable} {root : Node} {uri : Str} (hp : PlainNames root uri) {nm ref : Str}
    (hd : Denotes root uri nm ref) (hn : ':' ∉ nm) :
    (naming U root).type ref = (naming U root).type nm ∧ Plain ((naming U root).type nm) := by
  obtain ⟨x, p, hx, hxn⟩ := xsd_found hp
  obtain ⟨h1, h2⟩ := own_reference U hp.prefixes hx (.inl (by rw [hxn]; simp)) hp.target
    (fun a ha b hb e1 e2 => hp.uris a ha b hb (e1.trans e2.symm)) hd hn
  exact ⟨h2, own_plain U hn h1⟩

theorem literal_row {n : String} {s : Str} {x : XVal} (h : Literal n s x) :
    ∃ r, (n, r) ∈ readmeTable ++ undocumentedTable := by
  have key : ∀ {l : List String}, n ∈ l → (∀ n ∈ l, ∃ row ∈ readmeTable ++ undocumentedTable, row.1 = n) →
      ∃ r, (n, r) ∈ readmeTable ++ undocumentedTable := by
    intro l h1 h2
    obtain ⟨⟨a, b⟩, hr, e⟩ := h2 n h1
    cases e
    exact ⟨b, hr⟩
  have one : ∀ {l : List String}, l = ["boolean", "decimal", "double", "float", "date", "time", "dateTime", "dateTimeStamp",
      "duration", "gDay", "gMonth", "gMonthDay", "gYear", "gYearMonth"] → ∀ n ∈ l,
      ∃ row ∈ readmeTable ++ undocumentedTable, row.1 = n := by
    rintro l rfl; decide +kernel
  cases h with
  | text h => exact key h (by decide +kernel)
  | int h => exact key (List.mem_map.2 ⟨_, h, rfl⟩ : n ∈ intTypes.map (·.1)) (by decide +kernel)
  | list h => exact key h (by decide +kernel)
  | _ => exact key (l := ["boolean", "decimal", "double", "float", "date", "time", "dateTime", "dateTimeStamp",
      "duration", "gDay", "gMonth", "gMonthDay", "gYear", "gYearMonth"]) (by decide) (one rfl)

/-- The literals which the Rust types read as they should (C78). -/
def Kept (L : Lib) (n : String) (s : Str) (x : XVal) : Prop :=
  Literal n s x ∧ ¬ Huge n s ∧ ¬ Lost L.years.lo n s x

private theorem builtin_reads {U : UnicodeTable} {root : Node} {uri : Str} {L : Lib} {R : Str → Str → Res RVal}
    {is : List Item} (hp : PlainNames root uri) (hun : Unshadowed U root is) (hR : Implements R L is) {n : String}
    {ref s : Str} {x : XVal} (hd : DenotesXsd root n ref) (hk : Kept L n s x) :
    FieldReads R ((naming U root).type ref) s x ∧
      ((∀ n ∈ listTypes, ¬ DenotesXsd root n ref) → ∃ v, R ((naming U root).type ref) s = .ok v ∧ Represents v x) := by
  obtain ⟨hlit, hh, hl⟩ := hk
  obtain ⟨r, hrow⟩ := literal_row hlit
  rw [builtin_type hp hrow hd]
  have hscope : ∀ q ∈ reservedNames, ∀ f, libFromStr L q.toList = some f → ∀ s, R q.toList s = (f s).map .lib :=
    fun q hq f hf => hR.lib _ _ hf (hun.items q hq)
  by_cases hlist : n ∈ listTypes
  · -- a list of texts
    have hr : r = "Vec<String>" := by
      have : ∀ p ∈ readmeTable ++ undocumentedTable, p.1 ∈ listTypes → p.2 = "Vec<String>" := by decide +kernel
      exact this _ hrow hlist
    subst hr
    refine ⟨?_, fun h => absurd hd (h n hlist)⟩
    have key : ∃ ts, Words s ts ∧ x = .list (ts.map .text) := by
      have hne : ∀ p ∈ intTypes, p.1 ∉ listTypes := by decide +kernel
      have hnt : ∀ p ∈ textTypes, p ∉ listTypes := by decide +kernel
      cases hlit with
      | list _ h _ => exact ⟨_, h, rfl⟩
      | text h => exact absurd hlist (hnt _ h)
      | int h => exact absurd hlist (hne _ h)
      | _ => exact absurd hlist (by decide)
    obtain ⟨ts, hw, rfl⟩ := key
    have := field_vec (R := R) (ty := "String".toList) (p := .mk [] "String".toList none) (s := s) (ts := ts)
      (xs := ts.map .text) (pathOf_name (by unfold Plain; decide)) (by decide) hw (by simp) (by
        intro i t x ht hx
        rw [List.getElem?_map, ht] at hx
        cases hx
        exact ⟨_, hscope "String" (by decide) _ (lib_String L) t, .lib .text⟩)
    exact this
  · obtain ⟨f, v, hf, hv, hc⟩ := (C78_reads_iff_partial L hrow hlit hlist hh).2 hl
    have hne : r ≠ "Vec<String>" := by
      rintro rfl
      have : ∀ p ∈ readmeTable ++ undocumentedTable, p.2 = "Vec<String>" → p.1 ∈ listTypes := by decide +kernel
      exact hlist (this _ hrow rfl)
    have hres : r ∈ reservedNames := by
      have : ∀ p ∈ readmeTable ++ undocumentedTable, p.2 ≠ "Vec<String>" → p.2 ∈ reservedNames := by decide +kernel
      exact this _ hrow hne
    have hrv : R r.toList s = .ok (.lib v) := by rw [hscope r hres f hf s, hv]; rfl
    obtain ⟨p, hpp, -, hps, hpr⟩ := lib_path r (List.mem_map.2 ⟨_, hrow, rfl⟩) hne
    refine ⟨?_, fun _ => ⟨_, hrv, .lib hc⟩⟩
    by_cases hst : r = "String"
    · subst hst
      rw [lib_String] at hf
      cases hf
      cases hv
      cases hc
      exact field_string
    · exact field_struct hpp (hpr hst) hrv (.lib hc)

theorem own_struct {U : UnicodeTable} {root : Node} {is : List Item} (hun : Unshadowed U root is) {c : Node} {nm : Str}
    (hc : c ∈ globals root) (hnm : c.attr "name".toList = some nm) :
    TupTy.fromPath (.mk [] ((naming U root).type nm) none) = .ok (.struct (.mk [] ((naming U root).type nm) none)) := by
  have hres := hun.declared c hc nm hnm
  rw [fromPath_eq, if_neg, if_neg, if_neg]
  · intro h; rw [h] at hres; exact hres (by decide)
  · intro h; rw [h] at hres; exact hres (by decide)
  · intro h
    refine hres ?_
    have : ∀ w ∈ simpleIdents, w ∈ reservedNames.map String.toList := by decide
    exact this _ h

/-- The name of the wrapper is read as its field. -/
private theorem wrapper_reads {U : UnicodeTable} {root : Node} {uri : Str} {L : Lib} {R : Str → Str → Res RVal}
    {is : List Item} (hp : PlainNames root uri) (hun : Unshadowed U root is) (hR : Implements R L is) {c : Node} {nm ref ty s : Str}
    {x : XVal} (hd : Denotes root uri nm ref) (hc : c ∈ globals root) (hnm : c.attr "name".toList = some nm)
    {i : Item} (hi : i ∈ is) (h1 : i.path = [])
    (h2 : i.attrs = ["#[derive(Default, Clone, PartialEq, Debug, UtilsTupleIo, UtilsDefaultSerde)]".toList])
    (h3 : i.head = "pub struct ".toList ++ ((naming U root).type nm ++ (" (pub ".toList ++ (ty ++ ");".toList))))
    (hf : FieldReads R ty s x) :
    FieldReads R ((naming U root).type ref) s x ∧ ∃ v, R ((naming U root).type ref) s = .ok v ∧ Represents v x := by
  obtain ⟨e, hpl⟩ := own_type (U := U) hp hd (hp.names c hc nm hnm)
  rw [e]
  obtain ⟨p, f, v, hpo, ht, hv, hx⟩ := hf
  have hsp : ' ' ∉ (naming U root).type nm := fun h => hpl _ h (by decide)
  have hpar : ')' ∉ ty := by rw [← hpo.2]; exact (pathText_chars hpo.1).2
  have hrv : R ((naming U root).type nm) s = .ok (.ofTup v) := by
    rw [hR.tuple i hi h1 (by rw [h2]; decide) _ _ (by rw [h3]; exact readTuple_of hsp hpar) p f hpo ht s, hv]
    rfl
  refine ⟨?_, _, hrv, hx⟩
  exact field_struct (pathOf_name hpl) (.inr (own_struct hun hc hnm)) hrv hx

/-- Item types have a path which is no `Vec`. -/
theorem known_path {U : UnicodeTable} {root : Node} {uri : Str} {is : List Item} (hp : PlainNames root uri)
    (hun : Unshadowed U root is) {it : Str} (hk : Known root uri it) (hl : ∀ n ∈ listTypes, ¬ DenotesXsd root n it) :
    ∃ p, PathOf ((naming U root).type it) p ∧ RPath.name p ≠ "Vec".toList := by
  rcases hk with ⟨⟨n, r⟩, hrow, hd⟩ | ⟨nm, c, hd, hc, hnm⟩
  · rw [builtin_type hp hrow hd]
    have hne : r ≠ "Vec<String>" := by
      rintro rfl
      have : ∀ p ∈ readmeTable ++ undocumentedTable, p.2 = "Vec<String>" → p.1 ∈ listTypes := by decide +kernel
      exact hl n (this _ hrow rfl) hd
    obtain ⟨p, h1, h2, -⟩ := lib_path r (List.mem_map.2 ⟨_, hrow, rfl⟩) hne
    exact ⟨p, h1, h2⟩
  · obtain ⟨e, hpl⟩ := own_type (U := U) hp hd (hp.names c hc nm hnm)
    rw [e]
    refine ⟨_, pathOf_name hpl, ?_⟩
    intro h
    have h : (naming U root).type nm = "Vec".toList := h
    have := hun.declared c hc nm hnm
    rw [h] at this
    exact this (by decide)

/-- **C79** A text which denotes a value of a simple type (before its facets) is read by the generated type as that value:
both where the type is wrapped by another one and, unless it is a built-in list, by `from_str` of the type itself.
Partial: built-in literals as in C78; no enumerations of names, unions and inline types. -/
theorem C79_reads_partial (U : UnicodeTable) (root : Node) (uri t : Str) (hg : Grammatical root) (hs : CopySafe root)
    (h : convertXsd U root = .ok t) (is : List Item) (hi : HasItems t is) (hp : PlainNames root uri)
    (hun : Unshadowed U root is) (L : Lib) (R : Str → Str → Res RVal) (hR : Implements R L is) {ref s : Str} {x : XVal}
    (hv : ValueOf U root uri (Kept L) ref s x) :
    FieldReads R ((naming U root).type ref) s x ∧
      ((∀ n ∈ listTypes, ¬ DenotesXsd root n ref) → ∃ v, R ((naming U root).type ref) s = .ok v ∧ Represents v x) := by
  induction hv with
  | builtin hd hk => exact builtin_reads hp hun hR hd hk
  | @restriction ref c nm d b fs s x hd hc htag hb hf he _ ih =>
    obtain ⟨⟨i, him, h1, h2, h3⟩, -⟩ := C72_restriction_partial U root t hg hs h is hi c d nm b fs hc htag hb hf he
    obtain ⟨k1, k2⟩ := wrapper_reads hp hun hR hd hc.1 hc.2.2.1 him h1 h2 h3 ih.1
    exact ⟨k1, fun _ => k2⟩
  | @list ref c nm d it s ts xs hd hc htag hit hk hl hw hlen _ ih =>
    obtain ⟨⟨i, him, h1, h2, h3⟩, -⟩ := C72_list_partial U root t hg hs h is hi c d nm it hc htag hit
    obtain ⟨p, hpo, hpn⟩ := known_path (U := U) hp hun hk hl
    have hf : FieldReads R ("Vec<".toList ++ (naming U root).type it ++ ">".toList) s (.list xs) :=
      field_vec hpo hpn hw hlen fun i t x ht hx => (ih i t x ht hx).2 hl
    obtain ⟨k1, k2⟩ := wrapper_reads hp hun hR hd hc.1 hc.2.2.1 him h1 h2 (by rw [h3]; simp) hf
    exact ⟨k1, fun _ => k2⟩

/-! ## What is read is a literal -/

theorem lib_found (L : Lib) {r : String} (h : r ∈ reservedNames) (hv : r ≠ "Vec") (h32 : r ≠ "f32") :
    ∃ f, libFromStr L r.toList = some f := by
  have e : (libTable L).map (·.1) = ["String", "bool", "i64", "i32", "i16", "i8", "u64", "u32", "u16", "u8", "f64", "xs::Integer", "xs::NonNegativeInteger", "xs::PositiveInteger", "xs::NonPositiveInteger", "xs::NegativeInteger", "xs::Decimal", "xs::Date", "xs::Time", "xs::DateTime", "xs::DateTimeStamp", "xs::Duration", "xs::GDay", "xs::GMonth", "xs::GMonthDay", "xs::GYear", "xs::GYearMonth"] := rfl
  have hm : r ∈ (libTable L).map (·.1) := by
    rw [e]
    have : ∀ r ∈ reservedNames, r ≠ "Vec" → r ≠ "f32" → r ∈ ["String", "bool", "i64", "i32", "i16", "i8", "u64", "u32", "u16", "u8", "f64", "xs::Integer", "xs::NonNegativeInteger", "xs::PositiveInteger", "xs::NonPositiveInteger", "xs::NegativeInteger", "xs::Decimal", "xs::Date", "xs::Time", "xs::DateTime", "xs::DateTimeStamp", "xs::Duration", "xs::GDay", "xs::GMonth", "xs::GMonthDay", "xs::GYear", "xs::GYearMonth"] := by decide
    exact this r h hv h32
  obtain ⟨row, hrow, hr⟩ := List.mem_map.1 hm
  have : ((libTable L).find? fun x => x.1.toList = r.toList).isSome = true :=
    List.find?_isSome.2 ⟨row, hrow, by rw [hr]; simp⟩
  obtain ⟨x, hx⟩ := Option.isSome_iff_exists.1 this
  exact ⟨x.2, by rw [libFromStr, hx]; rfl⟩

/-- **C79** A restriction, or a restriction of a restriction, of a text type, of truth values, of bounded integers or of
gregorian days and months reads nothing else than the texts which the schema allows before facets, and reads the value. -/
theorem C79_sound_partial (U : UnicodeTable) (root : Node) (uri t : Str) (hg : Grammatical root) (hs : CopySafe root)
    (h : convertXsd U root = .ok t) (is : List Item) (hi : HasItems t is) (hp : PlainNames root uri)
    (hun : Unshadowed U root is) (L : Lib) (R : Str → Str → Res RVal) (hR : Implements R L is) {ref : Str} {n : String}
    (hr : Restricts U root uri ref n) (hn : n ∈ exactTypes) {s : Str} {v : RVal}
    (hv : R ((naming U root).type ref) s = .ok v) : ∃ x, ValueOf U root uri Literal ref s x ∧ Represents v x := by
  suffices key : (∀ s v, R ((naming U root).type ref) s = .ok v → ∃ x, ValueOf U root uri Literal ref s x ∧ Represents v x) ∧
      ∃ p f, PathOf ((naming U root).type ref) p ∧ tupleFromStr (envOf R) p = .ok f ∧
        ∀ s v, f s = .ok v → ∃ x, ValueOf U root uri Literal ref s x ∧ Represents (.ofTup v) x from key.1 s v hv
  clear hv
  have single : ∀ {ref ty : Str} {p : RPath}, PathOf ty p →
      (TupTy.fromPath p = .ok (.simple p) ∨ TupTy.fromPath p = .ok (.struct p)) →
      (∀ s v, R ty s = .ok v → ∃ x, ValueOf U root uri Literal ref s x ∧ Represents v x) →
      ∃ p f, PathOf ty p ∧ tupleFromStr (envOf R) p = .ok f ∧
        ∀ s v, f s = .ok v → ∃ x, ValueOf U root uri Literal ref s x ∧ Represents (.ofTup v) x := by
    intro ref ty p hpo hf hA
    refine ⟨p, fun s => ((envOf R).fromStr p s).bind fun v => .ok (.one v), hpo, ?_, ?_⟩
    · rcases hf with hf | hf
      · unfold tupleFromStr; rw [hf, Res.ok_bind]
      · unfold tupleFromStr; rw [hf, Res.ok_bind]
    · intro s v h
      obtain ⟨w, hw, h⟩ := Res.bind_eq_ok.1 h
      cases Res.ok.inj h
      have hw : R (pathText p) s = .ok w := hw
      rw [hpo.2] at hw
      obtain ⟨x, h1, h2⟩ := hA s w hw
      exact ⟨x, h1, .one h2⟩
  induction hr with
  | @builtin n ref hd =>
    have hex : ∀ n ∈ exactTypes, ∃ row ∈ readmeTable ++ undocumentedTable, row.1 = n ∧ row.2 ≠ "Vec<String>" := by
      decide +kernel
    obtain ⟨⟨n', r⟩, hrow, e, hne⟩ := hex n hn
    obtain rfl : n' = n := e
    rw [builtin_type hp hrow hd]
    have hres : r ∈ reservedNames ∧ r ≠ "Vec" ∧ r ≠ "f32" := by
      have : ∀ p ∈ readmeTable ++ undocumentedTable, p.2 ≠ "Vec<String>" → p.2 ∈ reservedNames ∧ p.2 ≠ "Vec" ∧ p.2 ≠ "f32" := by
        decide +kernel
      exact this _ hrow hne
    obtain ⟨f, hf⟩ := lib_found L hres.1 hres.2.1 hres.2.2
    have hA : ∀ s v, R r.toList s = .ok v → ∃ x, ValueOf U root uri Literal ref s x ∧ Represents v x := by
      intro s v h
      rw [hR.lib _ _ hf (hun.items r hres.1)] at h
      obtain ⟨w, hw, rfl⟩ := map_ok.1 h
      obtain ⟨x, h1, h2⟩ := C78_sound L hrow hn hf hw
      exact ⟨x, .builtin hd h1, .lib h2⟩
    obtain ⟨p, hpp, -, hps, hpr⟩ := lib_path r (List.mem_map.2 ⟨_, hrow, rfl⟩) hne
    refine ⟨hA, ?_⟩
    by_cases hst : r = "String"
    · subst hst
      rw [lib_String] at hf
      cases hf
      refine ⟨p, fun s => .ok (.text s), hpp, ?_, ?_⟩
      · rw [hps rfl]
        unfold tupleFromStr
        rw [fromPath_eq, if_neg (by decide), if_pos rfl, Res.ok_bind]
      · intro s v h
        cases Res.ok.inj h
        obtain ⟨x, h1, h2⟩ := C78_sound L hrow hn (lib_String L) (s := s) rfl
        cases h2
        exact ⟨_, .builtin hd h1, .text⟩
    · exact single hpp (hpr hst) hA
  | @restriction ref c nm d b fs n hd hc htag hb hf he _ ih =>
    obtain ⟨⟨i, him, h1, h2, h3⟩, -⟩ := C72_restriction_partial U root t hg hs h is hi c d nm b fs hc htag hb hf he
    obtain ⟨-, p, f, hpo, ht, hB⟩ := ih hn
    obtain ⟨e, hpl⟩ := own_type (U := U) hp hd (hp.names c hc.1 nm hc.2.2.1)
    rw [e]
    have hsp : ' ' ∉ (naming U root).type nm := fun h => hpl _ h (by decide)
    have hpar : ')' ∉ (naming U root).type b := by rw [← hpo.2]; exact (pathText_chars hpo.1).2
    have hA : ∀ s v, R ((naming U root).type nm) s = .ok v → ∃ x, ValueOf U root uri Literal ref s x ∧ Represents v x := by
      intro s v h
      rw [hR.tuple i him h1 (by rw [h2]; decide) _ _ (by rw [h3]; exact readTuple_of hsp hpar) p f hpo ht s] at h
      obtain ⟨w, hw, rfl⟩ := map_ok.1 h
      obtain ⟨x, k1, k2⟩ := hB s w hw
      exact ⟨x, .restriction hd hc htag hb hf he k1, k2⟩
    exact ⟨hA, single (pathOf_name hpl) (.inr (own_struct hun hc.1 hc.2.2.1)) hA⟩

/-! ## Unions -/

theorem memberTypes_unique {n : Node} {a b : List Str} (ha : MemberTypes n a) (hb : MemberTypes n b) : a = b := by
  cases ha with
  | none h =>
    cases hb with
    | none => rfl
    | some h' => rw [h] at h'; cases h'
  | some h hs =>
    cases hb with
    | none h' => rw [h] at h'; cases h'
    | some h' hs' =>
      rw [h] at h'
      cases h'
      exact (Parse.spaceSeparated_iff.1 hs).trans (Parse.spaceSeparated_iff.1 hs').symm

theorem forall₂_append {α β : Type} {P : α → β → Prop} {a b : List α} {l : List β} (h : List.Forall₂ P (a ++ b) l) :
    ∃ l1 l2, List.Forall₂ P a l1 ∧ List.Forall₂ P b l2 ∧ l = l1 ++ l2 := by
  induction a generalizing l with
  | nil => exact ⟨[], l, .nil, h, rfl⟩
  | cons x a ih =>
    cases h with
    | cons h1 h2 =>
      obtain ⟨l1, l2, g1, g2, rfl⟩ := ih h2
      exact ⟨_ :: l1, l2, .cons h1 g1, g2, rfl⟩

theorem variants_some {ms : List Spec.Member} {vs : List Variant} (h : List.Forall₂ VariantOf ms vs)
    (hm : ∀ m ∈ ms, ∃ ty, m.type = some ty) : ∃ ps, unionVariants vs = some ps := by
  induction h with
  | nil => exact ⟨[], rfl⟩
  | @cons m v ms vs h _ ih =>
    obtain ⟨ps, hps⟩ := ih fun m h => hm m (List.mem_cons_of_mem _ h)
    rw [unionVariants]
    split
    · exact ⟨ps, hps⟩
    · obtain ⟨-, ⟨hno, -⟩ | ⟨ty, p, -, hp, -⟩⟩ := h
      · obtain ⟨ty, ht⟩ := hm m List.mem_cons_self
        rw [hno] at ht; cases ht
      · exact ⟨_, by rw [hp, hps]; rfl⟩

/-- **C79** A union tries its members in their order: a text which is a value of a member type, and which no member before
it reads, becomes the variant of that member with the value. -/
theorem C79_union_partial (U : UnicodeTable) (root : Node) (uri t : Str) (hg : Grammatical root) (hs : CopySafe root)
    (h : convertXsd U root = .ok t) (is : List Item) (hi : HasItems t is) (hp : PlainNames root uri)
    (hun : Unshadowed U root is) (L : Lib) (R : Str → Str → Res RVal) (hR : Implements R L is) {c d : Node} {nm : Str}
    (hc : SimpleDecl root c nm d) (hd : d.tag = "union".toList) {pre post : List Str} {w : Str}
    (hw : MemberTypes d (pre ++ w :: post)) (hl : ∀ n ∈ listTypes, ¬ DenotesXsd root n w) {s : Str} {x : XVal}
    (hv : ValueOf U root uri (Kept L) w s x) (hpre : ∀ w' ∈ pre, R ((naming U root).type w') s = .err) :
    ∃ i ∈ is, i.path = [] ∧ "UtilsUnionSerDe".toList ∈ i.attrs.flatMap derived ∧
      i.head = "pub enum ".toList ++ ((naming U root).type nm ++ " {".toList) ∧
      ∀ vs, List.Forall₂ VariantOf (readCaseLines none i.body) vs → ∃ ps v, unionVariants vs = some ps ∧
        unionParse (envOf R) ps s = .ok (.case ((naming U root).case w) v) ∧ Represents v x := by
  obtain ⟨i, him, h1, h2, h3, ws, ms, hws, hms, hb⟩ := C72_union_partial U root t hg hs h is hi c d nm hc hd
  obtain rfl := memberTypes_unique hws hw
  obtain ⟨v, hv, hx⟩ := (C79_reads_partial U root uri t hg hs h is hi hp hun L R hR hv).2 hl
  refine ⟨i, him, h1, by rw [h2]; decide, h3, ?_⟩
  intro vs hvs
  rw [hb] at hvs
  have hsome : ∀ m ∈ ms ++ [(⟨none, "__Unknown__".toList, some ((naming U root).type "String".toList)⟩ : Spec.Member)],
      ∃ ty, m.type = some ty := by
    intro m hm
    rcases List.mem_append.1 hm with hm | hm
    · obtain ⟨q, -, hq⟩ := Parse.forall₂_left hms m hm
      exact ⟨_, hq.2.1⟩
    · cases List.mem_singleton.1 hm
      exact ⟨_, rfl⟩
  rw [List.map_append, List.map_cons, List.append_assoc, List.cons_append] at hms
  obtain ⟨m1, m2, k1, k2, rfl⟩ := forall₂_append hms
  cases k2 with
  | @cons _ m _ m2 k3 k4 =>
    rw [List.append_assoc] at hvs hsome
    obtain ⟨v1, v2, g1, g2, rfl⟩ := forall₂_append hvs
    cases g2 with
    | @cons _ u _ v2 g3 g4 =>
      obtain ⟨ps2, hps2⟩ := variants_some g4 fun m' hm => hsome m' (List.mem_append_right _ (List.mem_cons_of_mem _ hm))
      obtain ⟨hi1, ⟨hno, -⟩ | ⟨ty, p, ht, hp', hpo⟩⟩ := g3
      · rw [k3.2.1] at hno; cases hno
      rw [k3.2.1] at ht
      cases ht
      have hun' : u.ident ≠ "__Unknown__".toList := by
        rw [hi1, k3.1]
        exact C38_unknown_distinct _ ⟨w, none, [], some w, [], .union⟩
      have hrv : (envOf R).fromStr p s = .ok v := by show R (pathText p) s = _; rw [hpo.2]; exact hv
      have tail : ∃ ps, unionVariants (u :: v2) = some ps ∧
          unionParse (envOf R) ps s = .ok (.case ((naming U root).case w) v) := by
        refine ⟨(u.ident, p) :: ps2, ?_, ?_⟩
        · rw [unionVariants, if_neg hun', hp', hps2]; rfl
        · show unionParse _ ((u.ident, p) :: ps2) s = _
          rw [unionParse, hrv, hi1, k3.1]
      clear hvs hsome hms
      have : ∃ ps, unionVariants (v1 ++ u :: v2) = some ps ∧
          unionParse (envOf R) ps s = .ok (.case ((naming U root).case w) v) := by
        clear hw hws hb
        induction g1 generalizing pre with
        | nil => exact tail
        | @cons m u' ml vl hm hml ih =>
          obtain ⟨w', pre, rfl⟩ : ∃ w' pre', pre = w' :: pre' := by
            cases pre with
            | nil => cases k1
            | cons a b => exact ⟨a, b, rfl⟩
          cases k1 with
          | cons k11 k12 =>
          obtain ⟨ps, j1, j2⟩ := ih (fun w hw => hpre w (List.mem_cons_of_mem _ hw)) k12
          rw [List.cons_append, unionVariants]
          by_cases hu : u'.ident = "__Unknown__".toList
          · rw [if_pos hu]; exact ⟨ps, j1, j2⟩
          · rw [if_neg hu]
            obtain ⟨hi', ⟨hno, -⟩ | ⟨ty', p', ht', hp'', hpo'⟩⟩ := hm
            · rw [k11.2.1] at hno; cases hno
            rw [k11.2.1] at ht'
            cases ht'
            refine ⟨(u'.ident, p') :: ps, by rw [hp'', j1]; rfl, ?_⟩
            have : (envOf R).fromStr p' s = .err := by
              show R (pathText p') s = _; rw [hpo'.2]; exact hpre w' List.mem_cons_self
            rw [unionParse, this]
            exact j2
      obtain ⟨ps, j1, j2⟩ := this
      exact ⟨ps, v, j1, j2, hx⟩

/-! ## A document -/

private def limit : Node := el "restriction" [("base", "xs:int")] []
private def small : Node := el "restriction" [("base", "tns:Limit")] []
private def limits : Node := el "list" [("itemType", "tns:Limit")] []
private def simple (n : String) (r : Node) : Node := el "simpleType" [("name", n)] [r]
private def types : List Node := [simple "Limit" limit, simple "Small" small, simple "Limits" limits]
private def values : Node := doc (types ++ [simple "Either" (el "union" [("memberTypes", "tns:Small xs:string")] [])])

private def valuesText : Str := okText (convertXsd A values)
private def valuesItems : List Item := readItems [] [] (Gen.lns valuesText)

private theorem values_has : HasItems valuesText valuesItems := ⟨_, Gen.lines_lns _, rfl⟩
private theorem values_ok : convertXsd A values = .ok valuesText := okText_eq (by decide +kernel)
private theorem values_grammatical : Grammatical values := grammatical_of rfl (by decide +kernel)
private theorem values_copySafe : CopySafe values :=
  copySafe_of (by decide +kernel) (by decide +kernel) (by decide +kernel) (by decide +kernel) (by decide +kernel)

private def exampleUri : Str := "http://example.com/a".toList

private theorem values_plain : PlainNames values exampleUri where
  prefixes := by unfold UniquePrefixes; decide +kernel
  uris := by decide +kernel
  xsd := ⟨⟨some "xs".toList, Model.xsdUri⟩, List.mem_cons_self, rfl, by simp⟩
  target := by decide
  names := by
    have : ∀ c ∈ globals values, ∀ nm ∈ (c.attr "name".toList).toList, ':' ∉ nm := by decide +kernel
    exact fun c hc nm h => this c hc nm (Option.mem_toList.2 h)

private theorem values_unshadowed : Unshadowed A values valuesItems where
  declared := by
    have : ∀ c ∈ globals values, ∀ nm ∈ (c.attr "name".toList).toList,
        (naming A values).type nm ∉ reservedNames.map String.toList := by decide +kernel
    exact fun c hc nm h => this c hc nm (Option.mem_toList.2 h)
  items := by
    have : ∀ w ∈ reservedNames, ∀ i ∈ valuesItems, ¬ (DefinesType i w.toList ∨ readHead i.head = some (.type, w.toList)) := by
      decide +kernel
    rintro w hw ⟨i, hi, -, h⟩
    exact this w hw i hi h

/-- The wrappers in the text. -/
private theorem values_tuples : ∀ i ∈ valuesItems, i.path = [] → "UtilsTupleIo".toList ∈ i.attrs.flatMap derived →
    readTuple i.head ∈ [some ("Limit".toList, "i32".toList), some ("Small".toList, "Limit".toList),
      some ("Limits".toList, "Vec<Limit>".toList)] := by decide +kernel

private theorem int_path : PathOf "i32".toList (.mk [] "i32".toList none) := pathOf_name (by unfold Plain; decide)
private theorem limit_path : PathOf "Limit".toList (.mk [] "Limit".toList none) := pathOf_name (by unfold Plain; decide)

/-- The readers of these types. -/
private def wrapped (L : Lib) (ty s : Str) : Res RVal :=
  let int := fun s => Res.map RVal.lib (Res.map LibVal.int (Res.ofOption (Str.parseSigned (-2147483648) 2147483647 s)))
  match libFromStr L ty with
  | some f => (f s).map .lib
  | none =>
    if ty = "Limit".toList then (int s).map .one
    else if ty = "Small".toList then ((int s).map .one).map .one
    else if ty = "Limits".toList then (filterMapOk (fun s => (int s).map .one) (splitWhitespace s)).map .many
    else .err

theorem not_lib (L : Lib) {n : String} (h : n ∉ reservedNames) : libFromStr L n.toList = none := by
  unfold libFromStr
  rw [Option.map_eq_none_iff, List.find?_eq_none]
  intro x hx hc
  have hn : x.1 = n := String.toList_inj.1 (by simpa using hc)
  have hm : x.1 ∈ (libTable L).map (·.1) := List.mem_map_of_mem hx
  have : ∀ r ∈ (libTable L).map (·.1), r ∈ reservedNames := by
    show ∀ r ∈ ["String", "bool", "i64", "i32", "i16", "i8", "u64", "u32", "u16", "u8", "f64", "xs::Integer", "xs::NonNegativeInteger", "xs::PositiveInteger", "xs::NonPositiveInteger", "xs::NegativeInteger", "xs::Decimal", "xs::Date", "xs::Time", "xs::DateTime", "xs::DateTimeStamp", "xs::Duration", "xs::GDay", "xs::GMonth", "xs::GMonthDay", "xs::GYear", "xs::GYearMonth"], r ∈ reservedNames
    decide
  exact h (hn ▸ this _ hm)

private theorem map_bind {α β γ : Type} (r : Res α) (f : α → β) (g : β → γ) : (r.bind fun v => .ok (f v)).map g = r.map (g ∘ f) := by
  cases r <;> rfl

private theorem wrapped_implements (L : Lib) : Implements (wrapped L) L valuesItems where
  lib ty f hf _ s := by unfold wrapped; rw [hf]
  tuple i hi h1 h2 n ty ht p f hp hf s := by
    have h := values_tuples i hi h1 h2
    rw [ht] at h
    have e1 : ∀ s, wrapped L "i32".toList s =
        Res.map RVal.lib (Res.map LibVal.int (Res.ofOption (Str.parseSigned (-2147483648) 2147483647 s))) := by
      intro s; unfold wrapped; rw [lib_i32]
    have e2 : ∀ s, wrapped L "Limit".toList s = (wrapped L "i32".toList s).map .one := by
      intro s; rw [e1]; unfold wrapped; rw [not_lib L (n := "Limit") (by decide)]; rfl
    have e3 : ∀ s, wrapped L "Small".toList s = (wrapped L "Limit".toList s).map .one := by
      intro s; rw [e2, e1]; conv_lhs => unfold wrapped
      rw [not_lib L (n := "Small") (by decide)]; rfl
    have e4 : ∀ s, wrapped L "Limits".toList s = (filterMapOk (wrapped L "Limit".toList) (splitWhitespace s)).map .many := by
      intro s
      have : wrapped L "Limit".toList = fun s => (Res.map RVal.lib (Res.map LibVal.int (Res.ofOption (Str.parseSigned (-2147483648) 2147483647 s)))).map .one := by
        funext s; rw [e2, e1]
      rw [this]; conv_lhs => unfold wrapped
      rw [not_lib L (n := "Limits") (by decide)]; rfl
    simp only [List.mem_cons, List.not_mem_nil, or_false, Option.some.injEq, Prod.mk.injEq] at h
    rcases h with ⟨rfl, rfl⟩ | ⟨rfl, rfl⟩ | ⟨rfl, rfl⟩
    · obtain rfl := pathText_injective hp.1 int_path.1 (hp.2.trans int_path.2.symm)
      cases Res.ok.inj (hf.symm.trans (show tupleFromStr _ _ = .ok fun s => (wrapped L "i32".toList s).bind fun v => .ok (.one v) from rfl))
      rw [e2, map_bind]; rfl
    · obtain rfl := pathText_injective hp.1 limit_path.1 (hp.2.trans limit_path.2.symm)
      cases Res.ok.inj (hf.symm.trans (show tupleFromStr _ _ = .ok fun s => (wrapped L "Limit".toList s).bind fun v => .ok (.one v) from rfl))
      rw [e3, map_bind]; rfl
    · obtain rfl := pathText_injective hp.1 (pathOf_vec limit_path).1 (hp.2.trans (pathOf_vec limit_path).2.symm)
      cases Res.ok.inj (hf.symm.trans (show tupleFromStr _ _ = .ok fun s =>
        (filterMapOk (wrapped L "Limit".toList) (splitWhitespace s)).bind fun vs => .ok (.many vs) from rfl))
      rw [e4, map_bind]; rfl

private theorem kept_int (L : Lib) {s : Str} {x : XVal} (h : Literal "int" s x) : Kept L "int" s x := by
  refine ⟨h, ?_, ?_⟩
  · rintro (⟨h, -⟩ | ⟨h, -⟩) <;> exact absurd h (by decide)
  · generalize hn : "int" = n
    intro hl
    cases hl with
    | minus h => subst hn; exact absurd h (by decide)
    | minusYear h => subst hn; exact absurd h (by decide)
    | lateYear h => subst hn; exact absurd h (by decide)
    | endOfDay h => subst hn; exact absurd h (by decide)
    | precise h => subst hn; exact absurd h (by decide)
    | _ => exact absurd hn (by decide)

private theorem seven : Literal "int" "7".toList (.int 7) :=
  .int (lo := some (-2147483648)) (hi := some 2147483647) (sg := .none) (by decide +kernel)
    ⟨[7], by unfold Digits1 Digits; decide, by decide, by decide⟩ (by simp) (by simp)

private theorem minus_three : Literal "int" "-03".toList (.int (-3)) :=
  .int (lo := some (-2147483648)) (hi := some 2147483647) (sg := .minus) (by decide +kernel)
    ⟨[0, 3], by unfold Digits1 Digits; decide, by decide, by decide⟩ (by simp) (by simp)

private theorem den_int : DenotesXsd values "int" "xs:int".toList :=
  ⟨⟨some "xs".toList, Model.xsdUri⟩, List.mem_cons_self, rfl, .prefixed (p := "xs".toList) (n := "int".toList) (by decide)⟩

private theorem den_own (n : String) : Denotes values exampleUri n.toList ("tns:".toList ++ n.toList) :=
  ⟨by rfl, ⟨some "tns".toList, exampleUri⟩, List.mem_cons_of_mem _ List.mem_cons_self, rfl,
    .prefixed (p := "tns".toList) (n := n.toList) (by decide)⟩

private theorem limit_decl : SimpleDecl values (simple "Limit" limit) "Limit".toList limit :=
  ⟨List.mem_cons_self, rfl, by decide +kernel, rfl⟩
private theorem small_decl : SimpleDecl values (simple "Small" small) "Small".toList small :=
  ⟨List.mem_cons_of_mem _ List.mem_cons_self, rfl, by decide +kernel, rfl⟩
private theorem limits_decl : SimpleDecl values (simple "Limits" limits) "Limits".toList limits :=
  ⟨List.mem_cons_of_mem _ (List.mem_cons_of_mem _ List.mem_cons_self), rfl, by decide +kernel, rfl⟩

private theorem limit_value (L : Lib) {s : Str} {x : XVal} (h : Literal "int" s x) :
    ValueOf A values exampleUri (Kept L) "tns:Limit".toList s x :=
  .restriction (den_own "Limit") limit_decl rfl (by decide +kernel) .nil (.inl rfl) (.builtin den_int (kept_int L h))

private theorem only_xsd {n : String} {r : Str} (h : DenotesXsd values n r) : splitName r = (some "xs".toList, n.toList) := by
  obtain ⟨a, ha, hu, hr⟩ := h
  have : ∀ a ∈ values.namespaces, a.uri = xmlSchemaUri → a.name = some "xs".toList := by decide +kernel
  rw [this a ha hu] at hr
  exact Gen.splitName_iff.2 hr

private theorem only_own {nm r : Str} (h : Denotes values exampleUri nm r) : splitName r = (some "tns".toList, nm) := by
  obtain ⟨-, a, ha, hu, hr⟩ := h
  have : ∀ a ∈ values.namespaces, a.uri = exampleUri → a.name = some "tns".toList := by decide +kernel
  rw [this a ha hu] at hr
  exact Gen.splitName_iff.2 hr

private theorem not_list {r : Str} (h : ∀ n ∈ listTypes, splitName r ≠ (some "xs".toList, n.toList)) :
    ∀ n ∈ listTypes, ¬ DenotesXsd values n r := fun n hn hd => h n hn (only_xsd hd)

private theorem two_values (L : Lib) :
    ValueOf A values exampleUri (Kept L) "tns:Limits".toList " 7 -03".toList (.list [.int 7, .int (-3)]) := by
  refine .list (den_own "Limits") limits_decl rfl (by decide +kernel)
    (.inr ⟨_, _, den_own "Limit", limit_decl.1, limit_decl.2.2.1⟩) (not_list (by decide)) (ts := ["7".toList, "-03".toList])
    ((C26_words_iff _ _).1 (by decide)) rfl ?_
  intro i t x ht hx
  match i with
  | 0 => cases ht; cases hx; exact limit_value L seven
  | 1 => cases ht; cases hx; exact limit_value L minus_three
  | _ + 2 => cases ht

/-- The hypotheses of the theorems are met by this document, and by what its types read. -/
example (L : Lib) : ∃ v, wrapped L "Limits".toList " 7 -03".toList = .ok v ∧ Represents v (.list [.int 7, .int (-3)]) := by
  have := (C79_reads_partial A values exampleUri valuesText values_grammatical values_copySafe values_ok valuesItems values_has
    values_plain values_unshadowed L (wrapped L) (wrapped_implements L) (two_values L)).2 (not_list (by decide))
  rwa [show (naming A values).type "tns:Limits".toList = "Limits".toList by decide +kernel] at this

private theorem small_restricts : Restricts A values exampleUri "tns:Small".toList "int" :=
  .restriction (den_own "Small") small_decl rfl (by decide +kernel) .nil (.inl rfl)
    (.restriction (den_own "Limit") limit_decl rfl (by decide +kernel) .nil (.inl rfl) (.builtin den_int))

example (L : Lib) (s : Str) (v : RVal) (h : wrapped L "Small".toList s = .ok v) :
    ∃ x, ValueOf A values exampleUri Literal "tns:Small".toList s x ∧ Represents v x :=
  C79_sound_partial A values exampleUri valuesText values_grammatical values_copySafe values_ok valuesItems values_has
    values_plain values_unshadowed L (wrapped L) (wrapped_implements L) small_restricts (by decide)
    (by rwa [show (naming A values).type "tns:Small".toList = "Small".toList by decide +kernel])

/-- In the union of `Small` and texts, numbers become the first variant, other texts the second. -/
example (L : Lib) : ∃ i ∈ valuesItems, i.head = "pub enum Either {".toList ∧ ∃ vs, List.Forall₂ VariantOf (readCaseLines none i.body) vs ∧
    ∃ ps v w, unionVariants vs = some ps ∧ unionParse (envOf (wrapped L)) ps "7".toList = .ok (.case "Small".toList v) ∧
      Represents v (.int 7) ∧ unionParse (envOf (wrapped L)) ps "x".toList = .ok (.case "String".toList w) ∧
      Represents w (.text "x".toList) := by
  have hd : SimpleDecl values (simple "Either" (el "union" [("memberTypes", "tns:Small xs:string")] [])) "Either".toList
      (el "union" [("memberTypes", "tns:Small xs:string")] []) := ⟨List.mem_cons_of_mem _ (List.mem_cons_of_mem _ (List.mem_cons_of_mem _ List.mem_cons_self)), rfl, by decide +kernel, rfl⟩
  have hm : MemberTypes (el "union" [("memberTypes", "tns:Small xs:string")] []) ["tns:Small".toList, "xs:string".toList] :=
    .some (s := "tns:Small xs:string".toList) (by decide +kernel) (Parse.spaceSeparated_iff.2 (by decide))
  obtain ⟨i, hi, -, -, h3, h4⟩ := C79_union_partial A values exampleUri valuesText values_grammatical values_copySafe values_ok
    valuesItems values_has values_plain values_unshadowed L (wrapped L) (wrapped_implements L) hd rfl
    (pre := []) (w := "tns:Small".toList) (post := ["xs:string".toList]) hm (not_list (by decide)) (s := "7".toList)
    (.restriction (den_own "Small") small_decl rfl (by decide +kernel) .nil (.inl rfl) (limit_value L seven)) (by simp)
  have hbody : ∀ i ∈ valuesItems, i.head = "pub enum Either {".toList → readCaseLines none i.body =
    [⟨none, "Small".toList, some "Small".toList⟩, ⟨none, "String".toList, some "String".toList⟩,
      ⟨none, "__Unknown__".toList, some "String".toList⟩] := by decide +kernel
  have hhead : i.head = "pub enum Either {".toList := h3.trans (by decide +kernel)
  have hb := hbody i hi hhead
  have hvs : List.Forall₂ VariantOf (readCaseLines none i.body) [⟨"Small".toList, some (.mk [] "Small".toList none)⟩,
      ⟨"String".toList, some (.mk [] "String".toList none)⟩, ⟨"__Unknown__".toList, some (.mk [] "String".toList none)⟩] := by
    rw [hb]
    exact .cons ⟨rfl, .inr ⟨_, _, rfl, rfl, pathOf_name (by unfold Plain; decide)⟩⟩
      (.cons ⟨rfl, .inr ⟨_, _, rfl, rfl, pathOf_name (by unfold Plain; decide)⟩⟩
      (.cons ⟨rfl, .inr ⟨_, _, rfl, rfl, pathOf_name (by unfold Plain; decide)⟩⟩ .nil))
  obtain ⟨ps, v, k1, k2, k3⟩ := h4 _ hvs
  refine ⟨i, hi, hhead, _, hvs, ps, v, .lib (.text "x".toList), k1, ?_, k3, ?_, .lib .text⟩
  · rw [k2]; exact congrArg (fun n => Res.ok (UnionVal.case n v)) (by decide +kernel)
  · cases (Option.some.inj (k1.symm.trans rfl))
    have e1 : (envOf (wrapped L)).fromStr (.mk [] "Small".toList none) "x".toList = .err := by
      show wrapped L "Small".toList _ = _
      unfold wrapped; rw [not_lib L (n := "Small") (by decide)]; rfl
    have e2 : (envOf (wrapped L)).fromStr (.mk [] "String".toList none) "x".toList = .ok (.lib (.text "x".toList)) := by
      show wrapped L "String".toList _ = _
      unfold wrapped; rw [lib_String]; rfl
    show unionParse _ [(_, _), (_, _)] _ = _
    rw [unionParse, e1]
    dsimp only
    rw [unionParse, e2]

/-- **C79** (finding) Items of a list which cannot be read are dropped without an error: `1 x 2` is no list of numbers, but
is read as the list of `1` and `2`. -/
theorem C79_list_violated : ∃ (root : Node) (uri t : Str) (is : List Item), Grammatical root ∧ CopySafe root ∧
    convertXsd A root = .ok t ∧ HasItems t is ∧ PlainNames root uri ∧ Unshadowed A root is ∧
    (∀ L R, Implements R L is → R "Limits".toList "1 x 2".toList = .ok (.many [.one (.lib (.int 1)), .one (.lib (.int 2))])) ∧
    (naming A root).type "tns:Limits".toList = "Limits".toList ∧
    ∀ x, ¬ ValueOf A root uri Literal "tns:Limits".toList "1 x 2".toList x := by
  refine ⟨values, exampleUri, valuesText, valuesItems, values_grammatical, values_copySafe, values_ok, values_has, values_plain,
    values_unshadowed, ?_, by decide +kernel, ?_⟩
  · intro L R hR
    have hread : ∀ n ty, (∃ i ∈ valuesItems, i.path = [] ∧ "UtilsTupleIo".toList ∈ i.attrs.flatMap derived ∧
        readTuple i.head = some (n, ty)) → ∀ p f, PathOf ty p → tupleFromStr (envOf R) p = .ok f → ∀ s, R n s = (f s).map .ofTup := by
      rintro n ty ⟨i, hi, h1, h2, h3⟩
      exact hR.tuple i hi h1 h2 n ty h3
    have e1 : ∀ s, R "i32".toList s =
        Res.map RVal.lib (Res.map LibVal.int (Res.ofOption (Str.parseSigned (-2147483648) 2147483647 s))) :=
      hR.lib _ _ (lib_i32 L) (values_unshadowed.items "i32" (by decide))
    have e2 := hread "Limit".toList "i32".toList (by decide +kernel) _ _ int_path rfl
    have e3 := hread "Limits".toList "Vec<Limit>".toList (by decide +kernel) _ _ (pathOf_vec limit_path) rfl
    have h1 : ∀ s, R "Limit".toList s = (R "i32".toList s).map .one := fun s => by
      rw [e2 s]; exact map_bind _ _ _
    rw [e3]
    show ((filterMapOk (R "Limit".toList) (splitWhitespace "1 x 2".toList)).bind fun vs => Res.ok (.many vs)).map RVal.ofTup = _
    have : R "Limit".toList = fun s => (Res.map RVal.lib (Res.map LibVal.int (Res.ofOption (Str.parseSigned (-2147483648) 2147483647 s)))).map .one := by
      funext s; rw [h1, e1]
    rw [this]
    rfl
  · intro x h
    have hdecl : ∀ {c d : Node} {nm : Str}, SimpleDecl values c nm d → (nm = "Limits".toList → d = limits) ∧
        (nm = "Limit".toList → d = limit) := by
      rintro c d nm ⟨hc, -, hn, hl⟩
      have hc : c ∈ [simple "Limit" limit, simple "Small" small, simple "Limits" limits,
        simple "Either" (el "union" [("memberTypes", "tns:Small xs:string")] [])] := hc
      simp only [List.mem_cons, List.not_mem_nil, or_false] at hc
      rcases hc with rfl | rfl | rfl | rfl
      · cases hl; cases hn; exact ⟨fun h => absurd h (by decide), fun _ => rfl⟩
      · cases hl; cases hn; exact ⟨fun h => absurd h (by decide), fun h => absurd h (by decide)⟩
      · cases hl; cases hn; exact ⟨fun _ => rfl, fun h => absurd h (by decide)⟩
      · cases hl; cases hn; exact ⟨fun h => absurd h (by decide), fun h => absurd h (by decide)⟩
    have hlim : ∀ y, ¬ ValueOf A values exampleUri Literal "tns:Limit".toList "x".toList y := by
      intro y h
      cases h with
      | builtin hd => exact absurd (Prod.mk.inj (only_xsd hd)).1 (by decide)
      | list hd hc ht =>
        obtain ⟨-, e⟩ := Prod.mk.inj (only_own hd)
        rw [(hdecl hc).2 (e.symm.trans rfl)] at ht
        exact absurd ht (by decide)
      | @restriction r c nm d b fs s x hd hc ht hb hf he hv =>
        obtain ⟨-, e⟩ := Prod.mk.inj (only_own hd)
        rw [(hdecl hc).2 (e.symm.trans rfl)] at hb
        obtain rfl : "xs:int".toList = b := Option.some.inj ((show limit.attr "base".toList = some "xs:int".toList by decide +kernel).symm.trans hb)
        cases hv with
        | builtin hd hlit =>
          obtain ⟨-, e⟩ := Prod.mk.inj (only_xsd hd)
          obtain rfl := String.toList_inj.1 ((show "int".toList = _ from rfl).trans e)
          have L : Lib := ⟨fun _ => [], .debug, .chrono, fun _ => false⟩
          obtain ⟨k1, k2, k3⟩ := kept_int L hlit
          obtain ⟨f, v, hf, hv, -⟩ := (C78_reads_iff_partial L (r := "i32") (by decide +kernel) k1 (by decide) k2).2 k3
          rw [lib_i32] at hf
          cases hf
          cases hv
        | restriction hd => exact absurd (Prod.mk.inj (only_own hd)).1 (by decide)
        | list hd => exact absurd (Prod.mk.inj (only_own hd)).1 (by decide)
    cases h with
    | builtin hd => exact absurd (Prod.mk.inj (only_xsd hd)).1 (by decide)
    | restriction hd hc ht =>
      obtain ⟨-, e⟩ := Prod.mk.inj (only_own hd)
      rw [(hdecl hc).1 (e.symm.trans rfl)] at ht
      exact absurd ht (by decide)
    | @list r c nm d it s ts xs hd hc ht hit _ _ hw hlen hvs =>
      obtain ⟨-, e⟩ := Prod.mk.inj (only_own hd)
      rw [(hdecl hc).1 (e.symm.trans rfl)] at hit
      obtain rfl : "tns:Limit".toList = it := Option.some.inj ((show limits.attr "itemType".toList = some "tns:Limit".toList by decide +kernel).symm.trans hit)
      obtain rfl : ["1".toList, "x".toList, "2".toList] = ts := (C26_words_iff _ _).2 hw
      obtain ⟨y, hy⟩ : ∃ y, xs[1]? = some y := ⟨_, List.getElem?_eq_getElem (by rw [← hlen]; decide)⟩
      exact hlim y (hvs 1 _ y rfl hy)

/-- **C79** (finding) A type named `vec` becomes `Vec`; the macro for a type which restricts it panics. -/
theorem C79_reserved_violated : ∃ (root : Node) (t : Str) (is : List Item), Grammatical root ∧ CopySafe root ∧
    convertXsd A root = .ok t ∧ HasItems t is ∧ (∃ i ∈ is, readTuple i.head = some ("Vec".toList, "i32".toList)) ∧
    (∃ i ∈ is, "UtilsTupleIo".toList ∈ i.attrs.flatMap derived ∧ readTuple i.head = some ("Other".toList, "Vec".toList)) ∧
    ∀ (V : Type) (E : TypeEnv V) p, PathOf "Vec".toList p → tupleFromStr E p = .panic := by
  refine ⟨doc [simple "vec" limit, simple "other" (el "restriction" [("base", "tns:vec")] [])], _, _, grammatical_of rfl (by decide +kernel),
    copySafe_of (by decide +kernel) (by decide +kernel) (by decide +kernel) (by decide +kernel) (by decide +kernel),
    okText_eq (by decide +kernel), ⟨_, Gen.lines_lns _, rfl⟩, by decide +kernel, by decide +kernel, ?_⟩
  intro V E p hp
  have hv : PathOf "Vec".toList (.mk [] "Vec".toList none) := pathOf_name (by unfold Plain; decide)
  obtain rfl := pathText_injective hp.1 hv.1 (hp.2.trans hv.2.symm)
  rfl

end Verif.Props
