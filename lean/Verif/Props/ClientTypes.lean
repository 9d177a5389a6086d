import Verif.Spec.Pieces
import Verif.Props.Client
import Verif.Props.Closed
import Verif.Lemmas.SynService
import Verif.Lemmas.DefsUnique

/-! # C101: the types which the functions of a client mention -/

namespace Verif.Props

open Verif Verif.Model Verif.Model.Wsdl Verif.Spec Verif.Spec.Wsdl Verif.RoXml Verif.Lemmas Verif.Lemmas.Parse Verif.Lemmas.Wsdl
  Verif.Lemmas.Service

open Verif.Props.Sample

/-! ## Names -/

private theorem type_own {U : UnicodeTable} {x : Option Namespace} {o : Option Str} {nm r : Str} (hr : Ref o nm r) (hx : nsPrefix x = o) :
    defaultFormatType U r x = sanitize U (filterTypeName U (Inflector.toPascalCase U nm)) := by
  unfold defaultFormatType
  rw [Gen.splitName_iff.2 hr, hx]
  cases o with
  | none => rfl
  | some p => simp

private theorem target_of {root : Node} {uri nm r : Str} (hu : ∀ a ∈ root.namespaces, ∀ b ∈ root.namespaces, a.uri = uri → b.uri = uri → a = b)
    (hd : Denotes root uri nm r) : Ref (nsPrefix (targetNamespace root)) nm r := by
  obtain ⟨hta, a, ha, hau, hra⟩ := hd
  cases hf : targetNamespace root with
  | none =>
    unfold targetNamespace at hf
    rw [hta] at hf
    exact absurd (decide_eq_true hau) (by simpa using List.find?_eq_none.1 hf a ha)
  | some b =>
    obtain ⟨uri', hu', hb⟩ := (C48_target root b).1 hf
    rw [hta] at hu'
    obtain rfl := Option.some.inj hu'
    obtain ⟨hbu, pre, post, hl, -⟩ := hb
    rw [hu b (by rw [hl]; exact List.mem_append_right _ List.mem_cons_self) a ha hbu hau]
    exact hra

private theorem written_def {U : UnicodeTable} {root c : Node} {nm : Str} {ds : List Def} (hn : c.attr "name".toList = some nm)
    (hw : Written c) (hds : GlobalDefs U root c ds) : ∃ k, (k, nm) ∈ ds := by
  have hin : ∀ nm', c.attr "name".toList = some nm' → nm' = nm := fun nm' h => by
    rw [hn] at h; exact (Option.some.inj h).symm
  have hno : ∀ {r}, c.tag = "attribute".toList → c.attr "ref".toList = some r → False := by
    intro r htag hr
    rcases hw with hw | ⟨-, hw, -⟩
    · rw [htag] at hw; exact absurd hw (by decide)
    · rw [hw] at hr; cases hr
  cases hds with
  | complexType _ h _ => obtain rfl := hin _ h; exact ⟨_, List.mem_cons_self⟩
  | choiceType _ h _ => obtain rfl := hin _ h; exact ⟨_, List.mem_cons_of_mem _ List.mem_cons_self⟩
  | simpleType _ h _ => obtain rfl := hin _ h; exact ⟨_, List.mem_cons_self⟩
  | typed _ _ h _ _ => obtain rfl := hin _ h; exact ⟨_, List.mem_cons_self⟩
  | inlineSimple _ _ h _ _ _ _ => obtain rfl := hin _ h; exact ⟨_, List.mem_cons_self⟩
  | inlineComplex _ h _ _ _ _ => obtain rfl := hin _ h; exact ⟨_, List.mem_cons_self⟩
  | inlineChoice _ h _ _ _ _ => obtain rfl := hin _ h; exact ⟨_, List.mem_cons_self⟩
  | empty _ _ h _ _ => obtain rfl := hin _ h; exact ⟨_, List.mem_cons_self⟩
  | typedSilent htag _ _ hty hnd =>
    rcases hw with hw | ⟨-, -, hw | hw⟩
    · have hdis : ∀ t ∈ ["element", "attribute"].map String.toList, t ∉ ["complexType", "simpleType"].map String.toList := by
        decide
      exact absurd hw (hdis _ htag)
    · rw [hw] at hty; cases hty
    · exact absurd hw hnd
  | reference htag hr _ => exact (hno htag hr).elim
  | referenceSilent htag hr _ => exact (hno htag hr).elim
  | «import» htag =>
    have hdis : ∀ t ∈ ["import", "include"].map String.toList, t ∉ ["complexType", "simpleType"].map String.toList ∧
        t ∉ ["element", "attribute"].map String.toList := by decide
    rcases hw with hw | ⟨hw, -⟩
    · exact absurd hw (hdis _ htag).1
    · exact absurd hw (hdis _ htag).2

/-! ## The code for a schema in a description -/

private theorem schema_code {U : UnicodeTable} {s : Node} {f : RsFile} {part : Str} (hg : Grammatical s) (hs : CopySafe s)
    (h : parseSchema U s [] = .ok f) (hp : (generateRsFile U f).1 = .ok part) :
    LexComplete part ∧ ∃ ds dss, HasDefs part ds ∧ List.Forall₂ (GlobalDefs U s) (globals s) dss ∧
      topLevel ds = dss.flatten.map fun d => (d.1, formatTypeName U (targetNamespace s) (xsdNamespace s) d.2) := by
  obtain ⟨-, types, groups, h1, -, rfl⟩ := schema_iff.1 h
  have hns : SafeNamespace (targetNamespace s) := fun ns hns => hs.namespaces ns (mem_of_target hns)
  have hst : ∀ x ∈ generatedList types, SafeTexts x := fun x hx => by
    refine copy_safeTexts x (Deep.generatedList (fun e he => ?_) x hx)
    obtain ⟨c, hc, hce⟩ := forall₂_left h1 e he
    exact parseNode_texts (sources_copySafe hs) ((sources_copySafe hs).hered _ .root c (List.mem_filter.1 hc).1)
      ((sources_copySafe hs).mono s .root) no_kids hce
  have hit : ∀ x ∈ generatedList types, IsItem x := fun x hx => by
    refine Deep.generatedList (fun e he => ?_) x hx
    obtain ⟨c, hc, hce⟩ := forall₂_left h1 e he
    have hc := (List.mem_filter.1 hc).1
    obtain ⟨k1, k2⟩ := parseNode_items (placed_grammatical hg) (.child .root hc) .root (fun a ha => absurd ha List.not_mem_nil) hce
    exact item_deep k1 (k2 (global_item hg hc))
  refine ⟨C54_lex_complete U _ part hns hst hp, _, types.map (entTop Gen.hasDoc), C36_definitions U _ part hns (fun x hx => ⟨hst x hx, hit x hx⟩) hp,
    forall₂_imp_map h1 fun c hc e he => global_defs hg hc he, ?_⟩
  rw [← entTops_flatten]
  exact topLevel_defsList types

private theorem lexComplete_append {a b : Str} (ha : LexComplete a) (hb : LexComplete b) : LexComplete (a ++ b) := by
  unfold LexComplete at *
  rw [Gen.lexRun_append, ha, Option.bind_some, hb]

private theorem lexComplete_flatten : ∀ {l : List Str}, (∀ a ∈ l, LexComplete a) → LexComplete l.flatten
  | [], _ => rfl
  | a :: l, h => lexComplete_append (h a List.mem_cons_self) (lexComplete_flatten fun b hb => h b (List.mem_cons_of_mem _ hb))

/-- The code of a client: that for its schemas, and the functions. -/
private theorem client_code {U : UnicodeTable} {root : Node} {d : Definitions} (hd : IsDefinitions root d) {ord : Definitions → List PortType}
    {t : Str} (h : wsdlCode U root ord = .ok t) : ∃ parts fns, t = parts.flatten ++ fns ∧ Wsdl.generate U d (ord d) = .ok fns ∧
      List.Forall₂ (fun s part => ∃ f, parseSchema U s [] = .ok f ∧ (generateRsFile U f).1 = .ok part) (embedded root) parts := by
  unfold wsdlCode at h
  rw [(definitions_iff root d).2 hd, Res.ok_bind, schemas_code U root d hd] at h
  obtain ⟨code, hc, h⟩ := Res.bind_eq_ok.1 h
  obtain ⟨fns, hf, h⟩ := Res.bind_eq_ok.1 h
  obtain rfl := Res.ok.inj h
  rw [mapM'_ok] at hc
  exact ⟨code, fns, by simp, hf, hc.imp fun s part h => Res.bind_eq_ok.1 h⟩

/-- **C101** The code of a client begins with that of its schemas, in order; the definitions at the top level of each are those of the
global declarations of the schema, one after the other, and nothing else. -/
theorem C101_definitions_partial (U : UnicodeTable) {root : Node} {d : Definitions} (hd : IsDefinitions root d)
    (ord : Definitions → List PortType) {t : Str} (h : wsdlCode U root ord = .ok t)
    (hs : ∀ s ∈ embedded root, Grammatical s ∧ CopySafe s) :
    ∃ parts fns, t = parts.flatten ++ fns ∧ Wsdl.generate U d (ord d) = .ok fns ∧
      List.Forall₂ (fun s part => LexComplete part ∧ ∃ ds dss, HasDefs part ds ∧ List.Forall₂ (GlobalDefs U s) (globals s) dss ∧
        topLevel ds = dss.flatten.map fun d => (d.1, formatTypeName U (targetNamespace s) (xsdNamespace s) d.2)) (embedded root) parts := by
  obtain ⟨parts, fns, e, hf, hp⟩ := client_code hd h
  refine ⟨parts, fns, e, hf, ?_⟩
  generalize embedded root = ss at hs hp
  clear e
  induction hp with
  | nil => exact .nil
  | cons h _ ih =>
    obtain ⟨f, h1, h2⟩ := h
    obtain ⟨k1, k2⟩ := hs _ List.mem_cons_self
    exact .cons (schema_code k1 k2 h1 h2) (ih fun s hm => hs s (List.mem_cons_of_mem _ hm))

/-- **C101** What a reference of a message is written as is defined in the code for the schema: if it refers to a declaration which
becomes a definition, in a schema with the same target namespace as the description. -/
theorem C101_reference_partial (U : UnicodeTable) {root : Node} {d : Definitions} (hd : IsDefinitions root d)
    (ord : Definitions → List PortType) {t : Str} (h : wsdlCode U root ord = .ok t)
    (hs : ∀ s ∈ embedded root, Grammatical s ∧ CopySafe s) {s : Node} {r : Str} (hr : Provided root s r) :
    DefinedIn t (defaultFormatType U r (targetNamespace root)) := by
  obtain ⟨parts, fns, rfl, -, hp⟩ := client_code hd h
  cases hr with
  | @mk uri nm c hm hpl hu hden hden' hc hn hw =>
    have hcolon := hpl.names c hc nm hn
    have hall : ∀ part ∈ parts, LexComplete part := fun part hm => by
      obtain ⟨s, hs', f, h1, h2⟩ := forall₂_left hp part hm
      exact (schema_code (hs s hs').1 (hs s hs').2 h1 h2).1
    obtain ⟨part, hpm, f, h1, h2⟩ := forall₂_right hp s hm
    obtain ⟨k1, ds, dss, k2, k3, k4⟩ := schema_code (hs s hm).1 (hs s hm).2 h1 h2
    obtain ⟨es, hes, hge⟩ := forall₂_right k3 c hc
    obtain ⟨k, hk⟩ := written_def hn hw hge
    obtain ⟨x, p, hx, hxn⟩ := xsd_found hpl
    have hb := (own_reference U hpl.prefixes hx (.inl (by rw [hxn]; simp)) hpl.target
      (fun a ha b hb e1 e2 => hpl.uris a ha b hb (e1.trans e2.symm)) hden' hcolon).1
    have heq : formatTypeName U (targetNamespace s) (xsdNamespace s) nm = defaultFormatType U r (targetNamespace root) := by
      rw [type_own (target_of hu hden) rfl]
      unfold formatTypeName
      rw [hb]
      show defaultFormatType U nm _ = _
      unfold defaultFormatType
      rw [Gen.splitName_iff.2 (.bare hcolon)]
    obtain ⟨l1, l2, rfl⟩ := List.append_of_mem hpm
    refine ⟨l1.flatten, part, l2.flatten ++ fns, ds, k, by simp, lexComplete_flatten fun a ha => hall a (List.mem_append_left _ ha), k1, k2, ?_⟩
    rw [k4, ← heq]
    exact List.mem_map.2 ⟨(k, nm), List.mem_flatten.2 ⟨es, hes, hk⟩, rfl⟩

private theorem defined_written {U : UnicodeTable} {s c : Node} {ds : List Def} {x : Def} (hr : c.attr "ref".toList = none)
    (h : GlobalDefs U s c ds) (hx : x ∈ ds) : Written c := by
  cases h with
  | complexType h _ _ => exact .inl (by rw [h]; decide)
  | choiceType h _ _ => exact .inl (by rw [h]; decide)
  | simpleType h _ _ => exact .inl (by rw [h]; decide)
  | typed h _ _ _ hd => exact .inr ⟨h, hr, .inr hd⟩
  | inlineSimple h _ _ ht _ _ _ => exact .inr ⟨h, hr, .inl ht⟩
  | inlineComplex h _ ht _ _ _ => exact .inr ⟨by rw [h]; decide, hr, .inl ht⟩
  | inlineChoice h _ ht _ _ _ => exact .inr ⟨by rw [h]; decide, hr, .inl ht⟩
  | empty h _ _ ht _ => exact .inr ⟨h, hr, .inl ht⟩
  | typedSilent => exact nomatch hx
  | reference _ h _ => rw [hr] at h; cases h
  | referenceSilent => exact nomatch hx
  | «import» => exact nomatch hx

/-- **C101** Whether it is defined, exactly: if nothing else in the schema has a similar name, what a reference of a message is written
as is defined at the top level of the code for the schema if and only if the declaration is one which becomes a definition. -/
theorem C101_reference_iff (U : UnicodeTable) {root : Node} {d : Definitions} (hd : IsDefinitions root d)
    (ord : Definitions → List PortType) {t : Str} (h : wsdlCode U root ord = .ok t)
    (hs : ∀ s ∈ embedded root, Grammatical s ∧ CopySafe s) {s c : Node} {uri nm r : Str} (hm : s ∈ embedded root)
    (hpl : Verif.Spec.PlainNames s uri)
    (hu : ∀ a ∈ root.namespaces, ∀ b ∈ root.namespaces, a.uri = uri → b.uri = uri → a = b)
    (hden : Denotes root uri nm r) (hden' : Denotes s uri nm r) (hc : c ∈ globals s) (hn : c.attr "name".toList = some nm)
    (href : c.attr "ref".toList = none)
    (hsep : ∀ c' ∈ globals s, ∀ ds, GlobalDefs U s c' ds → ∀ x ∈ ds,
      c' = c ∨ ':' ∉ x.2 ∧ skeleton asciiAlnum x.2 ≠ skeleton asciiAlnum nm) :
    ∃ a part b ds, t = a ++ (part ++ b) ∧ SchemaCode U s part ∧ HasDefs part ds ∧
      ((∃ k, (k, defaultFormatType U r (targetNamespace root)) ∈ topLevel ds) ↔ Written c) := by
  obtain ⟨parts, fns, rfl, -, hp⟩ := client_code hd h
  have hcolon := hpl.names c hc nm hn
  obtain ⟨part, hpm, f, h1, h2⟩ := forall₂_right hp s hm
  obtain ⟨-, ds, dss, k2, k3, k4⟩ := schema_code (hs s hm).1 (hs s hm).2 h1 h2
  obtain ⟨l1, l2, rfl⟩ := List.append_of_mem hpm
  refine ⟨l1.flatten, part, l2.flatten ++ fns, ds, by simp, ⟨f, h1, h2⟩, k2, ?_⟩
  obtain ⟨x, p, hx, hxn⟩ := xsd_found hpl
  have hown : ∀ n : Str, ':' ∉ n → formatTypeName U (targetNamespace s) (xsdNamespace s) n = defaultFormatType U n none := by
    intro n hcol
    obtain ⟨hta, a, ha, hau, hra⟩ := hden'
    have : ∃ r', Ref a.name n r' := by
      generalize a.name = o at hra
      cases hra with
      | bare _ => exact ⟨n, .bare hcol⟩
      | prefixed hp => exact ⟨_, .prefixed hp⟩
    obtain ⟨r', hr'⟩ := this
    have hb := (own_reference U hpl.prefixes hx (.inl (by rw [hxn]; simp)) hpl.target
      (fun a ha b hb e1 e2 => hpl.uris a ha b hb (e1.trans e2.symm)) ⟨hta, a, ha, hau, hr'⟩ hcol).1
    unfold formatTypeName
    rw [hb]
    show defaultFormatType U n _ = _
    unfold defaultFormatType
    rw [Gen.splitName_iff.2 (.bare hcol)]
  have heq : defaultFormatType U r (targetNamespace root) = defaultFormatType U nm none := by
    rw [type_own (target_of hu hden) rfl]
    unfold defaultFormatType
    rw [Gen.splitName_iff.2 (.bare hcolon)]
  rw [k4, heq]
  constructor
  · rintro ⟨k, hk⟩
    obtain ⟨⟨k', n⟩, hmem, e⟩ := List.mem_map.1 hk
    obtain ⟨es, hes, hx'⟩ := List.mem_flatten.1 hmem
    obtain ⟨c', hc', hg⟩ := forall₂_left k3 es hes
    rcases hsep c' hc' es hg _ hx' with rfl | ⟨q1, q2⟩
    · exact defined_written href hg hx'
    · have e2 := (Prod.mk.inj e).2
      rw [hown n q1] at e2
      exact absurd e2 (C31_type_partial U n nm q1 hcolon q2 none)
  · intro hw
    obtain ⟨es, hes, hge⟩ := forall₂_right k3 c hc
    obtain ⟨k, hk⟩ := written_def hn hw hge
    exact ⟨k, List.mem_map.2 ⟨(k, nm), List.mem_flatten.2 ⟨es, hes, hk⟩, by rw [hown nm hcolon]⟩⟩

private theorem arg_part {root i : Node} {x : Option Node} {as : List Arg} (hr : Refers root i x) (h : Args x as) :
    ∀ a ∈ as, ∃ m ∈ kids root "message", ∃ p ∈ kids m "part", ∃ k ∈ ["element", "type"], p.attr k.toList = some a.2 := by
  cases h with
  | none => exact fun _ h => nomatch h
  | @single m p t h1 h2 =>
    intro a ha
    obtain rfl := List.mem_singleton.1 ha
    exact ⟨m, refers_mem hr, p, by rw [h1]; exact List.mem_cons_self, "element", by decide, h2⟩
  | @parts m _ _ h2 =>
    intro a ha
    obtain ⟨p, hp, h⟩ := forall₂_left h2 a ha
    cases h with
    | element _ k => exact ⟨m, refers_mem hr, p, hp, "element", by decide, k⟩
    | type _ _ k => exact ⟨m, refers_mem hr, p, hp, "type", by decide, k⟩

private theorem signature_parts {root : Node} {op : Operation} {sig : Sig} (h : Signature root op sig) :
    (∀ a ∈ sig.args, ∃ m ∈ kids root "message", ∃ p ∈ kids m "part", ∃ k ∈ ["element", "type"], p.attr k.toList = some a.2) ∧
    ∀ t, sig.ret = some t → ∃ m ∈ kids root "message", ∃ p ∈ kids m "part", ∃ k ∈ ["element", "type"], p.attr k.toList = some t := by
  cases h with
  | oneWay h1 h2 h3 => exact ⟨arg_part h1 h2, fun t ht => by rw [h3] at ht; cases ht⟩
  | requestResponse h1 h2 h3 h4 =>
    refine ⟨arg_part h1 h3, fun t ht => ?_⟩
    rw [ht] at h4
    generalize hx : some t = o at h4
    cases h4 with
    | none => cases hx
    | @part m p ps k => exact ⟨m, refers_mem h2, p, by rw [k]; exact List.mem_cons_self, "element", by decide, rfl⟩

/-- **C101** All types in the functions of a client, except that of the transport and results which are missing (C97), are defined in
the code, if all messages refer to declarations which become definitions. -/
theorem C101_functions_partial (U : UnicodeTable) {root : Node} {d : Definitions} (hd : IsDefinitions root d)
    (ord : Definitions → List PortType) {t : Str} (h : wsdlCode U root ord = .ok t)
    (hs : ∀ s ∈ embedded root, Grammatical s ∧ CopySafe s) (hsp : SafeParts root)
    (hr : ∀ m ∈ kids root "message", ∀ p ∈ kids m "part", ∀ k ∈ ["element", "type"], ∀ r, p.attr k.toList = some r →
      ∃ s, Provided root s r) :
    ∃ code fns, t = code ++ fns ∧ ∀ ls, Lines fns ls →
      List.Forall₂ (fun op f => (∃ v, op.node.attr "name".toList = some v ∧ f.name = defaultFormatName U v) ∧
        (∀ p ∈ f.params.tail, DefinedIn t p.2) ∧ (f.ret = [] ∨ DefinedIn t f.ret))
        ((ord d).flatMap PortType.operations) (readFns (.out []) ls) := by
  obtain ⟨parts, fns, e, hf, -⟩ := client_code hd h
  refine ⟨parts.flatten, fns, e, fun ls hl => (functions_for hd hf hsp hl).imp ?_⟩
  rintro op f ⟨sig, h1, h2⟩
  obtain ⟨k1, k2⟩ := signature_parts h1
  refine ⟨⟨sig.name, by cases h1 <;> assumption, h2.1⟩, fun p hp => ?_, ?_⟩
  · rw [h2.2.2.1, List.tail_cons] at hp
    obtain ⟨a, ha, rfl⟩ := List.mem_map.1 hp
    obtain ⟨m, hm, p, hp, k, hk, hv⟩ := k1 a ha
    obtain ⟨s, hs'⟩ := hr m hm p hp k hk _ hv
    exact C101_reference_partial U hd ord h hs hs'
  · rw [h2.2.2.2.1]
    cases hret : sig.ret with
    | none =>
      refine .inl ?_
      show defaultFormatType U [] _ = []
      cases targetNamespace root with
      | none => rfl
      | some n => obtain ⟨nm, u⟩ := n; cases nm <;> rfl
    | some r =>
      obtain ⟨m, hm, p, hp, k, hk, hv⟩ := k2 r hret
      obtain ⟨s, hs'⟩ := hr m hm p hp k hk _ hv
      exact .inr (C101_reference_partial U hd ord h hs hs')

/-! ## Example -/

private def part (n t : String) : Node := el "part" [("name", n), ("element", t)] []
private def operation : Node := el "operation" [("name", "GetIt")] [el "input" [("message", "tns:In")] [], el "output" [("message", "tns:Out")] []]
private def schema : Node := doc
  [el "element" [("name", "X")] [],
   el "element" [("name", "getIt")] [el "complexType" [] [el "sequence" [] [el "element" [("name", "z"), ("type", "xs:date")] []]]],
   el "complexType" [("name", "Answer")] [el "sequence" [] [el "element" [("name", "a"), ("type", "xs:int")] []]],
   el "element" [("name", "Z"), ("type", "tns:Answer")] []]
private def order (d : Definitions) : List PortType := d.portTypes.map (·.2)
private def aUri : Str := "http://example.com/a".toList
private def service (s : Node) (ns : List Namespace) (i o : Node) : Node :=
  .element none "definitions".toList [⟨none, "targetNamespace".toList, aUri⟩] ns
    [el "types" [] [s], el "message" [("name", "In")] [i, part "x" "tns:X"], el "message" [("name", "Out")] [o],
     el "portType" [("name", "P")] [operation]]
private def both : List Namespace := [⟨some "tns".toList, aUri⟩, ⟨some "b".toList, "http://example.com/b".toList⟩]
private def good : Node := service schema both (part "request" "tns:getIt") (el "part" [("name", "out"), ("element", "tns:X")] [])

private theorem schema_ok : Grammatical schema ∧ CopySafe schema :=
  ⟨grammatical_of rfl (by decide +kernel),
    copySafe_of (by decide +kernel) (by decide +kernel) (by decide +kernel) (by decide +kernel) (by decide +kernel)⟩

private theorem schema_plain : Verif.Spec.PlainNames schema aUri where
  prefixes := by unfold UniquePrefixes; decide
  uris := by decide
  xsd := ⟨_, List.mem_cons_self, rfl, by decide⟩
  target := by decide
  names c hc nm hn := by
    have : ∀ c ∈ globals schema, ∀ nm ∈ (c.attr "name".toList).toList, ':' ∉ nm := by decide +kernel
    exact this c hc nm (Option.mem_toList.2 hn)

private theorem provided {i o c : Node} {nm r : Str} (hr : r = "tns:".toList ++ nm) (hc : c ∈ globals schema)
    (hn : c.attr "name".toList = some nm) (ht : c.tag = "element".toList ∧ c.attr "ref".toList = none ∧ c.attr "type".toList = none) :
    Provided (service schema both i o) schema r := by
  have href : Ref (some "tns".toList) nm r := by rw [hr]; exact .prefixed (p := "tns".toList) (n := nm) (by decide)
  refine .mk (uri := aUri) (nm := nm) (c := c) (List.mem_singleton.2 rfl) schema_plain ?_ ⟨rfl, _, List.mem_cons_self, rfl, href⟩
    ⟨rfl, _, List.mem_cons_of_mem _ List.mem_cons_self, rfl, href⟩ hc hn (.inr ⟨by rw [ht.1]; decide, ht.2.1, .inl ht.2.2⟩)
  show ∀ a ∈ both, ∀ b ∈ both, _
  decide

/-- A service with a schema, two messages and an operation. -/
example : (∃ d t, IsDefinitions good d ∧ wsdlCode A good order = .ok t) ∧ (∀ s ∈ embedded good, Grammatical s ∧ CopySafe s) ∧
    SafeParts good ∧ ∀ m ∈ kids good "message", ∀ p ∈ kids m "part", ∀ k ∈ ["element", "type"], ∀ r, p.attr k.toList = some r → ∃ s, Provided good s r := by
  refine ⟨?_, ?_, safeParts_of (by decide +kernel) (by decide +kernel), ?_⟩
  · obtain ⟨t, ht⟩ := ok_of (r := wsdlCode A good order) (by decide +kernel)
    exact ⟨_, t, (definitions_iff _ _).1 (rfl : Definitions.new good = .ok _), ht⟩
  · intro s hs
    obtain rfl := List.mem_singleton.1 hs
    exact schema_ok
  · intro m hm p hp k hk r hr
    have hall : ∀ m ∈ kids good "message", ∀ p ∈ kids m "part", ∀ k ∈ ["element", "type"], ∀ r ∈ (p.attr k.toList).toList,
        r = "tns:X".toList ∨ r = "tns:getIt".toList := by decide +kernel
    rcases hall m hm p hp k hk r (Option.mem_toList.2 hr) with rfl | rfl
    · exact ⟨schema, provided (nm := "X".toList) rfl List.mem_cons_self rfl ⟨rfl, rfl, rfl⟩⟩
    · exact ⟨schema, provided (nm := "getIt".toList) rfl (List.mem_cons_of_mem _ List.mem_cons_self) rfl ⟨rfl, rfl, rfl⟩⟩

/-! ## Violations -/

private def silent : Node := service schema both (part "request" "tns:getIt") (part "out" "tns:Z")
private def foreign : Node := service
  (.element (some xsdUri) "schema".toList [⟨none, "targetNamespace".toList, "http://example.com/b".toList⟩]
    [⟨some "xs".toList, xsdUri⟩, ⟨some "b".toList, "http://example.com/b".toList⟩] [el "element" [("name", "X")] []])
  both (part "request" "b:X") (part "out" "b:X")

/-- Nothing is called like the element `Z`, which has a type and no documentation: it is not defined. -/
example : ∃ t a part b ds, wsdlCode A silent order = .ok t ∧ t = a ++ (part ++ b) ∧ SchemaCode A schema part ∧ HasDefs part ds ∧
    ¬ ∃ k, (k, defaultFormatType A "tns:Z".toList (targetNamespace silent)) ∈ topLevel ds := by
  obtain ⟨t, ht⟩ := ok_of (r := wsdlCode A silent order) (by decide +kernel)
  have href : Ref (some "tns".toList) "Z".toList "tns:Z".toList := .prefixed (p := "tns".toList) (n := "Z".toList) (by decide)
  obtain ⟨a, part, b, ds, h1, h2, h3, h4⟩ := C101_reference_iff A ((definitions_iff _ _).1 (rfl : Definitions.new silent = .ok _)) order ht
    (fun s hs => by obtain rfl := List.mem_singleton.1 hs; exact schema_ok)
    (s := schema) (c := el "element" [("name", "Z"), ("type", "tns:Answer")] []) (uri := aUri) (nm := "Z".toList)
    (r := "tns:Z".toList) (List.mem_singleton.2 rfl) schema_plain (by show ∀ a ∈ both, ∀ b ∈ both, _; decide)
    ⟨rfl, _, List.mem_cons_self, rfl, href⟩ ⟨rfl, _, List.mem_cons_of_mem _ List.mem_cons_self, rfl, href⟩
    (List.mem_cons_of_mem _ (List.mem_cons_of_mem _ (List.mem_cons_of_mem _ List.mem_cons_self))) rfl rfl
    (fun c' hc' es hg x hx => .inr (by
      obtain ⟨f, hf⟩ : ∃ f, parseSchema A schema [] = .ok f := ⟨_, rfl⟩
      obtain ⟨-, types, groups, k1, -, rfl⟩ := schema_iff.1 hf
      obtain ⟨e, he, hce⟩ := forall₂_right k1 c' hc'
      rw [globalDefs_unique hg (global_defs schema_ok.1 hc' hce)] at hx
      have hall : ∀ e ∈ (okFile (parseSchema A schema [])).types, ∀ x ∈ entTop Gen.hasDoc e,
          ':' ∉ x.2 ∧ skeleton asciiAlnum x.2 ≠ skeleton asciiAlnum "Z".toList := by decide +kernel
      rw [hf] at hall
      exact hall e he x hx))
  refine ⟨t, a, part, b, ds, ht, h1, h2, h3, fun hk => ?_⟩
  have := h4.1 hk
  revert this
  rintro (h | ⟨-, -, h | h⟩)
  · exact absurd h (by decide)
  · cases h
  · obtain ⟨s, -, -, h, -⟩ := h
    exact absurd h (by show none ≠ some s; exact nofun)

/-- **C101** (violated) An element with a type is not defined (unless it has a comment), but functions mention it. -/
theorem C101_typed_violated : ∃ root s c t, s ∈ embedded root ∧ Grammatical s ∧ c ∈ globals s ∧ c.tag = "element".toList ∧
    c.attr "name".toList = some "Z".toList ∧ wsdlCode A root order = .ok t ∧
    HasDefs t [([], .struct, "X".toList), ([], .struct, "GetIt".toList), ([], .struct, "Answer".toList)] ∧
    (readFns (.out []) (Str.splitOn '\n' t)).map (·.ret) = ["Z".toList] := by
  refine ⟨silent, schema, el "element" [("name", "Z"), ("type", "tns:Answer")] [], _, List.mem_singleton.2 rfl, schema_ok.1, ?_, rfl, rfl, okText_eq (r := wsdlCode A silent order) (by decide +kernel), ?_, ?_⟩
  · exact List.mem_cons_of_mem _ (List.mem_cons_of_mem _ (List.mem_cons_of_mem _ List.mem_cons_self))
  · exact ⟨_, Gen.lines_lns _, by decide +kernel, by decide +kernel⟩
  · decide +kernel

/-- **C101** (violated) A type of a schema with another target namespace is looked for in a module which does not exist. -/
theorem C101_foreign_violated : ∃ root s c t, s ∈ embedded root ∧ Grammatical s ∧ c ∈ globals s ∧ Written c ∧
    c.attr "name".toList = some "X".toList ∧ wsdlCode A root order = .ok t ∧ HasDefs t [([], .struct, "X".toList)] ∧
    (readFns (.out []) (Str.splitOn '\n' t)).map (·.ret) = ["b::X".toList] := by
  refine ⟨foreign, _, _, _, List.mem_singleton.2 rfl, grammatical_of rfl (by decide +kernel), List.mem_singleton.2 rfl,
    .inr ⟨by decide, rfl, .inl rfl⟩, rfl, okText_eq (r := wsdlCode A foreign order) (by decide +kernel), ?_, ?_⟩
  · exact ⟨_, Gen.lines_lns _, by decide +kernel, by decide +kernel⟩
  · decide +kernel

end Verif.Props
