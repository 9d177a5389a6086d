import Verif.Props.Syntax
import Verif.Lemmas.SynService

/-! # C97: the code for a service description is Rust -/

namespace Verif.Props

open Verif Verif.Model Verif.Model.Wsdl Verif.Spec Verif.Spec.Wsdl Verif.RoXml Verif.Lemmas Verif.Lemmas.Parse Verif.Lemmas.Wsdl

open Verif.Props.Sample

/-- **C97** The code for a service description with plain names is a sequence of Rust items and asynchronous functions if and
only if all operations give something back. -/
theorem C97_document_partial (U : UnicodeTable) (root : Node) (d : Definitions) (ord : Definitions → List PortType) (t : Str)
    (hn : Syn.PlainService U root) (hd : IsDefinitions root d) (ho : ∀ p ∈ ord d, p ∈ d.portTypes.map (·.2))
    (h : wsdlCode U root ord = .ok t) :
    Syn.IsClient t ↔ ∀ p ∈ ord d, ∀ op ∈ p.operations, Syn.Answers root op :=
  Verif.Lemmas.Syn.service_client hn hd ho h

/-- **C97** In the code of a client no `<` is followed by a comma. -/
theorem C97_gap (t : Str) (a r : List Syn.Tok) (h : Syn.IsClient t) : ¬ Syn.Lexed t (a ++ Syn.pt "<" :: Syn.pt "," :: r) :=
  fun hl => Verif.Lemmas.Syn.client_no_gap hl h

private theorem async_words {t : List Syn.Tok} (h : Syn.AsyncFn t) (w : Str) (hw : .word w ∈ t) :
    LegalIdent w ∨ w ∈ (Verif.Lemmas.Syn.reserved ++ ["async", "await"]).map String.toList := by
  have key : ∀ {l : List Syn.Tok}, Verif.Lemmas.Syn.WordsOk l → .word w ∈ l →
      LegalIdent w ∨ w ∈ (Verif.Lemmas.Syn.reserved ++ ["async", "await"]).map String.toList := fun h hm => by
    rcases h w hm with h | h
    · exact .inl h
    · refine .inr ?_
      rw [List.map_append]
      exact List.mem_append_left _ h
  cases h with
  | @mk n g b t e ps h1 h2 h3 h4 h5 h6 =>
    have hps : Verif.Lemmas.Syn.WordsOk (Syn.commas ps) := Verif.Lemmas.Syn.wordsOk_commas fun p hp => by
      cases h4 p hp with
      | mk k1 k2 => exact Verif.Lemmas.Syn.wordsOk_word k1 (Verif.Lemmas.Syn.wordsOk_op (Verif.Lemmas.Syn.wordsOk_op (Verif.Lemmas.Syn.ty_words k2)))
    simp only [List.cons_append, List.append_assoc, List.mem_cons, List.mem_append, Syn.Tok.word.injEq, reduceCtorEq, false_or,
      List.not_mem_nil, or_false] at hw
    rcases hw with rfl | rfl | rfl | rfl | rfl | hw | hw | hw | hw | rfl
    · exact .inr (by decide)
    · exact .inr (by decide)
    · exact .inr (by decide)
    · exact .inl h1
    · exact .inl h2
    · exact key (Verif.Lemmas.Syn.path_words h3) hw
    · exact key hps hw
    · exact key (Verif.Lemmas.Syn.ty_words h5) hw
    · exact key (Verif.Lemmas.Syn.operand_words h6) hw
    · exact .inr (by decide)

/-- **C97** The words of the code of a client are identifiers or one of the keywords which occur in items and functions. -/
theorem C97_words (t : Str) (ts : List Syn.Tok) (w : Str) (h : Syn.IsClient t) (hl : Syn.Lexed t ts) (hw : .word w ∈ ts) :
    LegalIdent w ∨ w ∈ ["self", "Self", "super", "crate", "return", "if", "pub", "fn", "struct", "enum", "type", "impl", "for",
      "use", "mod", "async", "await"].map String.toList := by
  obtain ⟨us, h1, h2⟩ := h
  obtain rfl := C96_determined t ts us hl h1
  clear hl h1
  induction h2 with
  | nil => cases hw
  | cons h _ ih =>
    rcases List.mem_append.1 hw with hw | hw
    · rcases h with h | h
      · rcases Verif.Lemmas.Syn.item_words h w hw with h | h
        · exact .inl h
        · refine .inr (List.mem_append_left (["async", "await"].map String.toList) h)
      · exact async_words h w hw
    · exact ih hw

/-- **C97** Every sequence of items is the code of a client. -/
theorem C97_items (t : Str) (h : Syn.IsRust t) : Syn.IsClient t := by
  obtain ⟨ts, h1, h2⟩ := h
  exact ⟨ts, h1, Verif.Lemmas.Syn.many_imp (fun _ => .inl) h2⟩

/-! ## Documents -/

private def part (n t : String) : Node := el "part" [("name", n), ("element", t)] []
private def getIt : Node := el "operation" [("name", "GetIt")] [el "input" [("message", "tns:In")] [], el "output" [("message", "tns:Out")] []]
private def tell : Node := el "operation" [("name", "Tell")] [el "input" [("message", "tns:In")] []]
private def schema : Node := doc [el "element" [("name", "X")] [], el "element" [("name", "Y")] [el "complexType" [] [el "sequence" [] [el "element" [("name", "z"), ("type", "xs:date")] []]]]]
private def order (d : Definitions) : List PortType := d.portTypes.map (·.2)
private def service (q : String) (ops : List Node) : Node := el "definitions" []
  [el "types" [] [schema], el "message" [("name", "In")] [part "x" "tns:X", part q "tns:Y"],
   el "message" [("name", "Out")] [part "y" "tns:Y"], el "portType" [("name", "P")] ops]

private theorem schema_plain : Grammatical schema ∧ CopySafe schema ∧ Syn.PlainNames A schema :=
  ⟨grammatical_of rfl (by decide +kernel),
    copySafe_of (by decide +kernel) (by decide +kernel) (by decide +kernel) (by decide +kernel) (by decide +kernel),
    plainNames_of (by decide +kernel) (by decide +kernel) (by decide +kernel) (by decide +kernel) (by decide +kernel)
      (by decide +kernel) (by decide +kernel)⟩

private theorem plainService_of {root : Node} (h0 : embedded root = [schema])
    (h1 : ∀ p ∈ kids root "portType", ∀ o ∈ kids p "operation", ∀ v ∈ (o.attr "name".toList).toList, plainB v = true)
    (h2 : ∀ m ∈ kids root "message", (kids m "part").length ≠ 1 → ∀ p ∈ kids m "part", ∀ v ∈ (p.attr "name".toList).toList,
      Verif.Lemmas.Syn.legalB v = true)
    (h3 : ∀ m ∈ kids root "message", ∀ p ∈ kids m "part", ∀ a ∈ ["element", "type"], ∀ v ∈ (p.attr a.toList).toList,
      plainB (splitName v).2 = true ∧ ∀ q ∈ (splitName v).1.toList, Verif.Lemmas.Syn.legalB q = true) : Syn.PlainService A root where
  schemas s hs := by rw [h0] at hs; obtain rfl := List.mem_singleton.1 hs; exact schema_plain
  operations p hp o ho v hv := plain_of (h1 p hp o ho v (Option.mem_toList.2 hv))
  parts m hm hl p hp v hv := Verif.Lemmas.Syn.legal_of (h2 m hm hl p hp v (Option.mem_toList.2 hv))
  refs m hm p hp a ha v hv := ref_of (h3 m hm p hp a ha v (Option.mem_toList.2 hv))

private theorem answers_getIt (q : String) (ops : List Node) : Syn.Answers (service q ops)
    ⟨getIt, .requestResponse (el "input" [("message", "tns:In")] []) (el "output" [("message", "tns:Out")] []) []⟩ :=
  .mk (m := el "message" [("name", "Out")] [part "y" "tns:Y"]) (p := part "y" "tns:Y") (ps := [])
    (.found (r := "tns:Out".toList) (name := "Out".toList) rfl ⟨by decide, .inr ⟨"tns".toList, by decide⟩⟩
      (by show _ ∈ [_, _]; simp) rfl) rfl rfl

/-- The theorem applies to a document with a schema, messages and an operation. -/
example : ∃ t, wsdlCode A (service "z" [getIt]) order = .ok t ∧ Syn.IsClient t := by
  have hd : IsDefinitions (service "z" [getIt]) _ := (definitions_iff _ _).1 (rfl : Definitions.new (service "z" [getIt]) = .ok _)
  obtain ⟨t, ht⟩ := ok_of (r := wsdlCode A (service "z" [getIt]) order) (by decide +kernel)
  refine ⟨t, ht, (C97_document_partial A _ _ order t (plainService_of rfl (by decide +kernel) (by decide +kernel) (by decide +kernel)) hd
    (fun _ h => h) ht).2 ?_⟩
  intro p hp op hop
  obtain rfl := List.mem_singleton.1 hp
  obtain rfl := List.mem_singleton.1 hop
  exact answers_getIt _ _

/-! ## Violations -/

/-- **C97** (violated) The function for a one-way operation is not Rust. -/
theorem C97_one_way_violated : ∃ root t, Syn.PlainService A root ∧ wsdlCode A root order = .ok t ∧ ¬ Syn.IsClient t := by
  have hd : IsDefinitions (service "z" [tell]) _ := (definitions_iff _ _).1 (rfl : Definitions.new (service "z" [tell]) = .ok _)
  obtain ⟨t, ht⟩ := ok_of (r := wsdlCode A (service "z" [tell]) order) (by decide +kernel)
  have hp : Syn.PlainService A (service "z" [tell]) := plainService_of rfl (by decide +kernel) (by decide +kernel) (by decide +kernel)
  refine ⟨_, t, hp, ht, fun h => ?_⟩
  have := (C97_document_partial A _ _ order t hp hd (fun _ h => h) ht).1 h _ (List.mem_singleton.2 rfl) _ (List.mem_singleton.2 rfl)
  cases this

private def toks (t : Str) : List Syn.Tok := (Verif.Lemmas.Syn.lexFn t.length t).getD []

/-- **C97** (violated) Nor is the code if a part is called like a keyword: the names of parts are not changed. -/
theorem C97_part_violated : ∃ root d t, IsDefinitions root d ∧ (∀ p ∈ order d, ∀ op ∈ p.operations, Syn.Answers root op) ∧
    wsdlCode A root order = .ok t ∧ ¬ Syn.IsClient t := by
  refine ⟨service "match" [getIt], _, _, (definitions_iff _ _).1 (rfl : Definitions.new (service "match" [getIt]) = .ok _), ?_,
    okText_eq (by decide +kernel), fun h => ?_⟩
  · intro p hp op hop
    obtain rfl := List.mem_singleton.1 hp
    obtain rfl := List.mem_singleton.1 hop
    exact answers_getIt _ _
  · have hl : (Verif.Lemmas.Syn.lexFn (okText (wsdlCode A (service "match" [getIt]) order)).length
        (okText (wsdlCode A (service "match" [getIt]) order))).isSome = true := by decide +kernel
    have hw : (toks (okText (wsdlCode A (service "match" [getIt]) order))).contains (.word "match".toList) = true := by decide +kernel
    obtain ⟨ts, hts⟩ := Option.isSome_iff_exists.1 hl
    rw [toks, hts] at hw
    rcases C97_words _ ts "match".toList h (Verif.Lemmas.Syn.seg_of _ hts).lexed (by simpa using hw) with h | h
    · exact h.2 "match" (by decide) rfl
    · revert h; decide

end Verif.Props
