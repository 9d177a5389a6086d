import Verif.Lemmas.WsdlText
import Verif.Props.Parser

/-! # C49–C51, C58–C60: web services -/

namespace Verif.Props

open Verif Verif.Model Verif.Model.Wsdl Verif.Spec Verif.Spec.Wsdl Verif.RoXml Verif.Lemmas Verif.Lemmas.Wsdl

private abbrev A := UnicodeTable.ascii

/-! ## C49 -/

/-- **C49** The kind of an operation, with its messages and faults. -/
theorem C49_kind (n : Node) (t : OperationType) : operationType n = .ok t ↔ OpContent (allKids n) t :=
  operationTypeGo_iff _ _

/-- **C49** An operation has at most one kind. -/
theorem C49_one_kind {ns : List Node} {t t' : OperationType} (h : OpContent ns t) (h' : OpContent ns t') : t = t' :=
  Res.ok.inj (((operationTypeGo_iff ns t).2 h).symm.trans ((operationTypeGo_iff ns t').2 h'))

/-- **C49** Without a kind the program panics. -/
theorem C49_panic (n : Node) : operationType n = .panic ↔ ¬ ∃ t, OpContent (allKids n) t := by
  constructor
  · rintro h ⟨t, ht⟩
    rw [(C49_kind n t).2 ht] at h
    cases h
  · intro h
    cases ho : operationType n with
    | ok t => exact absurd ⟨t, (C49_kind n t).1 ho⟩ h
    | err => exact absurd ho (operationTypeGo_ne_err _)
    | panic => rfl

private theorem go_skip {p : Node} (h : Skipped p) (l : List Node) : operationTypeGo (p :: l) = operationTypeGo l := by
  conv_lhs => unfold operationTypeGo
  rw [if_neg fun h' => h.1 ((isInput p).1 h'), if_neg fun h' => h.2 ((isOutput p).1 h')]

/-- **C49** With an `input` before any `output`, an `output` which follows at once makes a request and response;
with nothing more it is one-way; anything else is refused. -/
theorem C49_input_first_partial {n : Node} {pre rest : List Node} {i : Node} (hk : allKids n = pre ++ i :: rest)
    (hp : ∀ k ∈ pre, Skipped k) (hi : i.tag = "input".toList) :
    (∀ o more, rest = o :: more → o.tag = "output".toList →
      operationType n = .ok (.requestResponse i o (more.filter fun k => k.tag = "fault".toList))) ∧
    (rest = [] → operationType n = .ok (.oneWay i)) ∧
    (∀ o more, rest = o :: more → o.tag ≠ "output".toList → operationType n = .panic) := by
  have hni : i.tag ≠ "output".toList := by rw [hi]; decide
  refine ⟨?_, ?_, ?_⟩
  · rintro o more rfl ho
    exact (C49_kind n _).2 (hk ▸ .requestResponse hp hi ho)
  · rintro rfl
    exact (C49_kind n _).2 (hk ▸ .oneWay hp hi)
  · rintro o more rfl ho
    show operationTypeGo (allKids n) = .panic
    rw [hk]
    clear hk
    induction pre with
    | nil =>
      rw [List.nil_append, operationTypeGo, if_pos ((isInput i).2 hi)]
      rw [if_neg fun h => ho ((isOutput o).1 h)]
    | cons p pre ih =>
      have := hp p (List.mem_cons_self ..)
      rw [List.cons_append, go_skip this]
      exact ih fun k hk => hp k (List.mem_cons_of_mem _ hk)

/-- **C49** Likewise with an `output` first. -/
theorem C49_output_first_partial {n : Node} {pre rest : List Node} {o : Node} (hk : allKids n = pre ++ o :: rest)
    (hp : ∀ k ∈ pre, Skipped k) (ho : o.tag = "output".toList) :
    (∀ i more, rest = i :: more → i.tag = "input".toList →
      operationType n = .ok (.solicitResponse o i (more.filter fun k => k.tag = "fault".toList))) ∧
    (rest = [] → operationType n = .ok (.notification o)) ∧
    (∀ i more, rest = i :: more → i.tag ≠ "input".toList → operationType n = .panic) := by
  have hno : o.tag ≠ "input".toList := by rw [ho]; decide
  refine ⟨?_, ?_, ?_⟩
  · rintro i more rfl hi
    exact (C49_kind n _).2 (hk ▸ .solicitResponse hp ho hi)
  · rintro rfl
    exact (C49_kind n _).2 (hk ▸ .notification hp ho)
  · rintro i more rfl hi
    show operationTypeGo (allKids n) = .panic
    rw [hk]
    clear hk
    induction pre with
    | nil =>
      rw [List.nil_append, operationTypeGo, if_neg fun h => hno ((isInput o).1 h), if_pos ((isOutput o).2 ho)]
      rw [if_neg fun h => hi ((isInput i).1 h)]
    | cons p pre ih =>
      have := hp p (List.mem_cons_self ..)
      rw [List.cons_append, go_skip this]
      exact ih fun k hk => hp k (List.mem_cons_of_mem _ hk)

/-- **C49** Without `input` and `output` the program panics. -/
theorem C49_neither {n : Node} (h : ∀ k ∈ allKids n, Skipped k) : operationType n = .panic := by
  refine (C49_panic n).2 ?_
  rintro ⟨t, ht⟩
  generalize allKids n = l at h ht
  cases ht with
  | @oneWay pre i _ hi => exact (h i (by simp)).1 hi
  | @requestResponse pre i o rest _ hi _ => exact (h i (by simp)).1 hi
  | @notification pre o _ ho => exact (h o (by simp)).2 ho
  | @solicitResponse pre o i rest _ ho _ => exact (h o (by simp)).2 ho

private abbrev inp : Node := el "input" [("message", "In")] []
private abbrev outp : Node := el "output" [("message", "Out")] []
private abbrev flt : Node := el "fault" [("name", "F")] []

example : operationType (el "operation" [] [el "documentation" [] [], inp, outp, el "x" [] [], flt]) =
    .ok (.requestResponse inp outp [flt]) := rfl

/-- **C49** (violated) An `input` with a `fault` or a `documentation` after it is not taken as one-way: the program panics. -/
theorem C49_one_way_violated : ∃ n i k, allKids n = [i, k] ∧ i.tag = "input".toList ∧ k.tag = "documentation".toList ∧
    operationType n = .panic :=
  ⟨el "operation" [] [inp, el "documentation" [] []], inp, el "documentation" [] [], rfl, rfl, rfl, rfl⟩

/-! ## C51 -/

/-- **C51** The message for an `input` or `output`: the one named like the text after the last colon. -/
theorem C51_lookup {root : Node} {d : Definitions} (hd : IsDefinitions root d) (param : Node) (o : Option Message) :
    d.messageByParam param = .ok o ↔ Refers root param (o.map (·.node)) ∧ ∀ m ∈ o, IsMessage m.node m :=
  messageByParam_iff hd param o

/-- **C51** The program panics exactly if there is no attribute `message`. -/
theorem C51_lookup_panic (d : Definitions) (param : Node) :
    d.messageByParam param = .panic ↔ param.attr "message".toList = none := by
  rw [Definitions.messageByParam, required]
  cases param.attr "message".toList with
  | none => exact ⟨fun _ => rfl, fun _ => rfl⟩
  | some v => exact ⟨fun h => (by cases h), fun h => (by cases h)⟩

/-- **C51** At most one message is referred to. -/
theorem C51_unique {root : Node} {d : Definitions} (hd : IsDefinitions root d) {param : Node} {x y : Option Node}
    (hx : Refers root param x) (hy : Refers root param y) : x = y := by
  obtain ⟨o, h1, rfl, -⟩ := refers_message hd hx
  obtain ⟨o', h2, rfl, -⟩ := refers_message hd hy
  rw [Res.ok.inj (h1.symm.trans h2)]

/-- **C51** (violated) References with different prefixes, to different namespaces, are to the same message. -/
theorem C51_prefix_violated : ∃ (root : Node) (d : Definitions) (p q m : Node), IsDefinitions root d ∧
    p.attr "message".toList = some "a:M".toList ∧ q.attr "message".toList = some "b:M".toList ∧
    root.namespaces = [⟨some "a".toList, "urn:a".toList⟩, ⟨some "b".toList, "urn:b".toList⟩] ∧
    Refers root p (some m) ∧ Refers root q (some m) := by
  let m : Node := el "message" [("name", "M")] []
  let root : Node := .element none "definitions".toList [] [⟨some "a".toList, "urn:a".toList⟩, ⟨some "b".toList, "urn:b".toList⟩] [m]
  refine ⟨root, ⟨root, [], [], [("M".toList, ⟨m, []⟩)], [], []⟩, el "input" [("message", "a:M")] [],
    el "input" [("message", "b:M")] [], m, (definitions_iff _ _).1 rfl, rfl, rfl, rfl, ?_, ?_⟩
  · exact .found (r := "a:M".toList) rfl (Gen.lastSegment_iff.1 rfl) (List.mem_singleton.2 rfl) rfl
  · exact .found (r := "b:M".toList) rfl (Gen.lastSegment_iff.1 rfl) (List.mem_singleton.2 rfl) rfl

/-! ## C58 -/

/-- **C58** What is read from a document: every declaration once, in order. -/
theorem C58_document (root : Node) (d : Definitions) : Definitions.new root = .ok d ↔ IsDefinitions root d :=
  definitions_iff root d

/-- **C58** Otherwise the program panics: there is no error value. -/
theorem C58_panic (root : Node) : Definitions.new root = .panic ↔ ¬ ∃ d, IsDefinitions root d := definitions_panic root

private theorem forall₂_split {α β : Type} {R : α → β → Prop} {a b : List α} {r : List β} (h : List.Forall₂ R (a ++ b) r) :
    ∃ r1 r2, List.Forall₂ R b r2 ∧ r = r1 ++ r2 := by
  induction a generalizing r with
  | nil => exact ⟨[], r, h, rfl⟩
  | cons x a ih =>
    cases h with
    | @cons _ y _ r _ h2 =>
      obtain ⟨r1, r2, h3, rfl⟩ := ih h2
      exact ⟨y :: r1, r2, h3, rfl⟩

/-- **C58** Two declarations of a kind with the same name are refused. -/
theorem C58_duplicates {root : Node} {tag : String} (ht : tag ∈ ["message", "portType", "binding"])
    {pre mid post : List Node} {a b : Node} (hk : kids root tag = pre ++ a :: (mid ++ b :: post))
    (hab : a.attr "name".toList = b.attr "name".toList) : Definitions.new root = .panic := by
  refine (C58_panic root).2 ?_
  rintro ⟨d, hd⟩
  have key : ∀ {α : Type} {R : Node → α → Prop} {es : List (Str × α)}, Table "name" R (kids root tag) es → False := by
    rintro α R es ⟨h1, h2⟩
    rw [hk] at h1
    obtain ⟨es1, es2, h4, rfl⟩ := forall₂_split h1
    cases h4 with
    | @cons _ e _ es3 h5 h6 =>
      obtain ⟨f, hf, h7⟩ := forall₂_left h6 (a := b) (by simp)
      rw [List.map_append, List.nodup_append] at h2
      have hn := h2.2.1
      rw [List.map_cons, List.nodup_cons] at hn
      refine hn.1 (List.mem_map.2 ⟨f, hf, ?_⟩)
      exact Option.some.inj (h7.1.symm.trans (hab.symm.trans h5.1))
  rcases List.mem_cons.1 ht with rfl | ht
  · exact key hd.messages
  rcases List.mem_cons.1 ht with rfl | ht
  · exact key hd.portTypes
  rcases List.mem_cons.1 ht with rfl | ht
  · exact key hd.bindings
  · cases ht

private abbrev msgIn : Node := el "message" [("name", "In")] [el "part" [("name", "x"), ("element", "t:X")] []]
private abbrev msgOut : Node := el "message" [("name", "Out")] [el "part" [("name", "y"), ("element", "t:Y")] []]
private abbrev getIt : Node := el "operation" [("name", "GetIt")] [el "documentation" [] [.text "Gets it.".toList],
  el "input" [("message", "t:In")] [], el "output" [("message", "t:Out")] []]
private abbrev svc (ms : List Node) (ops : List Node) : Node :=
  el "definitions" [] (ms ++ [el "portType" [("name", "P")] ops])
private abbrev order (d : Definitions) : List PortType := d.portTypes.map (·.2)

example : ∃ d, Definitions.new (svc [msgIn, msgOut] [getIt]) = .ok d ∧ d.messages.map (·.1) = ["In".toList, "Out".toList] ∧
    d.portTypes.map (fun p => p.2.operations.length) = [1] := ⟨_, rfl, by decide +kernel, by decide +kernel⟩

example : Definitions.new (svc [msgIn, msgIn] [getIt]) = .panic :=
  C58_duplicates (tag := "message") (by decide) (pre := []) (mid := []) (post := []) (a := msgIn) (b := msgIn) rfl rfl

/-! ## C50 -/

/-- **C50** The functions are generated exactly if every operation has a signature; otherwise the program panics. -/
theorem C50_generated (U : UnicodeTable) {root : Node} {d : Definitions} (hd : IsDefinitions root d) (ps : List PortType) :
    ((∃ t, Wsdl.generate U d ps = .ok t) ↔ ∀ p ∈ ps, ∀ op ∈ p.operations, ∃ sig, Signature root op sig) ∧
    ((¬ ∃ t, Wsdl.generate U d ps = .ok t) → Wsdl.generate U d ps = .panic) := by
  constructor
  · constructor
    · rintro ⟨t, ht⟩ p hp op hop
      obtain ⟨sigs, h1, -⟩ := (generate_iff U hd ps t).1 ht
      obtain ⟨sig, -, h⟩ := forall₂_left h1 (List.mem_flatMap.2 ⟨p, hp, hop⟩)
      exact ⟨sig, h⟩
    · intro h
      have : ∀ l : List Operation, (∀ op ∈ l, ∃ sig, Signature root op sig) → ∃ sigs, List.Forall₂ (Signature root) l sigs := by
        intro l hl
        induction l with
        | nil => exact ⟨[], .nil⟩
        | cons op l ih =>
          obtain ⟨sig, hs⟩ := hl op (List.mem_cons_self ..)
          obtain ⟨sigs, hss⟩ := ih fun o ho => hl o (List.mem_cons_of_mem _ ho)
          exact ⟨sig :: sigs, .cons hs hss⟩
      obtain ⟨sigs, hs⟩ := this (ps.flatMap PortType.operations) (fun op hop => by
        obtain ⟨p, hp, hop⟩ := List.mem_flatMap.1 hop
        exact h p hp op hop)
      exact ⟨_, (generate_iff U hd ps _).2 ⟨sigs, hs, rfl⟩⟩
  · intro h
    cases hg : Wsdl.generate U d ps with
    | ok t => exact absurd ⟨t, hg⟩ h
    | err => exact absurd hg (generate_ne_err U d ps)
    | panic => rfl

/-- **C50** An operation has at most one signature. -/
theorem C50_one_signature {root : Node} {d : Definitions} (hd : IsDefinitions root d) {op : Operation} {s s' : Sig}
    (h : Signature root op s) (h' : Signature root op s') : s.name = s'.name ∧ s.args = s'.args ∧
      s.ret.getD [] = s'.ret.getD [] ∧ s.doc = s'.doc := by
  have := ((function_iff hd op _).2 ⟨s, h, rfl⟩).symm.trans ((function_iff hd op _).2 ⟨s', h', rfl⟩)
  have := Res.ok.inj this
  refine ⟨congrArg Function.name this, ?_, congrArg Function.returnType this, congrArg Function.documentation this⟩
  have h2 : s.args.map toParam = s'.args.map toParam := (List.cons.inj (congrArg Function.arguments this)).2
  exact List.map_injective_iff.2 (fun a b (h : toParam a = toParam b) => by cases a; cases b; cases h; rfl) h2

/-- **C50** Read back, the text has one function for each operation, in order, with the transport as first parameter,
the parameters for the input message and the result for the output message. -/
theorem C50_functions (U : UnicodeTable) {root : Node} {d : Definitions} (hd : IsDefinitions root d) (ps : List PortType)
    {t : Str} (h : Wsdl.generate U d ps = .ok t) :
    ∃ sigs, List.Forall₂ (Signature root) (ps.flatMap PortType.operations) sigs ∧
      ((∀ s ∈ sigs, SafeSig s) → ∀ ls, Lines t ls →
        List.Forall₂ (HasSig (defaultFormatName U) fun r => defaultFormatType U r (targetNamespace root)) sigs
          (readFns (.out []) ls)) := by
  obtain ⟨sigs, h1, rfl⟩ := (generate_iff U hd ps t).1 h
  refine ⟨sigs, h1, fun hs ls hl => ?_⟩
  rw [Gen.lines_unique hl]
  exact readFns_all U _ sigs hs

/-- **C59** The text of the functions is complete. -/
theorem C59_complete (U : UnicodeTable) {root : Node} {d : Definitions} (hd : IsDefinitions root d) (ps : List PortType)
    {t : Str} (h : Wsdl.generate U d ps = .ok t)
    (hs : ∀ p ∈ ps, ∀ op ∈ p.operations, ∀ s, Signature root op s → SafeSig s) : LexComplete t := by
  obtain ⟨sigs, h1, rfl⟩ := (generate_iff U hd ps t).1 h
  refine functions_neutral U _ sigs (fun s hmem => ?_) []
  obtain ⟨op, hop, hsig⟩ := forall₂_right h1 hmem
  obtain ⟨p, hp, hop⟩ := List.mem_flatMap.1 hop
  exact hs p hp op hop s hsig

private abbrev fnsOf (root : Node) : List Fn :=
  match wsdlCode A root order with
  | .ok t => readFns (.out []) (Str.splitOn '\n' t)
  | _ => []

example : fnsOf (svc [msgIn, msgOut] [getIt]) =
    [⟨["// Gets it.".toList], "get_it".toList, "T: transport::Transport".toList,
      [("transport".toList, "T".toList), ("request".toList, "t::X".toList)], "t::Y".toList,
      ["transport::request(transport, request).await".toList]⟩] := by decide +kernel

/-- **C50** (violated) For the operations of the other two kinds nothing is generated: the program panics. -/
theorem C50_kinds_violated (d : Definitions) (n : Node) {o i : Node} {fs : List Node} :
    Function.new ⟨n, .notification o⟩ d = .panic ∧ Function.new ⟨n, .solicitResponse o i fs⟩ d = .panic := ⟨rfl, rfl⟩

/-- **C50** (violated) The function for a one-way operation has no type for its result: `Result<, transport::Error>`. -/
theorem C50_one_way_violated (U : UnicodeTable) (tns : Option Namespace) {root op : Node} {i : Node} {s : Sig}
    (h : Signature root ⟨op, .oneWay i⟩ s) {f : Fn}
    (hf : HasSig (defaultFormatName U) (fun r => defaultFormatType U r tns) s f) : f.ret = [] := by
  cases h with
  | oneWay _ _ hr =>
    rw [hf.2.2.2.1, hr]
    show defaultFormatType U [] tns = []
    cases tns with
    | none => rfl
    | some n => obtain ⟨nm, u⟩ := n; cases nm <;> rfl

example : (fnsOf (svc [msgIn] [el "operation" [("name", "tell")] [el "input" [("message", "In")] []]])).map (·.ret) = [[]] := by
  decide +kernel

/-- **C50** (violated) The body passes on `request`, which is a parameter only if the message has one part or a part with
that name. -/
theorem C50_body_violated : ∃ (root : Node) (d : Definitions) (t : Str), IsDefinitions root d ∧
    Wsdl.generate A d (order d) = .ok t ∧ (readFns (.out []) (Str.splitOn '\n' t)).map (fun f => (f.params.map (·.1), f.body)) =
      [(["transport".toList, "x".toList, "y".toList], ["transport::request(transport, request).await".toList])] := by
  let m : Node := el "message" [("name", "In")] [el "part" [("name", "x"), ("element", "X")] [],
    el "part" [("name", "y"), ("type", "Y")] []]
  let root := svc [m, msgOut] [getIt]
  exact ⟨root, _, _, (definitions_iff _ _).1 (rfl : Definitions.new root = .ok _), rfl, by decide +kernel⟩

/-- **C50** (violated) A message with a single part which has a type and no element is refused. -/
theorem C50_type_part_violated : ∃ (root : Node) (d : Definitions), IsDefinitions root d ∧
    Wsdl.generate A d (order d) = .panic := by
  let m : Node := el "message" [("name", "In")] [el "part" [("name", "x"), ("type", "xs:string")] []]
  let root := svc [m, msgOut] [getIt]
  exact ⟨root, _, (definitions_iff _ _).1 (rfl : Definitions.new root = .ok _), rfl⟩

/-- **C50** (violated) The names of parts are copied as they are: a part named `type` gives a parameter of that name. -/
theorem C50_part_name_violated : ∃ (root : Node) (d : Definitions) (t : Str), IsDefinitions root d ∧
    Wsdl.generate A d (order d) = .ok t ∧ (readFns (.out []) (Str.splitOn '\n' t)).map (fun f => f.params.map (·.1)) =
      [["transport".toList, "type".toList, "a-b".toList]] := by
  let m : Node := el "message" [("name", "In")] [el "part" [("name", "type"), ("element", "X")] [],
    el "part" [("name", "a-b"), ("type", "Y")] []]
  let root := svc [m, msgOut] [getIt]
  exact ⟨root, _, _, (definitions_iff _ _).1 (rfl : Definitions.new root = .ok _), rfl, by decide +kernel⟩

/-- **C50** (violated) The order of the functions of different port types is not determined: it is the order in which a
hash map yields its values. -/
theorem C50_order_violated : ∃ (root : Node) (d : Definitions) (t t' : Str), IsDefinitions root d ∧
    Wsdl.generate A d (order d) = .ok t ∧ Wsdl.generate A d (order d).reverse = .ok t' ∧ t ≠ t' := by
  let op (n : String) : Node := el "operation" [("name", n)] [el "input" [("message", "In")] []]
  let root : Node := el "definitions" [] [el "portType" [("name", "P")] [op "a"], el "portType" [("name", "Q")] [op "b"]]
  exact ⟨root, _, _, _, (definitions_iff _ _).1 (rfl : Definitions.new root = .ok _), rfl, rfl, by decide +kernel⟩

/-! ## C51, dangling references -/

/-- **C51** (violated) A reference to a message which is not there is no error: the function has no parameter for it. -/
theorem C51_dangling_violated (U : UnicodeTable) {root : Node} {d : Definitions} (hd : IsDefinitions root d) {n i : Node}
    {name r l : Str} (hn : n.attr "name".toList = some name) (hr : i.attr "message".toList = some r)
    (hl : AfterLastColon r l) (hm : ∀ m ∈ kids root "message", m.attr "name".toList ≠ some l) :
    ∃ t, Wsdl.generate U d [⟨el "portType" [] [], [⟨n, .oneWay i⟩]⟩] = .ok t := by
  refine ((C50_generated U hd _).1).2 ?_
  intro p hp op hop
  rw [List.mem_singleton.1 hp] at hop
  rw [List.mem_singleton.1 hop]
  exact ⟨⟨name, [], none, _⟩, .oneWay (.missing hr hl hm) .none rfl hn ((documentation_iff ⟨n, .oneWay i⟩ _).1 rfl)⟩

/-! ## C60 -/

/-- **C60** The code for a document: that for each schema in it in order, then the functions. -/
theorem C60_code (U : UnicodeTable) (root : Node) (ord : Definitions → List PortType) (t : Str) :
    wsdlCode U root ord = .ok t ↔ ∃ d parts fns, IsDefinitions root d ∧
      List.Forall₂ (fun (s : Node × Node) part => ∃ f, parseSchema U s.2 [s.1, root] = .ok f ∧
          (generateRsFile U f).1 = .ok part)
        ((kids root "types").flatMap fun ty => (kids ty "schema").map fun s => (ty, s)) parts ∧
      Wsdl.generate U d (ord d) = .ok fns ∧ t = parts.flatten ++ fns := by
  have hsch : ∀ ty : Node, schemas ty = kids ty "schema" := by
    intro ty
    rw [schemas, kids]
    refine List.filter_congr fun k _ => ?_
    rw [Bool.eq_iff_iff]
    simp
  rw [wsdlCode, Res.bind_eq_ok]
  constructor
  · rintro ⟨d, h1, h2⟩
    have hd := (definitions_iff root d).1 h1
    obtain ⟨parts, h3, h4⟩ := Res.bind_eq_ok.1 h2
    obtain ⟨fns, h5, h6⟩ := Res.bind_eq_ok.1 h4
    rw [Parse.mapM'_ok, hd.types] at h3
    refine ⟨d, parts, fns, hd, ?_, h5, ?_⟩
    · simp only [hsch] at h3
      refine h3.imp fun s part h => ?_
      obtain ⟨f, hf, h⟩ := Res.bind_eq_ok.1 h
      exact ⟨f, hf, h⟩
    · rw [← Res.ok.inj h6]
      simp
  · rintro ⟨d, parts, fns, hd, h3, h5, rfl⟩
    refine ⟨d, (definitions_iff root d).2 hd, Res.bind_eq_ok.2 ⟨parts, ?_, Res.bind_eq_ok.2 ⟨fns, h5, ?_⟩⟩⟩
    · rw [Parse.mapM'_ok, hd.types]
      simp only [hsch]
      refine h3.imp fun s part h => ?_
      obtain ⟨f, hf, h⟩ := h
      exact Res.bind_eq_ok.2 ⟨f, hf, h⟩
    · simp

private abbrev ext : Node := el "schema" [] [
  el "complexType" [("name", "B")] [el "sequence" [] [el "element" [("name", "a"), ("type", "xs:string")] []]],
  el "complexType" [("name", "D")] [el "complexContent" [] [el "extension" [("base", "B")] [
    el "sequence" [] [el "element" [("name", "b"), ("type", "xs:string")] []]]]]]

private abbrev fieldsIn (t : Str) : List (Str × Option Str) :=
  (readFieldLines none (bodyOf "pub struct D {".toList (Str.splitOn '\n' t))).map fun m => (m.name, m.type)

/-- **C60** (violated) A schema inside a WSDL document is not treated like the same schema in a file of its own: the
members of a base type are not copied, there is a field `base` instead. -/
theorem C60_derivation_violated : ∃ (s : Node) (f : RsFile) (t t' : Str), parseFile A s = .ok f ∧
    (generateRsFile A f).1 = .ok t ∧ wsdlCode A (el "definitions" [] [el "types" [] [s]]) order = .ok t' ∧
    fieldsIn t = [("b".toList, some "xs::String".toList), ("a".toList, some "xs::String".toList)] ∧
    fieldsIn t' = [("b".toList, some "xs::String".toList), ("base".toList, some "B".toList)] :=
  ⟨ext, _, _, _, rfl, rfl, rfl, by decide +kernel, by decide +kernel⟩

end Verif.Props
