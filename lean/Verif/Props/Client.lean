import Verif.Spec.Client
import Verif.Props.Wsdl
import Verif.Props.GenNames

/-! # C100: what the functions of a client name -/

namespace Verif.Props

open Verif Verif.Model Verif.Model.Wsdl Verif.Spec Verif.Spec.Wsdl Verif.RoXml Verif.Lemmas Verif.Lemmas.Wsdl

private abbrev A := UnicodeTable.ascii

private theorem takes_unique {root : Node} {d : Definitions} (hd : IsDefinitions root d) {op : Operation} {i m : Node} {x : Option Node}
    (hi : Input op i) (hx : Refers root i x) (h : Takes root op m) : x = some m := by
  obtain ⟨j, hj, hm⟩ := h
  have e : j = i := by cases hi <;> cases hj <;> rfl
  subst e
  obtain ⟨o, h1, rfl, -⟩ := refers_message hd hx
  obtain ⟨o', h2, h3, -⟩ := refers_message hd hm
  obtain rfl := Res.ok.inj (h1.symm.trans h2)
  exact h3

private theorem of_mem_right {α β : Type _} {R : α → β → Prop} {as : List α} {bs : List β} (h : List.Forall₂ R as bs) :
    ∀ b ∈ bs, ∃ a ∈ as, R a b := by
  induction h with
  | nil => exact fun _ h => nomatch h
  | cons h _ ih =>
    intro b hb
    rcases List.mem_cons.1 hb with rfl | hb
    · exact ⟨_, List.mem_cons_self, h⟩
    · obtain ⟨a, ha, hr⟩ := ih b hb
      exact ⟨a, List.mem_cons_of_mem _ ha, hr⟩

private theorem signature_input {root : Node} {op : Operation} {sig : Sig} (h : Signature root op sig) :
    ∃ i x, Input op i ∧ Refers root i x ∧ Args x sig.args ∧ op.node.attr "name".toList = some sig.name := by
  cases h with
  | oneWay h1 h2 _ h3 => exact ⟨_, _, .oneWay, h1, h2, h3⟩
  | requestResponse h1 _ h2 _ h3 => exact ⟨_, _, .requestResponse, h1, h2, h3⟩

private theorem part_names {ps : List Node} {as : List Arg} (h : List.Forall₂ PartArg ps as) :
    ps.map (·.attr "name".toList) = (as.map (·.1)).map some := by
  induction h with
  | nil => rfl
  | cons h _ ih =>
    rw [List.map_cons, List.map_cons, List.map_cons, ih]
    cases h with
    | element h => rw [h]
    | type h => rw [h]

private theorem params_nodup {x : Option Node} {as : List Arg} (h : Args x as) :
    ("transport".toList :: as.map (·.1)).Nodup ↔ ∀ m, x = some m → UnlikeParts m := by
  cases h with
  | none => exact ⟨fun _ _ h => (nomatch h), fun _ => List.nodup_singleton _⟩
  | @single m p t h1 h2 =>
    refine ⟨fun _ m' e => ?_, fun _ => (by decide : ["transport".toList, "request".toList].Nodup)⟩
    cases e
    exact .inl (by rw [h1]; rfl)
  | @parts m _ h1 h2 =>
    have e := part_names h2
    have key : ("transport".toList :: as.map (·.1)).Nodup ↔ (partNames m).Nodup ∧ some "transport".toList ∉ partNames m := by
      unfold partNames
      rw [e, List.nodup_cons, List.nodup_map_iff (Option.some_injective _), and_comm, List.mem_map_of_injective (Option.some_injective _)]
    rw [key]
    refine ⟨fun h m' e => ?_, fun h => (h m rfl).resolve_left h1⟩
    cases e
    exact .inr h

private theorem has_request {x : Option Node} {as : List Arg} (h : Args x as) :
    "request".toList ∈ as.map (·.1) ↔ ∃ m, x = some m ∧ HasRequest m := by
  cases h with
  | none => exact ⟨fun h => (nomatch h), fun ⟨_, h, _⟩ => nomatch h⟩
  | @single m p t h1 h2 => exact ⟨fun _ => ⟨m, rfl, .inl (by rw [h1]; rfl)⟩, fun _ => List.mem_singleton.2 rfl⟩
  | @parts m _ h1 h2 =>
    have e := part_names h2
    have key : "request".toList ∈ as.map (·.1) ↔ some "request".toList ∈ partNames m := by
      unfold partNames
      rw [e, List.mem_map_of_injective (Option.some_injective _)]
    rw [key]
    refine ⟨fun h => ⟨m, rfl, .inr h⟩, ?_⟩
    rintro ⟨m', e, h⟩
    cases e
    exact h.resolve_left h1

theorem refers_mem {root i m : Node} (h : Refers root i (some m)) : m ∈ kids root "message" := by
  cases h with
  | found _ _ h => exact h

private theorem args_safe {root i : Node} {x : Option Node} {as : List Arg} (hs : SafeParts root) (hr : Refers root i x) (h : Args x as) :
    ∀ a ∈ as, (∀ c ∈ a.1, c ∉ codeUnsafe ∧ c ≠ ':') ∧ PrefixSafe a.2 := by
  cases h with
  | none => exact fun _ h => nomatch h
  | @single m p t h1 h2 =>
    intro a ha
    obtain rfl := List.mem_singleton.1 ha
    exact ⟨(by decide : ∀ c ∈ "request".toList, c ∉ codeUnsafe ∧ c ≠ ':'),
      hs.refs m (refers_mem hr) p (by rw [h1]; exact List.mem_cons_self) "element" (by decide) _ h2⟩
  | @parts m _ _ h2 =>
    intro a ha
    obtain ⟨p, hp, h⟩ := of_mem_right h2 a ha
    have hm := refers_mem hr
    cases h with
    | element k1 k2 => exact ⟨hs.names m hm p hp _ k1, hs.refs m hm p hp "element" (by decide) _ k2⟩
    | type k1 _ k2 => exact ⟨hs.names m hm p hp _ k1, hs.refs m hm p hp "type" (by decide) _ k2⟩

private theorem safe_signature {root : Node} {op : Operation} {sig : Sig} (hs : SafeParts root) (h : Signature root op sig) : SafeSig sig := by
  cases h with
  | oneWay h1 h2 h3 => exact ⟨args_safe hs h1 h2, fun t ht => by rw [h3] at ht; cases ht⟩
  | requestResponse h1 h2 h3 h4 =>
    refine ⟨args_safe hs h1 h3, fun t ht => ?_⟩
    rw [ht] at h4
    generalize hx : some t = o at h4
    cases h4 with
    | none => cases hx
    | @part m p ps k =>
      exact hs.refs m (refers_mem h2) p (by rw [k]; exact List.mem_cons_self) "element" (by decide) t hx.symm

/-- What is read for the operations. -/
theorem functions_for {U : UnicodeTable} {root : Node} {d : Definitions} (hd : IsDefinitions root d) {ps : List PortType}
    {t : Str} (h : Wsdl.generate U d ps = .ok t) (hs : SafeParts root)
    {ls : List Str} (hl : Lines t ls) : List.Forall₂ (fun op f => ∃ sig, Signature root op sig ∧
      HasSig (defaultFormatName U) (fun r => defaultFormatType U r (targetNamespace root)) sig f) (ps.flatMap PortType.operations)
      (readFns (.out []) ls) := by
  obtain ⟨sigs, h1, h2⟩ := C50_functions U hd ps h
  have h3 := h2 (fun s hs' => by
    obtain ⟨op, hop, hsig⟩ := of_mem_right h1 s hs'
    exact safe_signature hs hsig) ls hl
  generalize ps.flatMap PortType.operations = ops at h1
  generalize readFns (.out []) ls = fs at h3
  clear h2
  induction h1 generalizing fs with
  | nil => cases h3; exact .nil
  | cons h _ ih =>
    cases h3 with
    | cons h' h3 => exact .cons ⟨_, h, h'⟩ (ih _ h3)

private theorem forall₂_imp {α β : Type _} {R S : α → β → Prop} {as : List α} {bs : List β} (h : List.Forall₂ R as bs)
    (hi : ∀ a b, R a b → S a b) : List.Forall₂ S as bs := h.imp fun a b => hi a b

/-- **C100** No function has two parameters of the same name, exactly if the parts of the input message have different names and
none is called `transport`; the name of a single part does not matter. -/
theorem C100_parameters (U : UnicodeTable) {root : Node} {d : Definitions} (hd : IsDefinitions root d) (ps : List PortType)
    {t : Str} (h : Wsdl.generate U d ps = .ok t) (hs : SafeParts root)
    (ls : List Str) (hl : Lines t ls) :
    List.Forall₂ (fun op f => (f.params.map (·.1)).Nodup ↔ ∀ m, Takes root op m → UnlikeParts m) (ps.flatMap PortType.operations)
      (readFns (.out []) ls) := by
  refine forall₂_imp (functions_for hd h hs hl) ?_
  rintro op f ⟨sig, h1, h2⟩
  obtain ⟨i, x, k1, k2, k3, -⟩ := signature_input h1
  have e : f.params.map (·.1) = "transport".toList :: sig.args.map (·.1) := by
    rw [h2.2.2.1, List.map_cons, List.map_map]; rfl
  rw [e, params_nodup k3]
  constructor
  · exact fun h m hm => h m (takes_unique hd k1 k2 hm)
  · rintro h m rfl
    exact h m ⟨i, k1, k2⟩

/-- **C100** Each function passes on its transport and a request. The request is one of its parameters exactly if the input
message has a single part or one called `request`. -/
theorem C100_request (U : UnicodeTable) {root : Node} {d : Definitions} (hd : IsDefinitions root d) (ps : List PortType)
    {t : Str} (h : Wsdl.generate U d ps = .ok t) (hs : SafeParts root)
    (ls : List Str) (hl : Lines t ls) :
    List.Forall₂ (fun op f => f.body = ["transport::request(transport, request).await".toList] ∧
        "transport".toList ∈ f.params.map (·.1) ∧
        ("request".toList ∈ f.params.map (·.1) ↔ ∃ m, Takes root op m ∧ HasRequest m)) (ps.flatMap PortType.operations)
      (readFns (.out []) ls) := by
  refine forall₂_imp (functions_for hd h hs hl) ?_
  rintro op f ⟨sig, h1, h2⟩
  obtain ⟨i, x, k1, k2, k3, -⟩ := signature_input h1
  have e : f.params.map (·.1) = "transport".toList :: sig.args.map (·.1) := by
    rw [h2.2.2.1, List.map_cons, List.map_map]; rfl
  refine ⟨h2.2.2.2.2.1, by rw [e]; exact List.mem_cons_self, ?_⟩
  rw [e, List.mem_cons, or_iff_right (by decide), has_request k3]
  constructor
  · rintro ⟨m, rfl, hm⟩
    exact ⟨m, ⟨i, k1, k2⟩, hm⟩
  · rintro ⟨m, h, hm⟩
    exact ⟨m, takes_unique hd k1 k2 h, hm⟩

/-- **C100** The functions have different names if the names of the operations, of all port types, differ in more than case and
punctuation. -/
theorem C100_functions_partial (U : UnicodeTable) {root : Node} {d : Definitions} (hd : IsDefinitions root d) (ps : List PortType)
    {t : Str} (h : Wsdl.generate U d ps = .ok t) (hs : SafeParts root)
    (hu : UnlikeOperations U (ps.flatMap PortType.operations)) (ls : List Str) (hl : Lines t ls) :
    ((readFns (.out []) ls).map (·.name)).Nodup := by
  have hf := functions_for hd h hs hl
  unfold UnlikeOperations at hu
  generalize ps.flatMap PortType.operations = ops at hf hu
  generalize readFns (.out []) ls = fs at hf
  induction hf with
  | nil => exact List.nodup_nil
  | @cons op f ops fs h1 h2 ih =>
    obtain ⟨k1, k2⟩ := List.pairwise_cons.1 hu
    refine List.nodup_cons.2 ⟨fun hm => ?_, ih k2⟩
    obtain ⟨f', hf', e⟩ := List.mem_map.1 hm
    obtain ⟨op', hop', sig', hs', hf'⟩ := of_mem_right h2 f' hf'
    obtain ⟨sig, hs, hf⟩ := h1
    obtain ⟨-, -, -, -, -, n1⟩ := signature_input hs
    obtain ⟨-, -, -, -, -, n2⟩ := signature_input hs'
    have seg : ∀ v : Str, ∃ s, AfterLastColon v s := fun v => ⟨_, Gen.lastSegment_iff.1 rfl⟩
    obtain ⟨s, hs⟩ := seg sig.name
    obtain ⟨s', hs'⟩ := seg sig'.name
    exact C31_field_partial U _ _ s s' hs hs' (k1 op' hop' _ _ _ _ n1 n2 hs hs') (hf.1.symm.trans (e.symm.trans hf'.1))

/-! ## Examples -/

theorem safeParts_of {root : Node}
    (h1 : ∀ m ∈ kids root "message", ∀ p ∈ kids m "part", ∀ v ∈ (p.attr "name".toList).toList, ∀ c ∈ v, c ∉ codeUnsafe ∧ c ≠ ':')
    (h2 : ∀ m ∈ kids root "message", ∀ p ∈ kids m "part", ∀ a ∈ ["element", "type"], ∀ v ∈ (p.attr a.toList).toList,
      ∀ q ∈ (splitName v).1.toList, ∀ c ∈ q, c ∉ codeUnsafe) : SafeParts root where
  names m hm p hp v hv := h1 m hm p hp v (Option.mem_toList.2 hv)
  refs m hm p hp a ha v hv q n hr := h2 m hm p hp a ha v (Option.mem_toList.2 hv) q (by rw [Gen.splitName_iff.2 hr]; exact Option.mem_toList.2 rfl)

private def order (d : Definitions) : List PortType := d.portTypes.map (·.2)
private def part (n t : String) : Node := el "part" [("name", n), ("element", t)] []
private def message (n : String) (ps : List Node) : Node := el "message" [("name", n)] ps
private def operation (n i : String) : Node := el "operation" [("name", n)] [el "input" [("message", i)] [], el "output" [("message", "Out")] []]
private def out : Node := message "Out" [part "y" "t:Y"]

private def service : Node := el "definitions" []
  [out, message "One" [part "transport" "t:X"], message "Two" [part "a" "t:X", part "b" "t:Y"],
   message "Named" [part "request" "t:X", part "b" "t:Y"], message "Again" [part "a" "t:X", part "a" "t:Y"],
   el "portType" [("name", "P")] [operation "GetOne" "t:One", operation "GetTwo" "t:Two"],
   el "portType" [("name", "Q")] [operation "SetIt" "t:Named", operation "DoIt" "t:Again", operation "WaitForIt" "t:Missing"]]

private def ops (root : Node) : List Operation :=
  match Definitions.new root with
  | .ok d => (order d).flatMap PortType.operations
  | _ => []

/-- Messages with one part, with two, with one called `request`, with two of the same name, and a missing one. -/
example : ∃ d t, IsDefinitions service d ∧ Wsdl.generate A d (order d) = .ok t ∧ SafeParts service ∧
    UnlikeOperations A ((order d).flatMap PortType.operations) ∧
    (readFns (.out []) (Str.splitOn '\n' t)).map (fun f => (String.ofList f.name, f.params.map fun p => String.ofList p.1)) =
      [("get_one", ["transport", "request"]), ("get_two", ["transport", "a", "b"]), ("set_it", ["transport", "request", "b"]),
       ("do_it", ["transport", "a", "a"]), ("wait_for_it", ["transport"])] := by
  refine ⟨_, _, (definitions_iff _ _).1 (rfl : Definitions.new service = .ok _), rfl,
    safeParts_of (by decide +kernel) (by decide +kernel), ?_, by decide +kernel⟩
  have h : ((ops service).map fun o => (o.node.attr "name".toList).getD []).Pairwise fun a b =>
      skeleton A.isAlphanumeric (lastSegment a) ≠ skeleton A.isAlphanumeric (lastSegment b) := by decide +kernel
  refine (List.pairwise_map.1 h).imp fun {a b} h v w s t ha hb hs ht => ?_
  rwa [ha, hb, Option.getD_some, Option.getD_some, Gen.lastSegment_iff.2 hs, Gen.lastSegment_iff.2 ht] at h

/-! ## Violations -/

private def twice (p q : List Node) : Node := el "definitions" []
  [out, message "In" [part "x" "t:X"], el "portType" [("name", "P")] p, el "portType" [("name", "Q")] q]

/-- **C100** (violated) Operations of the same name in two port types, or in one, or whose names differ only in case, give two
functions of the same name. -/
theorem C100_functions_violated :
    ∀ root ∈ [twice [operation "Get" "In"] [operation "Get" "In"], twice [operation "Get" "In", operation "Get" "Out"] [],
      twice [operation "GetIt" "In", operation "getIt" "In"] []], SafeParts root ∧ ∃ d t, IsDefinitions root d ∧
        Wsdl.generate A d (order d) = .ok t ∧ ¬ ((readFns (.out []) (Str.splitOn '\n' t)).map (·.name)).Nodup := by
  intro root hr
  simp only [List.mem_cons, List.not_mem_nil, or_false] at hr
  rcases hr with rfl | rfl | rfl <;>
  exact ⟨safeParts_of (by decide +kernel) (by decide +kernel), _, _, (definitions_iff _ _).1 (rfl : Definitions.new _ = .ok _), rfl,
    by decide +kernel⟩

/-- **C100** (violated) A message with several parts of the same name, or with one called `transport`, gives a function with two
parameters of the same name; one without a part called `request` a function which uses a parameter it does not have. -/
theorem C100_parameters_violated :
    (∀ ms ∈ [[part "a" "t:X", part "a" "t:Y"], [part "transport" "t:X", part "b" "t:Y"]], ∃ d t,
      IsDefinitions (el "definitions" [] [out, message "In" ms, el "portType" [("name", "P")] [operation "Get" "In"]]) d ∧
      Wsdl.generate A d (order d) = .ok t ∧ ∃ f, readFns (.out []) (Str.splitOn '\n' t) = [f] ∧ ¬ (f.params.map (·.1)).Nodup) ∧
    ∃ d t, IsDefinitions (el "definitions" [] [out, message "In" [], el "portType" [("name", "P")] [operation "Get" "In"]]) d ∧
      Wsdl.generate A d (order d) = .ok t ∧ ∃ f, readFns (.out []) (Str.splitOn '\n' t) = [f] ∧
        f.body = ["transport::request(transport, request).await".toList] ∧ "request".toList ∉ f.params.map (·.1) := by
  refine ⟨fun ms hm => ?_, ?_⟩
  · simp only [List.mem_cons, List.not_mem_nil, or_false] at hm
    rcases hm with rfl | rfl <;>
    exact ⟨_, _, (definitions_iff _ _).1 (rfl : Definitions.new _ = .ok _), rfl, _, rfl, by decide +kernel⟩
  · exact ⟨_, _, (definitions_iff _ _).1 (rfl : Definitions.new _ = .ok _), rfl, _, rfl, by decide +kernel, by decide +kernel⟩

end Verif.Props
