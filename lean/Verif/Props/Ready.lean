import Verif.Spec.Ready
import Verif.Props.Pieces
import Verif.Props.Wsdl
import Verif.Props.Closed
import Verif.Lemmas.TotalExt

/-! # C103: the service descriptions for which there is a client -/

namespace Verif.Props

open Verif Verif.Model Verif.Model.Wsdl Verif.Spec Verif.Spec.Wsdl Verif.RoXml Verif.Lemmas Verif.Lemmas.Wsdl Verif.Lemmas.Service

private theorem left_of {α β : Type _} {R : α → β → Prop} {as : List α} {bs : List β} (h : List.Forall₂ R as bs) :
    ∀ a ∈ as, ∃ b ∈ bs, R a b := by
  induction h with
  | nil => exact fun _ h => nomatch h
  | cons h _ ih =>
    intro a ha
    rcases List.mem_cons.1 ha with rfl | ha
    · exact ⟨_, List.mem_cons_self, h⟩
    · obtain ⟨b, hb, hr⟩ := ih a ha
      exact ⟨b, List.mem_cons_of_mem _ hb, hr⟩

private theorem forall₂_build {α β : Type _} {R : α → β → Prop} : ∀ {as : List α}, (∀ a ∈ as, ∃ b, R a b) → ∃ bs, List.Forall₂ R as bs
  | [], _ => ⟨[], .nil⟩
  | a :: as, h => by
    obtain ⟨b, hb⟩ := h a List.mem_cons_self
    obtain ⟨bs, hbs⟩ := forall₂_build fun x hx => h x (List.mem_cons_of_mem _ hx)
    exact ⟨b :: bs, .cons hb hbs⟩

private theorem keys_eq {α : Type} {a : String} {R : Node → α → Prop} {ns : List Node} {es : List (Str × α)}
    (h : List.Forall₂ (fun n e => n.attr a.toList = some e.1 ∧ R n e.2) ns es) :
    ns.map (·.attr a.toList) = (es.map (·.1)).map some := by
  induction h with
  | nil => rfl
  | cons h _ ih => rw [List.map_cons, List.map_cons, List.map_cons, ih, h.1]

private theorem keyed_of {α : Type} {a : String} {R : Node → α → Prop} {ns : List Node} {es : List (Str × α)} (h : Table a R ns es) :
    Keyed a ns := by
  refine ⟨fun n hn => ?_, ?_⟩
  · obtain ⟨e, -, he, -⟩ := left_of h.1 n hn
    exact ⟨e.1, he⟩
  · rw [keys_eq h.1]
    exact h.2.map (Option.some_injective _)

private theorem table_of {α : Type} {a : String} {R : Node → α → Prop} {ns : List Node} (h : Keyed a ns) (hr : ∀ n ∈ ns, ∃ v, R n v) :
    ∃ es, Table a R ns es := by
  obtain ⟨es, hes⟩ := forall₂_build (as := ns) (R := fun n (e : Str × α) => n.attr a.toList = some e.1 ∧ R n e.2) fun n hn => by
    obtain ⟨k, hk⟩ := h.1 n hn
    obtain ⟨v, hv⟩ := hr n hn
    exact ⟨(k, v), hk, hv⟩
  refine ⟨es, hes, ?_⟩
  have := h.2
  rw [keys_eq hes] at this
  exact List.Nodup.of_map _ this

private theorem refers_unique {root : Node} {d : Definitions} (hd : IsDefinitions root d) {i : Node} {x y : Option Node}
    (hx : Refers root i x) (hy : Refers root i y) : x = y := by
  obtain ⟨o, h1, rfl, -⟩ := refers_message hd hx
  obtain ⟨o', h2, rfl, -⟩ := refers_message hd hy
  rw [Res.ok.inj (h1.symm.trans h2)]

private theorem refers_has {root i : Node} {x : Option Node} (h : Refers root i x) : Has i "message" := by
  cases h with
  | found h => exact ⟨_, h⟩
  | missing h => exact ⟨_, h⟩

private theorem refers_of (root : Node) {i : Node} (h : Has i "message") : ∃ x, Refers root i x := by
  obtain ⟨r, hr⟩ := h
  have hn : AfterLastColon r (lastSegment r) := Gen.lastSegment_iff.1 rfl
  by_cases hm : ∃ m ∈ kids root "message", m.attr "name".toList = some (lastSegment r)
  · obtain ⟨m, h1, h2⟩ := hm
    exact ⟨some m, .found hr hn h1 h2⟩
  · exact ⟨none, .missing hr hn fun m h1 h2 => hm ⟨m, h1, h2⟩⟩

private theorem args_sendable {m : Node} {as : List Arg} (h : Args (some m) as) : Sendable m := by
  cases h with
  | single h1 h2 => exact .inl ⟨_, h1, _, h2⟩
  | parts h1 h2 =>
    refine .inr ⟨h1, fun p hp => ?_⟩
    obtain ⟨a, -, ha⟩ := left_of h2 p hp
    cases ha with
    | element k1 k2 => exact ⟨⟨_, k1⟩, .inl ⟨_, k2⟩⟩
    | type k1 _ k2 => exact ⟨⟨_, k1⟩, .inr ⟨_, k2⟩⟩

private theorem args_of {x : Option Node} (h : ∀ m, x = some m → Sendable m) : ∃ as, Args x as := by
  cases x with
  | none => exact ⟨_, .none⟩
  | some m =>
    rcases h m rfl with ⟨p, h1, t, h2⟩ | ⟨h1, h2⟩
    · exact ⟨_, .single h1 h2⟩
    · obtain ⟨as, has⟩ := forall₂_build (as := kids m "part") (R := PartArg) fun p hp => by
        obtain ⟨⟨n, hn⟩, ht⟩ := h2 p hp
        cases he : p.attr "element".toList with
        | some t => exact ⟨_, .element hn he⟩
        | none =>
          rcases ht with ⟨t, ht⟩ | ⟨t, ht⟩
          · rw [he] at ht; cases ht
          · exact ⟨_, .type hn he ht⟩
      exact ⟨as, .parts h1 has⟩

private theorem callable_of {root : Node} {d : Definitions} (hd : IsDefinitions root d) {n : Node} {op : Operation} {sig : Sig}
    (ho : IsOperation n op) (h : Signature root op sig) : Callable root n := by
  obtain ⟨h1, h2⟩ := ho
  cases h with
  | @oneWay n' i x sig k1 k2 k3 k4 k5 =>
    obtain rfl : n' = n := h1
    refine ⟨⟨_, k4⟩, i, none, ?_, refers_has k1, fun m hm => ?_, fun x hx => nomatch hx⟩
    · generalize allKids n' = l at h2
      generalize ht : OperationType.oneWay i = ty at h2
      cases h2 <;> cases ht
      exact .oneWay ‹_› ‹_›
    · obtain rfl := refers_unique hd k1 hm
      exact args_sendable k2
  | @requestResponse n' i o fs x y sig k1 k2 k3 k4 k5 k6 =>
    obtain rfl : n' = n := h1
    refine ⟨⟨_, k5⟩, i, some o, ?_, refers_has k1, fun m hm => ?_, fun z hz => ?_⟩
    · generalize allKids n' = l at h2
      generalize ht : OperationType.requestResponse i o fs = ty at h2
      cases h2 <;> cases ht
      exact .answered ‹_› ‹_› ‹_›
    · obtain rfl := refers_unique hd k1 hm
      exact args_sendable k3
    · obtain rfl := Option.some.inj hz
      refine ⟨refers_has k2, fun m hm => ?_⟩
      obtain rfl := refers_unique hd k2 hm
      generalize sig.ret = r at k4
      cases k4 with
      | part h => rw [h]; exact List.cons_ne_nil _ _

private theorem content_of {l : List Node} {i : Node} {o : Option Node} (h : Exchange l i o) :
    (o = none ∧ OpContent l (.oneWay i)) ∨ ∃ x fs, o = some x ∧ OpContent l (.requestResponse i x fs) := by
  cases h with
  | oneWay h1 h2 => exact .inl ⟨rfl, .oneWay h1 h2⟩
  | answered h1 h2 h3 => exact .inr ⟨_, _, rfl, .requestResponse h1 h2 h3⟩

private theorem signature_of {root n : Node} {op : Operation} (ho : IsOperation n op) (h : Callable root n) :
    ∃ sig, Signature root op sig := by
  obtain ⟨⟨nm, hn⟩, i, o, h1, h2, h3, h4⟩ := h
  obtain ⟨node, ty⟩ := op
  obtain ⟨rfl, k2⟩ : node = n ∧ OpContent (allKids n) ty := ho
  have hdoc := (documentation_iff ⟨node, ty⟩ _).1 rfl
  obtain ⟨x, hx⟩ := refers_of root h2
  obtain ⟨as, has⟩ := args_of (x := x) fun m e => h3 m (e ▸ hx)
  rcases content_of h1 with ⟨-, k⟩ | ⟨y, fs, rfl, k⟩
  · obtain rfl := C49_one_kind k2 k
    exact ⟨⟨nm, as, none, _⟩, .oneWay hx has rfl hn hdoc⟩
  · obtain rfl := C49_one_kind k2 k
    obtain ⟨h5, h6⟩ := h4 y rfl
    obtain ⟨z, hz⟩ := refers_of root h5
    have : ∃ r, Returns z r := by
      cases z with
      | none => exact ⟨_, .none⟩
      | some m =>
        obtain ⟨p, ps, e⟩ := List.exists_cons_of_ne_nil (h6 m hz)
        exact ⟨_, .part e⟩
    obtain ⟨r, hr⟩ := this
    exact ⟨⟨nm, as, r, _⟩, .requestResponse hx hz has hr hn hdoc⟩

private theorem definitions_of {U : UnicodeTable} {root : Node} (h : Ready U root) : ∃ d, IsDefinitions root d := by
  obtain ⟨im, h1⟩ := table_of (R := fun n v => v = n) h.imports fun n _ => ⟨n, rfl⟩
  obtain ⟨ms, h2⟩ := table_of (R := IsMessage) h.messages fun n _ => ⟨⟨n, kids n "part"⟩, rfl, rfl⟩
  obtain ⟨ps, h3⟩ := table_of (R := IsPortType) h.portTypes fun p hp => by
    obtain ⟨ops, hops⟩ := forall₂_build (as := kids p "operation") (R := IsOperation) fun n hn => by
      obtain ⟨-, i, o, k, -⟩ := h.operations p hp n hn
      rcases content_of k with ⟨-, k⟩ | ⟨x, fs, -, k⟩
      · exact ⟨⟨n, _⟩, rfl, k⟩
      · exact ⟨⟨n, _⟩, rfl, k⟩
    exact ⟨⟨p, ops⟩, rfl, hops⟩
  obtain ⟨bs, h4⟩ := table_of (R := IsBinding) h.bindings fun b _ => by
    obtain ⟨ops, hops⟩ := forall₂_build (as := kids b "operation") (R := IsBindingOperation) fun n _ =>
      ⟨⟨n, last? (kids n "input"), last? (kids n "output"), kids n "fault"⟩, rfl, rfl, rfl, rfl⟩
    exact ⟨⟨b, ops⟩, rfl, hops⟩
  exact ⟨⟨root, im, kids root "types", ms, ps, bs⟩, rfl, rfl, h1, h2, h3, h4⟩

/-- **C103** There is a client for a description exactly if the description is `Ready`, in whatever order the hash map yields the
port types. -/
theorem C103_converted (U : UnicodeTable) (root : Node) (ord : Definitions → List PortType)
    (ho : ∀ d, (ord d).Perm (d.portTypes.map (·.2))) : (∃ t, wsdlCode U root ord = .ok t) ↔ Ready U root := by
  constructor
  · rintro ⟨t, ht⟩
    have hd : ∃ d, IsDefinitions root d := by
      obtain ⟨d, hd, -⟩ := Res.bind_eq_ok.1 ht
      exact ⟨d, (definitions_iff root d).1 hd⟩
    obtain ⟨d, hd⟩ := hd
    obtain ⟨c, q, h1, h2, -⟩ := (C102_code U hd ord t).1 ht
    obtain ⟨sigs, h3, -⟩ := (generate_iff U hd _ _).1 h2
    refine ⟨keyed_of hd.imports, keyed_of hd.messages, keyed_of hd.portTypes, keyed_of hd.bindings, fun p hp n hn => ?_, ?_⟩
    · obtain ⟨e, he, -, k⟩ := left_of hd.portTypes.1 p hp
      obtain ⟨op, hop, k'⟩ := left_of k.2 n hn
      obtain ⟨sig, -, hsig⟩ := left_of h3 op
        (List.mem_flatMap.2 ⟨e.2, (ho d).mem_iff.2 (List.mem_map.2 ⟨e, he, rfl⟩), hop⟩)
      exact callable_of hd k' hsig
    · clear ht
      generalize embedded root = ss at h1
      induction h1 with
      | nil => exact fun _ h => nomatch h
      | cons h _ ih =>
        intro s hs
        rcases List.mem_cons.1 hs with rfl | hs
        · exact ⟨_, h⟩
        · exact ih s hs
  · intro h
    obtain ⟨d, hd⟩ := definitions_of h
    have hc : ∃ c, SchemasCode U (embedded root) c := by
      have := h.schemas
      generalize embedded root = ss at this
      induction ss with
      | nil => exact ⟨_, .nil⟩
      | cons s ss ih =>
        obtain ⟨p, hp⟩ := this s List.mem_cons_self
        obtain ⟨q, hq⟩ := ih fun s hs => this s (List.mem_cons_of_mem _ hs)
        exact ⟨_, .cons hp hq⟩
    obtain ⟨c, hc⟩ := hc
    obtain ⟨sigs, hs⟩ := forall₂_build (as := (ord d).flatMap PortType.operations) (R := Signature root) fun op hop => by
      obtain ⟨p, hp, hop⟩ := List.mem_flatMap.1 hop
      obtain ⟨n, k1, k2⟩ := entry_mem hd.portTypes ((ho d).mem_iff.1 hp)
      obtain ⟨m, k3, k4⟩ := forall₂_right k2.2 hop
      exact signature_of k4 (h.operations n k1 m k3)
    exact ⟨_, (C102_code U hd ord _).2 ⟨c, _, hc, (generate_iff U hd _ _).2 ⟨sigs, hs, rfl⟩, rfl⟩⟩

/-- **C103** Otherwise the program stops with a panic or, for one of the schemas, with an error: there is no code. -/
theorem C103_refused (U : UnicodeTable) (root : Node) (ord : Definitions → List PortType)
    (ho : ∀ d, (ord d).Perm (d.portTypes.map (·.2))) (h : ¬ Ready U root) :
    wsdlCode U root ord = .panic ∨ wsdlCode U root ord = .err := by
  cases hr : wsdlCode U root ord with
  | ok t => exact absurd ((C103_converted U root ord ho).1 ⟨t, hr⟩) h
  | err => exact .inr rfl
  | panic => exact .inl rfl

/-! ## Legal schemas -/

open Verif.Lemmas.Parse in
private theorem supported_code (U : UnicodeTable) {s : Node} (hs : Supported s) : ∃ c, SchemaCode U s c := by
  obtain ⟨g, hg⟩ := parseFile_exists (U := U) hs
  obtain ⟨f, hf, -⟩ := Res.bind_eq_ok.1 hg
  refine (Props.C55_total U f).elim (fun h => ?_) fun ⟨c, hc⟩ => ⟨c, f, hf, hc⟩
  obtain ⟨t, ht, fc, hfc, v, hv, hno⟩ := (Props.C55_panic_iff U f).1 h
  obtain ⟨-, types, groups, h1, -, rfl⟩ := schema_iff.1 hf
  have := Deep.generatedList (fun e he => by
    obtain ⟨c, hc, hce⟩ := forall₂_left h1 e he
    exact parseNode_texts (sources_lengths hs) ((sources_lengths hs).hered _ .root c (List.mem_filter.1 hc).1)
      ((sources_lengths hs).mono s .root) no_kids hce) _ ht
  exact absurd (this.2.2.1 fc hfc v hv) hno

/-- **C103** If the embedded schemas have only the features which the program knows (C67), the conditions on the elements of the
description itself are necessary and sufficient. -/
theorem C103_supported (U : UnicodeTable) (root : Node) (ord : Definitions → List PortType)
    (ho : ∀ d, (ord d).Perm (d.portTypes.map (·.2))) (hs : ∀ s ∈ embedded root, Supported s) :
    (∃ t, wsdlCode U root ord = .ok t) ↔
      Keyed "namespace" (kids root "import") ∧ Keyed "name" (kids root "message") ∧ Keyed "name" (kids root "portType") ∧
      Keyed "name" (kids root "binding") ∧ ∀ p ∈ kids root "portType", ∀ n ∈ kids p "operation", Callable root n := by
  rw [C103_converted U root ord ho]
  exact ⟨fun h => ⟨h.imports, h.messages, h.portTypes, h.bindings, h.operations⟩,
    fun ⟨h1, h2, h3, h4, h5⟩ => ⟨h1, h2, h3, h4, h5, fun s h => supported_code U (hs s h)⟩⟩

/-! ## Example -/

open Verif.Props.Sample

private def order (d : Definitions) : List PortType := d.portTypes.map (·.2)
private def service (ms ops : List Node) : Node :=
  .element none "definitions".toList [⟨none, "targetNamespace".toList, "http://example.com/a".toList⟩]
    [⟨some "tns".toList, "http://example.com/a".toList⟩]
    (el "types" [] [doc [el "element" [("name", "X")] []]] :: ms ++ [el "portType" [("name", "P")] ops])
private def input (m : String) : Node := el "input" [("message", m)] []
private def output (m : String) : Node := el "output" [("message", m)] []
private def message (n : String) (ps : List Node) : Node := el "message" [("name", n)] ps
private def element : Node := el "part" [("name", "x"), ("element", "tns:X")] []
private def typed : Node := el "part" [("name", "y"), ("type", "tns:X")] []

private def good : Node := service [message "In" [element, typed], message "Out" [element]]
  [el "operation" [("name", "Ask")] [el "documentation" [] [], input "tns:In", output "tns:Out"],
   el "operation" [("name", "Tell")] [input "tns:Out"], el "operation" [("name", "Lost")] [input "tns:Nowhere", output "tns:Nowhere"]]

/-- A description with three operations, one of them with messages which do not exist. -/
example : Ready A good :=
  (C103_converted A good order fun _ => .refl _).1 (ok_of (by decide +kernel))

set_option synthInstance.maxHeartbeats 200000 in
set_option synthInstance.maxSize 1000 in
/-- Its schema is supported. -/
example : ∀ s ∈ embedded good, Supported s := fun s hs => by
  obtain rfl := List.mem_singleton.1 hs
  exact supported_of (by decide +kernel) ⟨by decide +kernel, by decide +kernel, by decide +kernel⟩ (by decide +kernel) (by decide +kernel)

private def empty : Node := service [message "In" [element], message "Out" []]
  [el "operation" [("name", "Set")] [input "tns:In", output "tns:Out"]]
private def rpc : Node := service [message "In" [typed], message "Out" [element]]
  [el "operation" [("name", "Get")] [input "tns:In", output "tns:Out"]]
private def notice : Node := service [message "Out" [element]] [el "operation" [("name", "Note")] [output "tns:Out"]]
private def commented : Node := service [message "In" [element]]
  [el "operation" [("name", "Tell")] [input "tns:In", .element (some "http://www.w3.org/ns/ws-policy".toList) "PolicyReference".toList [] [] []]]

/-- These are not. -/
example : ¬ Ready A empty := fun h => by
  obtain ⟨t, ht⟩ := (C103_converted A empty order fun _ => .refl _).2 h
  rw [show wsdlCode A empty order = .panic from rfl] at ht
  cases ht

/-- **C103** (violated) Descriptions as WSDL allows them for which the program panics: an answer without parts, a single part with a
type, an operation which only has an output, an extension after the only input. -/
theorem C103_legal_violated : wsdlCode A empty order = .panic ∧ wsdlCode A rpc order = .panic ∧ wsdlCode A notice order = .panic ∧
    wsdlCode A commented order = .panic := ⟨rfl, rfl, rfl, rfl⟩

/-- **C103** (violated) None of these is peculiar: whenever an operation is answered by a message without parts, or sends a single part
without element, there is no client. -/
theorem C103_operation_violated (U : UnicodeTable) (root : Node) (ord : Definitions → List PortType)
    (ho : ∀ d, (ord d).Perm (d.portTypes.map (·.2))) {p n i m : Node} {o : Option Node} (hp : p ∈ kids root "portType")
    (hn : n ∈ kids p "operation") (he : Exchange (allKids n) i o)
    (h : (∃ x, o = some x ∧ Refers root x (some m) ∧ kids m "part" = []) ∨
      (∃ q, Refers root i (some m) ∧ kids m "part" = [q] ∧ q.attr "element".toList = none)) (t : Str) :
    wsdlCode U root ord ≠ .ok t := by
  intro ht
  obtain ⟨-, i', o', k1, -, k2, k3⟩ := ((C103_converted U root ord ho).1 ⟨t, ht⟩).operations p hp n hn
  have same : i' = i ∧ o' = o := by
    rcases content_of he with ⟨rfl, a⟩ | ⟨x, fs, rfl, a⟩ <;> rcases content_of k1 with ⟨rfl, b⟩ | ⟨y, gs, rfl, b⟩ <;>
      cases C49_one_kind a b <;> exact ⟨rfl, rfl⟩
  obtain ⟨rfl, rfl⟩ := same
  rcases h with ⟨x, hx, h1, h2⟩ | ⟨q, h1, h2, h3⟩
  · exact (k3 x hx).2 m h1 h2
  · rcases k2 m h1 with ⟨q', h4, v, h5⟩ | ⟨h4, -⟩
    · rw [h2] at h4
      obtain rfl := (List.cons.inj h4).1
      rw [h3] at h5
      cases h5
    · exact h4 (by rw [h2]; rfl)

/-- Two of them again. -/
example (t : Str) : wsdlCode A empty order ≠ .ok t ∧ wsdlCode A rpc order ≠ .ok t :=
  ⟨C103_operation_violated A empty order (fun _ => .refl _) (p := el "portType" [("name", "P")]
      [el "operation" [("name", "Set")] [input "tns:In", output "tns:Out"]]) (List.mem_singleton.2 rfl) (List.mem_singleton.2 rfl)
      (.answered (pre := []) (fun _ h => nomatch h) rfl rfl)
      (.inl ⟨_, rfl, .found (m := message "Out" []) rfl (Gen.lastSegment_iff.1 rfl) (List.mem_cons_of_mem _ List.mem_cons_self) (by decide), rfl⟩) t,
   C103_operation_violated A rpc order (fun _ => .refl _) (p := el "portType" [("name", "P")]
      [el "operation" [("name", "Get")] [input "tns:In", output "tns:Out"]]) (List.mem_singleton.2 rfl) (List.mem_singleton.2 rfl)
      (.answered (pre := []) (fun _ h => nomatch h) rfl rfl)
      (.inr ⟨_, .found (m := message "In" [typed]) rfl (Gen.lastSegment_iff.1 rfl) List.mem_cons_self (by decide), rfl, rfl⟩) t⟩

end Verif.Props
