import Verif.Lemmas.Service
import Verif.Props.Sample

/-! # C91: what of a service description matters -/

namespace Verif.Props

open Verif Verif.Model Verif.Model.Wsdl Verif.Spec Verif.Spec.Wsdl Verif.RoXml Verif.Lemmas Verif.Lemmas.Wsdl Verif.Lemmas.Alike
  Verif.Lemmas.Service

/-- **C91**: documents which can be read and describe the same service give the same code, if the hash maps yield the port
types in the same order. -/
theorem C91_service (U : UnicodeTable) {a b : Node} {da db : Definitions} (ha : IsDefinitions a da) (hb : IsDefinitions b db)
    (h : SameService a b) {order order' : Definitions → List PortType} (hp : ∀ p ∈ order da, p ∈ da.portTypes.map (·.2))
    (hp' : ∀ p ∈ order' db, p ∈ db.portTypes.map (·.2))
    (hn : (order da).map (fun p => p.node.attr "name".toList) = (order' db).map fun p => p.node.attr "name".toList) :
    wsdlCode U a order = wsdlCode U b order' :=
  code_same U ha hb h hp hp' hn

private theorem essence_kids {n : Node} {t : String} (ht : t ∈ ["types", "message", "portType"]) : kids (essence n) t = kids n t := by
  cases n with
  | text _ => rfl
  | other => rfl
  | element u tg as ns cs =>
    show List.filter _ (List.filter _ cs) = List.filter _ cs
    rw [List.filter_filter]
    refine List.filter_congr fun c _ => ?_
    by_cases he : c.isElement = true <;> by_cases hc : c.tag = t.toList
    · simp only [he, hc, decide_true, Bool.and_true, Bool.true_and, List.any_eq_true, decide_eq_true_eq]
      exact ⟨t, ht, rfl⟩
    · simp [hc]
    · simp [he]
    · simp [he]

private theorem essence_none {n : Node} {t : String} (ht : t.toList ∉ ["types", "message", "portType"].map String.toList) :
    kids (essence n) t = [] := by
  cases n with
  | text _ => rfl
  | other => rfl
  | element u tg as ns cs =>
    show List.filter _ (List.filter _ cs) = []
    rw [List.filter_filter, List.filter_eq_nil_iff]
    intro c _ h
    simp only [Bool.and_eq_true, decide_eq_true_eq, List.any_eq_true] at h
    obtain ⟨⟨-, h1⟩, -, s, h2, h3⟩ := h
    exact ht (List.mem_map.2 ⟨s, h2, h3.symm.trans h1⟩)

private theorem operation_refl (o : Node) : SameOperation o o :=
  ⟨rfl, fun _ => .rfl, by
    generalize allKids o = l
    induction l with
    | nil => exact .nil
    | cons c _ ih => exact .cons ⟨rfl, fun _ => rfl⟩ ih⟩

private theorem forall₂_refl {α : Type} {R : α → α → Prop} : ∀ {l : List α}, (∀ x ∈ l, R x x) → List.Forall₂ R l l
  | [], _ => .nil
  | x :: _, h => .cons (h x (.head _)) (forall₂_refl fun y hy => h y (.tail _ hy))

/-- Entries under the same name are for the same element. -/
private theorem table_unique {α : Type} {R : Node → α → Prop} {ns : List Node} {es : List (Str × α)} (h : Table "name" R ns es)
    {m m' : Node} (hm : m ∈ ns) (hm' : m' ∈ ns) (he : m.attr "name".toList = m'.attr "name".toList) : m = m' := by
  obtain ⟨h1, h2⟩ := h
  have hmap : ns.map (fun n => n.attr "name".toList) = (es.map (·.1)).map some := by
    clear hm hm' h2
    induction h1 with
    | nil => rfl
    | cons h _ ih => rw [List.map_cons, h.1, ih]; rfl
  have hnd : (ns.map fun n => n.attr "name".toList).Nodup := by
    rw [hmap]
    exact h2.map fun _ _ h => Option.some.inj h
  exact List.inj_on_of_nodup_map hnd hm hm' he

/-- **C91**: of a document which can be read, only the schemas, messages and port types matter: bindings, services, imports,
comments and other elements do not. -/
theorem C91_essence (U : UnicodeTable) {a : Node} {da : Definitions} (ha : IsDefinitions a da) :
    ∃ db, IsDefinitions (essence a) db ∧ db.portTypes = da.portTypes ∧
      ∀ order order' : Definitions → List PortType, order da = order' db → (∀ p ∈ order da, p ∈ da.portTypes.map (·.2)) →
        wsdlCode U a order = wsdlCode U (essence a) order' := by
  have hb : IsDefinitions (essence a) ⟨essence a, [], da.types, da.messages, da.portTypes, []⟩ :=
    ⟨rfl, by rw [essence_kids (by decide)]; exact ha.types,
     by rw [essence_none (by decide)]; exact ⟨.nil, .nil⟩,
     by rw [essence_kids (by decide)]; exact ha.messages,
     by rw [essence_kids (by decide)]; exact ha.portTypes,
     by rw [essence_none (by decide)]; exact ⟨.nil, .nil⟩⟩
  refine ⟨_, hb, rfl, fun order order' ho hp => code_same U ha hb ?_ hp (by rw [← ho]; exact hp) (by rw [ho])⟩
  refine ⟨by cases a <;> rfl, by cases a <;> rfl, ?_, ?_, ?_, ?_⟩
  · unfold embedded
    rw [essence_kids (by decide)]
    refine forall₂_refl fun s hs => ?_
    obtain ⟨t, -, hs⟩ := List.mem_flatMap.1 hs
    have := (List.mem_filter.1 hs).2
    simp only [Bool.and_eq_true, decide_eq_true_eq] at this
    exact ⟨this.2, alike_refl this.1, rfl⟩
  · intro nm
    rw [essence_kids (by decide)]
  · intro m hm m' hm' he
    rw [essence_kids (by decide)] at hm'
    obtain rfl := table_unique ha.messages hm hm' he
    exact forall₂_refl fun _ _ _ _ => rfl
  · intro p hp p' hp' he
    rw [essence_kids (by decide)] at hp'
    obtain rfl := table_unique ha.portTypes hp hp' he
    exact forall₂_refl fun o _ => operation_refl o

/-! ## A document -/

open Verif.Props.Sample

private def part (n t : String) : Node := el "part" [("name", n), ("element", t)] []
private def inMsg : Node := el "message" [("name", "In")] [part "x" "tns:X"]
private def outMsg : Node := el "message" [("name", "Out")] [part "y" "tns:Y"]
private def get (more : List Node) : Node := el "operation" [("name", "GetIt")]
  ([el "input" [("message", "tns:In")] [], el "output" [("message", "tns:Out")] []] ++ more)
private def schema : Node := doc [el "element" [("name", "X")] [], el "element" [("name", "Y")] []]
private def order (d : Definitions) : List PortType := d.portTypes.map (·.2)

private def plain : Node := el "definitions" []
  [el "types" [] [schema], inMsg, outMsg, el "portType" [("name", "P")] [get []]]

private def full : Node := el "definitions" [("name", "Service")]
  [el "import" [("namespace", "urn:x")] [], el "portType" [("name", "P")] [.other, get [.text "\n".toList]], .other,
   el "message" [("name", "Out")] [.other, part "y" "tns:Y"], el "types" [("id", "t")] [.text " ".toList, schema], inMsg,
   el "binding" [("name", "B"), ("type", "tns:P")] [el "operation" [("name", "GetIt")] []], el "service" [("name", "S")] []]

private theorem read_ok {n : Node} (h : (match Definitions.new n with | .ok _ => true | _ => false) = true) :
    ∃ d, Definitions.new n = .ok d := by
  cases hn : Definitions.new n with
  | ok d => exact ⟨d, rfl⟩
  | err => rw [hn] at h; cases h
  | panic => rw [hn] at h; cases h

private theorem same_full : SameService plain full where
  target := by decide +kernel
  namespaces := rfl
  schemas := .cons ⟨rfl, alike_refl rfl, rfl⟩ .nil
  names nm := by
    show (∃ m ∈ [inMsg, outMsg], _) ↔ ∃ m ∈ [el "message" [("name", "Out")] [.other, part "y" "tns:Y"], inMsg], _
    simp only [List.mem_cons, List.not_mem_nil, or_false, exists_eq_or_imp, exists_eq_left]
    exact or_comm
  messages m hm m' hm' he := by
    have hm : m ∈ [inMsg, outMsg] := hm
    have hm' : m' ∈ [el "message" [("name", "Out")] [.other, part "y" "tns:Y"], inMsg] := hm'
    simp only [List.mem_cons, List.not_mem_nil, or_false] at hm hm'
    rcases hm with rfl | rfl <;> rcases hm' with rfl | rfl
    · exact absurd he (by decide +kernel)
    · exact .cons (fun _ _ => rfl) .nil
    · exact .cons (fun _ _ => rfl) .nil
    · exact absurd he (by decide +kernel)
  portTypes p hp p' hp' _ := by
    obtain rfl : p = el "portType" [("name", "P")] [get []] := List.mem_singleton.1 hp
    obtain rfl : p' = el "portType" [("name", "P")] [.other, get [.text "\n".toList]] := List.mem_singleton.1 hp'
    refine .cons ⟨rfl, fun d => ?_, .cons ⟨rfl, fun _ => rfl⟩ (.cons ⟨rfl, fun _ => rfl⟩ .nil)⟩ .nil
    have h1 := documentation_iff ⟨get [], .oneWay .other⟩ d
    have h2 := documentation_iff ⟨get [.text "\n".toList], .oneWay .other⟩ d
    exact h1.symm.trans h2

/-- The two documents give the same code, as does the essence of the second one; the code is not empty. -/
example : wsdlCode A plain order = wsdlCode A full order ∧ wsdlCode A full order = wsdlCode A (essence full) order ∧
    essence full ≠ full ∧ ∃ t, wsdlCode A plain order = .ok t ∧ t ≠ [] := by
  obtain ⟨da, ha⟩ := read_ok (n := plain) (by decide +kernel)
  obtain ⟨db, hb⟩ := read_ok (n := full) (by decide +kernel)
  have ha' := (definitions_iff _ _).1 ha
  have hb' := (definitions_iff _ _).1 hb
  have hn : ∀ {n d}, IsDefinitions n d → (order d).map (fun p => p.node.attr "name".toList) =
      (kids n "portType").map fun p => p.attr "name".toList := by
    rintro n d ⟨-, -, -, -, ⟨h, -⟩, -⟩
    unfold order
    generalize kids n "portType" = l at h
    generalize d.portTypes = r at h
    induction h with
    | nil => rfl
    | cons h _ ih => rw [List.map_cons, List.map_cons, List.map_cons, ih, h.2.1]
  refine ⟨C91_service A ha' hb' same_full (fun _ h => h) (fun _ h => h) ((hn ha').trans (hn hb').symm), ?_,
    fun h => absurd (congrArg (fun n => n.children.length) h) (by decide +kernel), ?_⟩
  · obtain ⟨d, -, h2, h3⟩ := C91_essence A hb'
    exact h3 order order (by unfold order; rw [h2]) fun _ h => h
  · obtain ⟨t, ht⟩ := ok_of (r := wsdlCode A plain order) (by decide +kernel)
    refine ⟨t, ht, fun h => ?_⟩
    subst h
    exact absurd (congrArg okText ht) (by decide +kernel)

end Verif.Props
