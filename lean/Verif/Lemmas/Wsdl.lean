import Verif.Spec.Wsdl
import Verif.Lemmas.Parse
import Verif.Lemmas.GenNames

/-! # Reading WSDL documents -/

namespace Verif.Lemmas.Wsdl

open Verif Verif.RoXml Verif.Model Verif.Model.Wsdl Verif.Spec Verif.Spec.Wsdl

/-! ## Tags -/

/-- The tags with a meaning. -/
def tagTable : List (String × WsdlType) :=
  [("binding", .binding), ("definitions", .definitions), ("documentation", .documentation), ("import", .import),
   ("input", .input), ("fault", .fault), ("message", .message), ("operation", .operation), ("output", .output),
   ("part", .part), ("portType", .portType), ("types", .types)]

def tagRows : List (Str × WsdlType) := tagTable.map fun r => (r.1.toList, r.2)

theorem wsdlType_chain (n : Node) : wsdlType n = Parse.chain (.unknownElement n.tag) n.tag tagRows := rfl

theorem tagTable_known {s : String} {t : WsdlType} (h : (s, t) ∈ tagTable) (x : Str) : t ≠ .unknownElement x := by
  have : ∀ e ∈ tagTable, (match e.2 with | .unknownElement _ => false | _ => true) = true := by decide
  rintro rfl
  cases this _ h

theorem wsdlType_iff {s : String} {t : WsdlType} (h : (s, t) ∈ tagTable) (n : Node) :
    wsdlType n = t ↔ n.tag = s.toList := by
  have key : ∀ e ∈ tagTable, ∀ e' ∈ tagTable, e.2 = e'.2 → e.1 = e'.1 := by decide
  rw [wsdlType_chain]
  constructor
  · intro hw
    rcases Parse.chain_cases (.unknownElement n.tag) n.tag tagRows with ⟨r, hr, ht, e⟩ | ⟨-, e⟩
    · obtain ⟨⟨s', t'⟩, hs, rfl⟩ := List.mem_map.1 hr
      rw [ht]
      exact congrArg String.toList (key _ hs _ h (e.symm.trans hw))
    · exact absurd (hw.symm.trans e) (tagTable_known h _)
  · intro hn
    rw [hn]
    exact Parse.chain_mem (r := (s.toList, t)) _ (by decide +kernel)
      (List.mem_map_of_mem (f := fun r : String × WsdlType => (r.1.toList, r.2)) h)

theorem isInput (n : Node) : wsdlType n = .input ↔ n.tag = "input".toList := wsdlType_iff (by decide) n
theorem isOutput (n : Node) : wsdlType n = .output ↔ n.tag = "output".toList := wsdlType_iff (by decide) n
theorem isFault (n : Node) : wsdlType n = .fault ↔ n.tag = "fault".toList := wsdlType_iff (by decide) n
theorem isPart (n : Node) : wsdlType n = .part ↔ n.tag = "part".toList := wsdlType_iff (by decide) n
theorem isOperation (n : Node) : wsdlType n = .operation ↔ n.tag = "operation".toList := wsdlType_iff (by decide) n
theorem isDocumentation (n : Node) : wsdlType n = .documentation ↔ n.tag = "documentation".toList :=
  wsdlType_iff (by decide) n

theorem filter_kids (n : Node) {s : String} {t : WsdlType} (h : (s, t) ∈ tagTable) :
    (n.children.filter fun k => decide (k.isElement = true ∧ wsdlType k = t)) = kids n s := by
  rw [kids]
  refine List.filter_congr fun k _ => ?_
  rw [Bool.eq_iff_iff]
  simp [wsdlType_iff h]

/-! ## Operations -/

theorem faultsOf_eq (ns : List Node) : faultsOf ns = ns.filter fun n => n.tag = "fault".toList := by
  rw [faultsOf]
  refine List.filter_congr fun k _ => ?_
  rw [Bool.eq_iff_iff, decide_eq_true_iff, decide_eq_true_iff, isFault]

theorem OpContent.skip {n : Node} {ns : List Node} {t : OperationType} (hn : Skipped n) :
    OpContent (n :: ns) t ↔ OpContent ns t := by
  have hc : ∀ {pre : List Node} (m : Node), (∀ x ∈ pre, Skipped x) → ∀ x ∈ n :: pre, Skipped x := by
    intro pre m hp x hx
    rcases List.mem_cons.1 hx with rfl | hx
    · exact hn
    · exact hp x hx
  constructor
  · intro h
    generalize hl : n :: ns = l at h
    cases h with
    | @oneWay pre i hp hi =>
      cases pre with
      | nil => cases hl; exact absurd hi hn.1
      | cons p pre => cases hl; exact .oneWay (fun x hx => hp x (List.mem_cons_of_mem _ hx)) hi
    | @requestResponse pre i o rest hp hi ho =>
      cases pre with
      | nil => cases hl; exact absurd hi hn.1
      | cons p pre => cases hl; exact .requestResponse (fun x hx => hp x (List.mem_cons_of_mem _ hx)) hi ho
    | @notification pre o hp ho =>
      cases pre with
      | nil => cases hl; exact absurd ho hn.2
      | cons p pre => cases hl; exact .notification (fun x hx => hp x (List.mem_cons_of_mem _ hx)) ho
    | @solicitResponse pre o i rest hp ho hi =>
      cases pre with
      | nil => cases hl; exact absurd ho hn.2
      | cons p pre => cases hl; exact .solicitResponse (fun x hx => hp x (List.mem_cons_of_mem _ hx)) ho hi
  · intro h
    cases h with
    | @oneWay pre i hp hi => exact .oneWay (pre := n :: pre) (hc n hp) hi
    | @requestResponse pre i o rest hp hi ho => exact .requestResponse (pre := n :: pre) (hc n hp) hi ho
    | @notification pre o hp ho => exact .notification (pre := n :: pre) (hc n hp) ho
    | @solicitResponse pre o i rest hp ho hi => exact .solicitResponse (pre := n :: pre) (hc n hp) ho hi

theorem input_ne_output {n : Node} (h : n.tag = "input".toList) : n.tag ≠ "output".toList := by
  rw [h]; decide

theorem output_ne_input {n : Node} (h : n.tag = "output".toList) : n.tag ≠ "input".toList := by
  rw [h]; decide

/-- An operation starting with `input`. -/
theorem OpContent.input {i : Node} {ns : List Node} {t : OperationType} (hi : i.tag = "input".toList) :
    OpContent (i :: ns) t ↔ (ns = [] ∧ t = .oneWay i) ∨ ∃ o rest, ns = o :: rest ∧ o.tag = "output".toList ∧
      t = .requestResponse i o (rest.filter fun n => n.tag = "fault".toList) := by
  constructor
  · intro h
    generalize hl : i :: ns = l at h
    cases h with
    | @oneWay pre j hp hj =>
      cases pre with
      | nil => cases hl; exact .inl ⟨rfl, rfl⟩
      | cons p pre => cases hl; exact absurd hi (hp _ (List.mem_cons_self ..)).1
    | @requestResponse pre j o rest hp hj ho =>
      cases pre with
      | nil => cases hl; exact .inr ⟨_, _, rfl, ho, rfl⟩
      | cons p pre => cases hl; exact absurd hi (hp _ (List.mem_cons_self ..)).1
    | @notification pre o hp ho =>
      cases pre with
      | nil => cases hl; exact absurd hi (output_ne_input ho)
      | cons p pre => cases hl; exact absurd hi (hp _ (List.mem_cons_self ..)).1
    | @solicitResponse pre o j rest hp ho hj =>
      cases pre with
      | nil => cases hl; exact absurd hi (output_ne_input ho)
      | cons p pre => cases hl; exact absurd hi (hp _ (List.mem_cons_self ..)).1
  · rintro (⟨rfl, rfl⟩ | ⟨o, rest, rfl, ho, rfl⟩)
    · exact .oneWay (pre := []) (fun _ h => nomatch h) hi
    · exact .requestResponse (pre := []) (fun _ h => nomatch h) hi ho

/-- An operation starting with `output`. -/
theorem OpContent.output {o : Node} {ns : List Node} {t : OperationType} (ho : o.tag = "output".toList) :
    OpContent (o :: ns) t ↔ (ns = [] ∧ t = .notification o) ∨ ∃ i rest, ns = i :: rest ∧ i.tag = "input".toList ∧
      t = .solicitResponse o i (rest.filter fun n => n.tag = "fault".toList) := by
  constructor
  · intro h
    generalize hl : o :: ns = l at h
    cases h with
    | @notification pre j hp hj =>
      cases pre with
      | nil => cases hl; exact .inl ⟨rfl, rfl⟩
      | cons p pre => cases hl; exact absurd ho (hp _ (List.mem_cons_self ..)).2
    | @solicitResponse pre j i rest hp hj hi =>
      cases pre with
      | nil => cases hl; exact .inr ⟨_, _, rfl, hi, rfl⟩
      | cons p pre => cases hl; exact absurd ho (hp _ (List.mem_cons_self ..)).2
    | @oneWay pre i hp hi =>
      cases pre with
      | nil => cases hl; exact absurd ho (input_ne_output hi)
      | cons p pre => cases hl; exact absurd ho (hp _ (List.mem_cons_self ..)).2
    | @requestResponse pre i j rest hp hi hj =>
      cases pre with
      | nil => cases hl; exact absurd ho (input_ne_output hi)
      | cons p pre => cases hl; exact absurd ho (hp _ (List.mem_cons_self ..)).2
  · rintro (⟨rfl, rfl⟩ | ⟨i, rest, rfl, hi, rfl⟩)
    · exact .notification (pre := []) (fun _ h => nomatch h) ho
    · exact .solicitResponse (pre := []) (fun _ h => nomatch h) ho hi

theorem not_opContent_nil {t : OperationType} : ¬ OpContent [] t := by
  intro h
  generalize hl : ([] : List Node) = l at h
  cases h with
  | @oneWay pre => cases pre <;> cases hl
  | @requestResponse pre => cases pre <;> cases hl
  | @notification pre => cases pre <;> cases hl
  | @solicitResponse pre => cases pre <;> cases hl

theorem operationTypeGo_iff (ns : List Node) (t : OperationType) : operationTypeGo ns = .ok t ↔ OpContent ns t := by
  induction ns with
  | nil => exact ⟨fun h => (by cases h), fun h => absurd h not_opContent_nil⟩
  | cons n ns ih =>
    unfold operationTypeGo
    by_cases hi : n.tag = "input".toList
    · rw [if_pos ((isInput n).2 hi), OpContent.input hi]
      cases ns with
      | nil =>
        constructor
        · intro h; cases h; exact .inl ⟨rfl, rfl⟩
        · rintro (⟨-, rfl⟩ | ⟨o, rest, h, -⟩)
          · rfl
          · cases h
      | cons o rest =>
        dsimp only
        by_cases ho : o.tag = "output".toList
        · rw [if_pos ((isOutput o).2 ho), faultsOf_eq]
          constructor
          · intro h; cases h; exact .inr ⟨_, _, rfl, ho, rfl⟩
          · rintro (⟨h, -⟩ | ⟨o', rest', h, -, rfl⟩)
            · cases h
            · cases h; rfl
        · rw [if_neg fun h => ho ((isOutput o).1 h)]
          constructor
          · intro h; cases h
          · rintro (⟨h, -⟩ | ⟨o', rest', h, h', -⟩)
            · cases h
            · cases h; exact absurd h' ho
    · rw [if_neg fun h => hi ((isInput n).1 h)]
      by_cases ho : n.tag = "output".toList
      · rw [if_pos ((isOutput n).2 ho), OpContent.output ho]
        cases ns with
        | nil =>
          constructor
          · intro h; cases h; exact .inl ⟨rfl, rfl⟩
          · rintro (⟨-, rfl⟩ | ⟨o, rest, h, -⟩)
            · rfl
            · cases h
        | cons o rest =>
          dsimp only
          by_cases hi' : o.tag = "input".toList
          · rw [if_pos ((isInput o).2 hi'), faultsOf_eq]
            constructor
            · intro h; cases h; exact .inr ⟨_, _, rfl, hi', rfl⟩
            · rintro (⟨h, -⟩ | ⟨o', rest', h, -, rfl⟩)
              · cases h
              · cases h; rfl
          · rw [if_neg fun h => hi' ((isInput o).1 h)]
            constructor
            · intro h; cases h
            · rintro (⟨h, -⟩ | ⟨o', rest', h, h', -⟩)
              · cases h
              · cases h; exact absurd h' hi'
      · rw [if_neg fun h => ho ((isOutput n).1 h), ih, OpContent.skip ⟨hi, ho⟩]

theorem operationTypeGo_ne_err (ns : List Node) : operationTypeGo ns ≠ .err := by
  induction ns with
  | nil => intro h; cases h
  | cons n ns ih =>
    unfold operationTypeGo
    split
    · split
      · split <;> (intro h; cases h)
      · intro h; cases h
    · split
      · split
        · split <;> (intro h; cases h)
        · intro h; cases h
      · exact ih

theorem operation_iff (n : Node) (o : Operation) : Operation.new n = .ok o ↔ IsOperation n o := by
  rw [Operation.new, Res.bind_eq_ok]
  constructor
  · rintro ⟨t, h1, h2⟩
    cases h2
    exact ⟨rfl, (operationTypeGo_iff _ _).1 h1⟩
  · rintro ⟨rfl, h⟩
    exact ⟨o.ty, (operationTypeGo_iff _ _).2 h, rfl⟩

theorem operation_ne_err (n : Node) : Operation.new n ≠ .err := by
  rw [Operation.new]
  exact Parse.bind_ne_err (operationTypeGo_ne_err _) fun _ _ h => by cases h

theorem portType_iff (n : Node) (p : PortType) : PortType.new n = .ok p ↔ IsPortType n p := by
  rw [PortType.new, Res.bind_eq_ok, filter_kids n (s := "operation") (by decide)]
  constructor
  · rintro ⟨ops, h1, h2⟩
    cases h2
    exact ⟨rfl, (Parse.mapM'_ok.1 h1).imp fun _ _ => (operation_iff _ _).1⟩
  · rintro ⟨rfl, h⟩
    exact ⟨p.operations, Parse.mapM'_ok.2 (h.imp fun _ _ => (operation_iff _ _).2), rfl⟩

theorem portType_ne_err (n : Node) : PortType.new n ≠ .err := by
  rw [PortType.new]
  exact Parse.bind_ne_err (Parse.mapM'_ne_err fun a _ => operation_ne_err a) fun _ _ h => by cases h

theorem message_iff (n : Node) (m : Message) : m = Message.new n ↔ IsMessage n m := by
  rw [Message.new, filter_kids n (s := "part") (by decide)]
  constructor
  · rintro rfl; exact ⟨rfl, rfl⟩
  · rintro ⟨h1, h2⟩
    cases m
    cases h1
    exact congrArg (Message.mk _) h2

/-! ## Bindings -/

theorem last?_snoc (l : List Node) (n : Node) : last? (l ++ [n]) = some n := by simp [last?]

theorem kids_go (ns : List Node) (o : BindingOperation) :
    let r := ns.foldl BindingOperation.add o
    r.node = o.node ∧
    r.input = (last? (ns.filter fun c => c.tag = "input".toList)).or o.input ∧
    r.output = (last? (ns.filter fun c => c.tag = "output".toList)).or o.output ∧
    r.faults = o.faults ++ ns.filter fun c => c.tag = "fault".toList := by
  induction ns generalizing o with
  | nil => exact ⟨rfl, rfl, rfl, (List.append_nil _).symm⟩
  | cons n ns ih =>
    have hl : ∀ (l : List Node) (a b : Option Node), (last? l).or (a.or b) = ((last? l).or a).or b := by
      intro l a b; exact (Option.or_assoc ..).symm
    have hcons : ∀ (l : List Node), last? (n :: l) = (last? l).or (some n) := by
      intro l
      rw [last?, List.reverse_cons, List.head?_append, last?]
      rfl
    obtain ⟨h1, h2, h3, h4⟩ := ih (o.add n)
    rw [List.foldl_cons]
    refine ⟨h1.trans ?_, h2.trans ?_, h3.trans ?_, h4.trans ?_⟩
    · unfold BindingOperation.add; split <;> rfl
    · by_cases hi : n.tag = "input".toList
      · rw [List.filter_cons_of_pos (p := fun c : Node => decide (c.tag = "input".toList)) (decide_eq_true hi), hcons, Option.or_assoc]
        unfold BindingOperation.add
        rw [(isInput n).2 hi]; rfl
      · rw [List.filter_cons_of_neg (by simpa using hi)]
        unfold BindingOperation.add
        split <;> first | rfl | exact absurd ((isInput n).1 (by assumption)) hi
    · by_cases hi : n.tag = "output".toList
      · rw [List.filter_cons_of_pos (p := fun c : Node => decide (c.tag = "output".toList)) (decide_eq_true hi), hcons, Option.or_assoc]
        unfold BindingOperation.add
        rw [(isOutput n).2 hi]; rfl
      · rw [List.filter_cons_of_neg (by simpa using hi)]
        unfold BindingOperation.add
        split <;> first | rfl | exact absurd ((isOutput n).1 (by assumption)) hi
    · by_cases hi : n.tag = "fault".toList
      · rw [List.filter_cons_of_pos (p := fun c : Node => decide (c.tag = "fault".toList)) (decide_eq_true hi)]
        unfold BindingOperation.add
        rw [(isFault n).2 hi]
        simp
      · rw [List.filter_cons_of_neg (by simpa using hi)]
        unfold BindingOperation.add
        split <;> first | rfl | exact absurd ((isFault n).1 (by assumption)) hi

theorem filter_elements (n : Node) (s : String) : ((elements n).filter fun c => c.tag = s.toList) = kids n s := by
  rw [elements, List.filter_filter, kids]
  refine List.filter_congr fun k _ => ?_
  rw [Bool.and_comm]

theorem bindingOperation_iff (n : Node) (o : BindingOperation) : o = BindingOperation.new n ↔ IsBindingOperation n o := by
  obtain ⟨h1, h2, h3, h4⟩ := kids_go (elements n) ⟨n, none, none, []⟩
  rw [filter_elements, Option.or_none] at h2 h3
  rw [filter_elements] at h4
  constructor
  · rintro rfl; exact ⟨h1, h2, h3, h4⟩
  · rintro ⟨g1, g2, g3, g4⟩
    have e : ∀ a b : BindingOperation, a.node = b.node → a.input = b.input → a.output = b.output → a.faults = b.faults →
        a = b := by
      rintro ⟨⟩ ⟨⟩ h h' h'' h'''
      cases h; cases h'; cases h''; cases h'''; rfl
    exact e _ _ (g1.trans h1.symm) (g2.trans h2.symm) (g3.trans h3.symm) (g4.trans h4.symm)

theorem forall₂_map {α β : Type} {f : α → β} : ∀ {l : List α} {r : List β}, r = l.map f ↔ List.Forall₂ (fun a b => b = f a) l r
  | [], r => by
    constructor
    · rintro rfl; exact .nil
    · intro h; cases h; rfl
  | a :: l, r => by
    constructor
    · rintro rfl; exact .cons rfl (forall₂_map.1 rfl)
    · intro h
      cases h with
      | cons h1 h2 => rw [h1, forall₂_map.2 h2]; rfl

theorem binding_iff (n : Node) (b : Binding) : b = Binding.new n ↔ IsBinding n b := by
  rw [Binding.new, filter_kids n (s := "operation") (by decide)]
  constructor
  · rintro rfl
    exact ⟨rfl, (forall₂_map.1 rfl).imp fun a b h => (bindingOperation_iff a b).1 h⟩
  · rintro ⟨h1, h2⟩
    have := forall₂_map.2 (h2.imp fun a b h => (bindingOperation_iff a b).2 h)
    obtain ⟨bn, bo⟩ := b
    cases h1
    exact congrArg (Binding.mk bn) this

end Verif.Lemmas.Wsdl
