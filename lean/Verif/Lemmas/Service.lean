import Verif.Spec.Service
import Verif.Lemmas.Alike
import Verif.Lemmas.WsdlSig

/-! # Service descriptions which say the same give the same code -/

namespace Verif.Lemmas.Service

open Verif Verif.Model Verif.Model.Wsdl Verif.Spec Verif.Spec.Wsdl Verif.RoXml Verif.Lemmas Verif.Lemmas.Wsdl Verif.Lemmas.Alike

/-- With the same message. -/
def SameRef (p p' : Node) : Prop := p.attr "message".toList = p'.attr "message".toList

/-- Operations of the same kind. -/
inductive SameTy : OperationType → OperationType → Prop where
  | requestResponse {i i' o o' fs fs'} : SameRef i i' → SameRef o o' → SameTy (.requestResponse i o fs) (.requestResponse i' o' fs')
  | oneWay {i i'} : SameRef i i' → SameTy (.oneWay i) (.oneWay i')
  | solicitResponse {i i' o o' fs fs'} : SameTy (.solicitResponse o i fs) (.solicitResponse o' i' fs')
  | notification {o o'} : SameTy (.notification o) (.notification o')

theorem type_tag {n n' : Node} (h : n.tag = n'.tag) : wsdlType n = wsdlType n' := by unfold wsdlType; rw [h]

theorem go_same {l l' : List Node} (h : List.Forall₂ SameParam l l') : SameRes SameTy (operationTypeGo l) (operationTypeGo l') := by
  induction h with
  | nil => trivial
  | @cons c c' l l' h1 h2 ih =>
    unfold operationTypeGo
    rw [type_tag h1.1]
    by_cases hi : wsdlType c' = .input
    · have h1' : SameRef c c' := h1.2 (by rw [h1.1, (isInput c').1 hi]; exact .head _)
      rw [if_pos hi, if_pos hi]
      cases h2 with
      | nil => exact .oneWay h1'
      | @cons o o' _ _ h3 _ =>
        dsimp only
        rw [type_tag h3.1]
        by_cases ho : wsdlType o' = .output
        · rw [if_pos ho, if_pos ho]; exact .requestResponse h1' (h3.2 (by rw [h3.1, (isOutput o').1 ho]; exact .tail _ (.head _)))
        · rw [if_neg ho, if_neg ho]; trivial
    · rw [if_neg hi, if_neg hi]
      by_cases ho : wsdlType c' = .output
      · rw [if_pos ho, if_pos ho]
        cases h2 with
        | nil => exact .notification
        | @cons i i' _ _ h3 _ =>
          dsimp only
          rw [type_tag h3.1]
          by_cases hi : wsdlType i' = .input
          · rw [if_pos hi, if_pos hi]; exact .solicitResponse
          · rw [if_neg hi, if_neg hi]; trivial
      · rw [if_neg ho, if_neg ho]; exact ih

theorem ty_same {l l' : List Node} (h : List.Forall₂ SameParam l l') {t t' : OperationType} (ht : OpContent l t) (ht' : OpContent l' t') :
    SameTy t t' := by
  have := go_same h
  rw [(operationTypeGo_iff l t).2 ht, (operationTypeGo_iff l' t').2 ht'] at this
  exact this

/-- The same message, or none in both cases. -/
def SameOpt : Option Message → Option Message → Prop
  | none, none => True
  | some m, some m' => List.Forall₂ SamePart m.parts m'.parts
  | _, _ => False

theorem params_same {ps ps' : List Node} (h : List.Forall₂ SamePart ps ps') : Res.mapM' Param.new ps = Res.mapM' Param.new ps' := by
  refine mapM'_congr h fun p p' hp => ?_
  unfold Param.new required
  rw [hp "name" (by decide), hp "element" (by decide), hp "type" (by decide)]

theorem input_same {m m' : Option Message} (h : SameOpt m m') : inputParams m = inputParams m' := by
  match m, m', h with
  | none, none, _ => rfl
  | some ⟨n, ps⟩, some ⟨n', ps'⟩, h =>
    have h : List.Forall₂ SamePart ps ps' := h
    have hp := params_same h
    unfold inputParams
    dsimp only
    cases h with
    | nil => rfl
    | @cons p p' l l' h1 h2 =>
      cases h2 with
      | nil =>
        show (required p _).bind _ = (required p' _).bind _
        unfold required
        rw [h1 "element" (by decide)]
      | cons =>
        show (Res.mapM' Param.new _).bind _ = (Res.mapM' Param.new _).bind _
        rw [hp]

theorem output_same {m m' : Option Message} (h : SameOpt m m') : outputType m = outputType m' := by
  match m, m', h with
  | none, none, _ => rfl
  | some ⟨n, ps⟩, some ⟨n', ps'⟩, h =>
    have h : List.Forall₂ SamePart ps ps' := h
    unfold outputType
    dsimp only
    cases h with
    | nil => rfl
    | cons h1 _ => dsimp only; rw [h1 "element" (by decide)]

section
variable {a b : Node} {da db : Definitions}

theorem message_same (ha : IsDefinitions a da) (hb : IsDefinitions b db) (h : SameService a b) {p p' : Node} (hp : SameRef p p') :
    SameRes SameOpt (da.messageByParam p) (db.messageByParam p') := by
  unfold Definitions.messageByParam required
  have hr : p.attr _ = p'.attr _ := hp
  cases hm : p.attr "message".toList with
  | none => rw [hm] at hr; rw [← hr]; trivial
  | some r =>
    rw [hm] at hr
    have e1 : da.messageByParam p = .ok (get da.messages (lastSegment r)) := by
      unfold Definitions.messageByParam required; rw [hm]; rfl
    have e2 : db.messageByParam p' = .ok (get db.messages (lastSegment r)) := by
      unfold Definitions.messageByParam required; rw [← hr]; rfl
    obtain ⟨r1, k1⟩ := (messageByParam_iff ha p _).1 e1
    obtain ⟨r2, k2⟩ := (messageByParam_iff hb p' _).1 e2
    rw [← hr]
    show SameOpt (get da.messages (lastSegment r)) (get db.messages (lastSegment r))
    generalize get da.messages (lastSegment r) = o at r1 k1
    generalize get db.messages (lastSegment r) = o' at r2 k2
    have key : ∀ {q q' : Str}, AfterLastColon r q → AfterLastColon r q' → q = q' := fun h h' => Gen.afterLastColon_unique h h'
    match o, o', r1, r2, k1, k2 with
    | none, none, _, _, _, _ => trivial
    | some m, none, .found g1 g2 g3 g4, .missing f1 f2 f3, _, _ =>
      obtain rfl := Option.some.inj (g1.symm.trans hm)
      obtain rfl := Option.some.inj (f1.symm.trans hr.symm)
      obtain ⟨m', h1, h2⟩ := (h.names _).1 ⟨_, g3, g4⟩
      exact absurd (key g2 f2 ▸ h2) (f3 m' h1)
    | none, some m, .missing f1 f2 f3, .found g1 g2 g3 g4, _, _ =>
      obtain rfl := Option.some.inj (f1.symm.trans hm)
      obtain rfl := Option.some.inj (g1.symm.trans hr.symm)
      obtain ⟨m', h1, h2⟩ := (h.names _).2 ⟨_, g3, g4⟩
      exact absurd (key g2 f2 ▸ h2) (f3 m' h1)
    | some m, some m', .found f1 f2 f3 f4, .found g1 g2 g3 g4, k1, k2 =>
      obtain rfl := Option.some.inj (f1.symm.trans hm)
      obtain rfl := Option.some.inj (g1.symm.trans hr.symm)
      obtain rfl := key f2 g2
      have := h.messages _ f3 _ g3 (f4.trans g4.symm)
      show List.Forall₂ SamePart m.parts m'.parts
      rw [(k1 m rfl).2, (k2 m' rfl).2]
      exact this

theorem messages_same (ha : IsDefinitions a da) (hb : IsDefinitions b db) (h : SameService a b) {t t' : OperationType}
    (ht : SameTy t t') :
    SameRes (fun x y => SameOpt x.1 y.1 ∧ SameOpt x.2 y.2) (operationMessages da t) (operationMessages db t') := by
  cases ht with
  | solicitResponse => trivial
  | notification => trivial
  | oneWay hi =>
    have := message_same ha hb h hi
    show SameRes _ ((da.messageByParam _).bind _) ((db.messageByParam _).bind _)
    generalize da.messageByParam _ = x at this ⊢
    generalize db.messageByParam _ = y at this ⊢
    cases x <;> cases y <;> first | exact ⟨this, trivial⟩ | exact this.elim | trivial
  | requestResponse hi ho =>
    have h1 := message_same ha hb h hi
    have h2 := message_same ha hb h ho
    show SameRes _ ((da.messageByParam _).bind fun _ => (da.messageByParam _).bind _) ((db.messageByParam _).bind fun _ => (db.messageByParam _).bind _)
    generalize da.messageByParam _ = x at h1 ⊢
    generalize db.messageByParam _ = y at h1 ⊢
    generalize da.messageByParam _ = z at h2 ⊢
    generalize db.messageByParam _ = w at h2 ⊢
    cases x <;> cases y <;> first | exact h1.elim | skip
    all_goals first | trivial | skip
    cases z <;> cases w <;> first | exact ⟨h1, h2⟩ | exact h2.elim | trivial

theorem function_same (ha : IsDefinitions a da) (hb : IsDefinitions b db) (h : SameService a b) {o o' : Operation}
    (ho : SameOperation o.node o'.node) (ht : SameTy o.ty o'.ty) : Function.new o da = Function.new o' db := by
  unfold Function.new
  have hd : o.documentation = o'.documentation :=
    ((documentation_iff o' _).2 ((ho.doc _).1 ((documentation_iff o _).1 rfl))).symm
  have hn : o.name = o'.name := by unfold Operation.name required; rw [ho.name]
  refine (messages_same ha hb h ht).bind fun x y hxy => ?_
  rw [input_same hxy.1, output_same hxy.2, hd, hn]

theorem target_same (ha : IsDefinitions a da) (hb : IsDefinitions b db) (h : SameService a b) : da.targetNs = db.targetNs := by
  unfold Definitions.targetNs targetNamespace
  rw [ha.node, hb.node, h.target, h.namespaces]

/-- Operations in their port types. -/
theorem operations_same {n n' : Node} {p p' : PortType} (hp : IsPortType n p) (hp' : IsPortType n' p') (h : SamePortType n n') :
    List.Forall₂ (fun o o' : Operation => SameOperation o.node o'.node ∧ SameTy o.ty o'.ty) p.operations p'.operations := by
  obtain ⟨-, hp⟩ := hp
  obtain ⟨-, hp'⟩ := hp'
  unfold SamePortType at h
  generalize kids n "operation" = l at hp h
  generalize kids n' "operation" = l' at hp' h
  generalize p.operations = r at hp ⊢
  generalize p'.operations = r' at hp' ⊢
  induction h generalizing r r' with
  | nil => cases hp; cases hp'; exact .nil
  | cons h1 _ ih =>
    cases hp with
    | cons k1 k2 =>
      cases hp' with
      | cons k3 k4 => exact .cons ⟨by rw [k1.1, k3.1]; exact h1, ty_same h1.kids k1.2 k3.2⟩ (ih _ k2 _ k4)

theorem entry_mem {α : Type} {R : Node → α → Prop} {ns : List Node} {es : List (Str × α)} (h : Table "name" R ns es) {v : α}
    (hv : v ∈ es.map (·.2)) : ∃ n ∈ ns, R n v := by
  obtain ⟨e, he, rfl⟩ := List.mem_map.1 hv
  obtain ⟨n, hn, h⟩ := forall₂_right h.1 he
  exact ⟨n, hn, h.2⟩

theorem generate_same (U : UnicodeTable) (ha : IsDefinitions a da) (hb : IsDefinitions b db) (h : SameService a b)
    {ps ps' : List PortType} (hp : ∀ p ∈ ps, p ∈ da.portTypes.map (·.2)) (hp' : ∀ p ∈ ps', p ∈ db.portTypes.map (·.2))
    (hn : ps.map (fun p => p.node.attr "name".toList) = ps'.map fun p => p.node.attr "name".toList) :
    Wsdl.generate U da ps = Wsdl.generate U db ps' := by
  have hf : List.Forall₂ (fun o o' : Operation => SameOperation o.node o'.node ∧ SameTy o.ty o'.ty)
      (ps.flatMap PortType.operations) (ps'.flatMap PortType.operations) := by
    induction ps generalizing ps' with
    | nil =>
      cases ps' with
      | nil => exact .nil
      | cons => cases hn
    | cons p ps ih =>
      cases ps' with
      | nil => cases hn
      | cons p' ps' =>
        obtain ⟨n1, n2⟩ := List.cons.inj hn
        rw [List.flatMap_cons, List.flatMap_cons]
        obtain ⟨n, k1, k2⟩ := entry_mem ha.portTypes (hp p (.head _))
        obtain ⟨n', k3, k4⟩ := entry_mem hb.portTypes (hp' p' (.head _))
        have n1 : p.node.attr "name".toList = p'.node.attr "name".toList := n1
        rw [k2.1, k4.1] at n1
        refine forall₂_join (operations_same k2 k4 (h.portTypes n k1 n' k3 n1)) (ih (fun q hq => hp q (.tail _ hq))
          (fun q hq => hp' q (.tail _ hq)) n2)
  unfold Wsdl.generate
  rw [target_same ha hb h, mapM'_congr hf fun o o' ho => by rw [function_same ha hb h ho.1 ho.2]]

theorem schemas_eq (n : Node) : schemas n = kids n "schema" := by
  unfold schemas kids
  exact List.filter_congr fun k _ => by simp

/-- The code for the embedded schemas does not depend on what they are in. -/
theorem schemas_code (U : UnicodeTable) (root : Node) (d : Definitions) (hd : IsDefinitions root d) :
    Res.mapM' (fun (s : Node × Node) => (parseSchema U s.2 [s.1, root]).bind fun f => (generateRsFile U f).1)
        (d.types.flatMap fun t => (schemas t).map fun s => (t, s)) =
      Res.mapM' (fun s => (parseSchema U s []).bind fun f => (generateRsFile U f).1) (embedded root) := by
  have hf : List.Forall₂ (fun (s : Node × Node) s' => s.2 = s' ∧ s'.tag = "schema".toList)
      (d.types.flatMap fun t => (schemas t).map fun s => (t, s)) (embedded root) := by
    unfold embedded
    rw [hd.types]
    generalize kids root "types" = ts
    induction ts with
    | nil => exact .nil
    | cons t ts ih =>
      rw [List.flatMap_cons, List.flatMap_cons, schemas_eq]
      refine forall₂_join ?_ ih
      have : ∀ s ∈ kids t "schema", s.tag = "schema".toList := fun s hs => by
        have := (List.mem_filter.1 hs).2
        simp only [Bool.and_eq_true, decide_eq_true_eq] at this
        exact this.2
      generalize kids t "schema" = l at this
      induction l with
      | nil => exact .nil
      | cons s l ih => exact .cons ⟨rfl, this s (.head _)⟩ (ih fun x hx => this x (.tail _ hx))
  refine mapM'_congr hf fun s s' hs => ?_
  obtain ⟨rfl, ht⟩ := hs
  rw [schema_congr ⟨ht, alike_refl (by
    cases hx : s.2 with
    | element => rfl
    | text x => rw [hx] at ht; exact absurd (show ([] : Str) = _ from ht) (by decide)
    | other => rw [hx] at ht; exact absurd (show ([] : Str) = _ from ht) (by decide)), rfl⟩ [s.1, root] []]

theorem code_same (U : UnicodeTable) (ha : IsDefinitions a da) (hb : IsDefinitions b db) (h : SameService a b)
    {order order' : Definitions → List PortType} (hp : ∀ p ∈ order da, p ∈ da.portTypes.map (·.2))
    (hp' : ∀ p ∈ order' db, p ∈ db.portTypes.map (·.2))
    (hn : (order da).map (fun p => p.node.attr "name".toList) = (order' db).map fun p => p.node.attr "name".toList) :
    wsdlCode U a order = wsdlCode U b order' := by
  unfold wsdlCode
  rw [(definitions_iff a da).2 ha, (definitions_iff b db).2 hb, Res.ok_bind, Res.ok_bind, schemas_code U a da ha,
    schemas_code U b db hb, generate_same U ha hb h hp hp' hn,
    mapM'_congr h.schemas fun s s' hs => by rw [schema_congr hs [] []]]

end

end Verif.Lemmas.Service
