import Verif.Lemmas.WsdlDoc

/-! # Signatures -/

namespace Verif.Lemmas.Wsdl

open Verif Verif.RoXml Verif.Model Verif.Model.Wsdl Verif.Spec Verif.Spec.Wsdl

/-- A parameter as the program holds it. -/
def toParam (a : Arg) : Param := ⟨a.1, a.2⟩

/-- The function as the program holds it. -/
def toFunction (sig : Sig) : Function :=
  ⟨[genericTransport], argumentTransport :: sig.args.map toParam, sig.ret.getD [], sig.doc, sig.name⟩

theorem param_iff (p : Node) (q : Param) : Param.new p = .ok q ↔ ∃ a, PartArg p a ∧ q = toParam a := by
  rw [Param.new, Res.bind_eq_ok]
  constructor
  · rintro ⟨n, h1, h2⟩
    replace h1 := required_ok.1 h1
    obtain ⟨t, h3, h4⟩ := Res.bind_eq_ok.1 h2
    refine ⟨(n, t), ?_, (Res.ok.inj h4).symm⟩
    cases he : p.attr "element".toList with
    | some e =>
      rw [he] at h3
      have : t = e := (Res.ok.inj h3).symm
      exact .element h1 (he.trans (congrArg some this.symm))
    | none =>
      rw [he] at h3
      cases ht : p.attr "type".toList with
      | none => rw [ht] at h3; cases h3
      | some e =>
        rw [ht] at h3
        have : t = e := (Res.ok.inj h3).symm
        exact .type h1 he (ht.trans (congrArg some this.symm))
  · rintro ⟨a, h, rfl⟩
    cases h with
    | element h1 h2 =>
      refine ⟨_, required_ok.2 h1, Res.bind_eq_ok.2 ⟨_, ?_, rfl⟩⟩
      rw [h2]; rfl
    | type h1 h2 h3 =>
      refine ⟨_, required_ok.2 h1, Res.bind_eq_ok.2 ⟨_, ?_, rfl⟩⟩
      rw [h2, h3]; rfl

theorem params_iff (ps : List Node) (qs : List Param) :
    Res.mapM' Param.new ps = .ok qs ↔ ∃ as, List.Forall₂ PartArg ps as ∧ qs = as.map toParam := by
  rw [Parse.mapM'_ok]
  constructor
  · intro h
    induction h with
    | nil => exact ⟨[], .nil, rfl⟩
    | cons h1 _ ih =>
      obtain ⟨a, ha, rfl⟩ := (param_iff _ _).1 h1
      obtain ⟨as, has, rfl⟩ := ih
      exact ⟨a :: as, .cons ha has, rfl⟩
  · rintro ⟨as, h, rfl⟩
    induction h with
    | nil => exact .nil
    | cons h1 _ ih => exact .cons ((param_iff _ _).2 ⟨_, h1, rfl⟩) ih

theorem inputParams_iff {o : Option Message} (ho : ∀ m ∈ o, IsMessage m.node m) (qs : List Param) :
    inputParams o = .ok qs ↔ ∃ as, Args (o.map (·.node)) as ∧ qs = argumentTransport :: as.map toParam := by
  cases o with
  | none =>
    constructor
    · intro h; exact ⟨[], .none, (Res.ok.inj h).symm⟩
    · rintro ⟨as, h, rfl⟩
      cases h; rfl
  | some m =>
    have hp := (ho m rfl).2
    have hmany : (∀ p, m.parts ≠ [p]) → inputParams (some m) =
        (Res.mapM' Param.new m.parts).bind fun l => .ok (argumentTransport :: l) := by
      intro hne
      unfold inputParams
      dsimp only
      split
      · next p hps => exact absurd hps (hne p)
      · rfl
    by_cases h1 : ∃ p, m.parts = [p]
    · obtain ⟨p, h1⟩ := h1
      have e : inputParams (some m) = (required p "element".toList).bind fun t =>
          .ok [argumentTransport, ⟨"request".toList, t⟩] := by
        unfold inputParams; dsimp only; rw [h1]
      rw [e, Res.bind_eq_ok]
      rw [h1] at hp
      constructor
      · rintro ⟨t, h2, h3⟩
        exact ⟨_, .single hp.symm (required_ok.1 h2), (Res.ok.inj h3).symm⟩
      · rintro ⟨as, h, rfl⟩
        cases h with
        | single h2 h3 =>
          have : [_] = [p] := h2.symm.trans hp.symm
          cases this
          exact ⟨_, required_ok.2 h3, rfl⟩
        | parts h2 h3 => exact absurd (congrArg List.length hp.symm) h2
    · rw [hmany fun p hp' => h1 ⟨p, hp'⟩, Res.bind_eq_ok]
      have hlen : (kids m.node "part").length ≠ 1 := by
        intro hl
        rw [← hp] at hl
        obtain ⟨p, hpp⟩ := List.length_eq_one_iff.1 hl
        exact h1 ⟨p, hpp⟩
      constructor
      · rintro ⟨l, h2, h3⟩
        obtain ⟨as, h4, rfl⟩ := (params_iff _ _).1 h2
        rw [hp] at h4
        exact ⟨as, .parts hlen h4, (Res.ok.inj h3).symm⟩
      · rintro ⟨as, h, rfl⟩
        cases h with
        | single h2 h3 => exact absurd (congrArg List.length h2) hlen
        | parts h2 h3 =>
          refine ⟨_, (params_iff _ _).2 ⟨as, ?_, rfl⟩, rfl⟩
          rw [hp]; exact h3

theorem outputType_iff {o : Option Message} (ho : ∀ m ∈ o, IsMessage m.node m) (t : Str) :
    outputType o = .ok t ↔ ∃ r, Returns (o.map (·.node)) r ∧ t = r.getD [] := by
  cases o with
  | none =>
    constructor
    · intro h; exact ⟨none, .none, (Res.ok.inj h).symm⟩
    · rintro ⟨r, h, rfl⟩
      cases h; rfl
  | some m =>
    have hp := (ho m rfl).2
    cases hps : m.parts with
    | nil =>
      have e : outputType (some m) = .panic := by unfold outputType; dsimp only; rw [hps]
      rw [e]
      constructor
      · intro h; cases h
      · rintro ⟨r, h, -⟩
        cases h with
        | part h =>
          have : [] = _ :: _ := hps.symm.trans (hp.trans h)
          cases this
    | cons p ps =>
      have e : outputType (some m) = .ok ((p.attr "element".toList).getD []) := by
        unfold outputType; dsimp only; rw [hps]
      rw [e]
      constructor
      · intro h
        exact ⟨_, .part (hp.symm.trans hps), (Res.ok.inj h).symm⟩
      · rintro ⟨r, h, rfl⟩
        cases h with
        | part h =>
          have : _ :: _ = p :: ps := h.symm.trans (hp.symm.trans hps)
          cases this; rfl

theorem documentation_iff (o : Operation) (doc : Option Str) : o.documentation = doc ↔ IsDoc o.node doc := by
  rw [Operation.documentation, IsDoc]
  have hft : ∀ (e : Node) s, e.firstText = some s ↔ ∃ rest, e.children = .text s :: rest := by
    intro e s
    rw [Node.firstText]
    split
    · next t rest h =>
      constructor
      · intro h'
        cases h'
        exact ⟨rest, h⟩
      · rintro ⟨r, h'⟩
        rw [h] at h'
        cases h'; rfl
    · next h =>
      constructor
      · intro h'; cases h'
      · rintro ⟨r, h'⟩; exact absurd h' (h s r)
  have hf : ∀ (e : Node) s, (if wsdlType e = .documentation then e.firstText else none) = some s ↔
      e.tag = "documentation".toList ∧ ∃ rest, e.children = .text s :: rest := by
    intro e s
    by_cases h : wsdlType e = .documentation
    · rw [if_pos h, hft]
      exact ⟨fun h' => ⟨(isDocumentation e).1 h, h'⟩, fun h' => h'.2⟩
    · rw [if_neg h]
      exact ⟨fun h' => (by cases h'), fun h' => absurd ((isDocumentation e).2 h'.1) h⟩
  have hn : ∀ (e : Node), (if wsdlType e = .documentation then e.firstText else none) = none ↔
      (e.tag = "documentation".toList → ∀ s rest, e.children ≠ .text s :: rest) := by
    intro e
    rw [Option.eq_none_iff_forall_ne_some]
    constructor
    · intro h ht s rest hc
      exact h s ((hf e s).2 ⟨ht, rest, hc⟩)
    · intro h s hs
      obtain ⟨ht, rest, hc⟩ := (hf e s).1 hs
      exact h ht s rest hc
  generalize hl : o.node.children = l
  clear hl
  cases doc with
  | none =>
    rw [List.findSome?_eq_none_iff]
    constructor
    · intro h
      exact .inr ⟨rfl, fun e he => (hn e).1 (h e he)⟩
    · rintro (⟨_, _, _, _, _, -, -, -, h, -⟩ | ⟨-, h⟩)
      · cases h
      · exact fun e he => (hn e).2 (h e he)
  | some s =>
    rw [List.findSome?_eq_some_iff]
    constructor
    · rintro ⟨pre, d, post, h1, h2, h3⟩
      obtain ⟨ht, rest, hc⟩ := (hf d s).1 h2
      exact .inl ⟨pre, d, post, s, rest, h1, ht, hc, rfl, fun e he => (hn e).1 (h3 e he)⟩
    · rintro (⟨pre, d, post, s', rest, h1, ht, hc, h, h3⟩ | ⟨h, -⟩)
      · cases h
        exact ⟨pre, d, post, h1, (hf d s).2 ⟨ht, rest, hc⟩, fun e he => (hn e).2 (h3 e he)⟩
      · cases h

/-- A reference is to a message. -/
theorem refers_message {root param : Node} {d : Definitions} (hd : IsDefinitions root d) {x : Option Node}
    (h : Refers root param x) : ∃ o, d.messageByParam param = .ok o ∧ o.map (·.node) = x ∧ ∀ m ∈ o, IsMessage m.node m := by
  cases x with
  | none => exact ⟨none, (messageByParam_iff hd _ none).2 ⟨h, fun _ h => (by cases h)⟩, rfl, fun _ h => (by cases h)⟩
  | some n =>
    have hm : IsMessage n (Message.new n) := (message_iff n _).1 rfl
    refine ⟨some (Message.new n), (messageByParam_iff hd _ _).2 ⟨h, ?_⟩, rfl, ?_⟩
    all_goals
      intro m h'
      cases h'
      exact hm

theorem function_iff {root : Node} {d : Definitions} (hd : IsDefinitions root d) (op : Operation) (f : Function) :
    Function.new op d = .ok f ↔ ∃ sig, Signature root op sig ∧ f = toFunction sig := by
  obtain ⟨n, ty⟩ := op
  rw [Function.new, Res.bind_eq_ok]
  constructor
  · rintro ⟨ms, h1, h2⟩
    obtain ⟨args, h3, h4⟩ := Res.bind_eq_ok.1 h2
    obtain ⟨r, h5, h6⟩ := Res.bind_eq_ok.1 h4
    obtain ⟨nm, h7, h8⟩ := Res.bind_eq_ok.1 h6
    have hdoc := (documentation_iff ⟨n, ty⟩ _).1 rfl
    replace h7 : n.attr "name".toList = some nm := required_ok.1 h7
    cases ty with
    | requestResponse i o fs =>
      obtain ⟨a, ha, h1⟩ := Res.bind_eq_ok.1 h1
      obtain ⟨b, hb, h1⟩ := Res.bind_eq_ok.1 h1
      obtain rfl := Res.ok.inj h1
      obtain ⟨ra, ma⟩ := (messageByParam_iff hd _ _).1 ha
      obtain ⟨rb, mb⟩ := (messageByParam_iff hd _ _).1 hb
      obtain ⟨as, has, rfl⟩ := (inputParams_iff ma _).1 h3
      obtain ⟨rt, hrt, rfl⟩ := (outputType_iff mb _).1 h5
      exact ⟨⟨nm, as, rt, _⟩, .requestResponse ra rb has hrt h7 hdoc, (Res.ok.inj h8).symm⟩
    | oneWay i =>
      obtain ⟨a, ha, h1⟩ := Res.bind_eq_ok.1 h1
      obtain rfl := Res.ok.inj h1
      obtain ⟨ra, ma⟩ := (messageByParam_iff hd _ _).1 ha
      obtain ⟨as, has, rfl⟩ := (inputParams_iff ma _).1 h3
      obtain rfl := Res.ok.inj h5
      exact ⟨⟨nm, as, none, _⟩, .oneWay ra has rfl h7 hdoc, (Res.ok.inj h8).symm⟩
    | solicitResponse o i fs => cases h1
    | notification o => cases h1
  · rintro ⟨sig, h, rfl⟩
    cases h with
    | @oneWay _ i m _ h1 h2 h3 h4 h5 =>
      obtain ⟨a, ha, rfl, ma⟩ := refers_message hd h1
      refine ⟨(a, none), ?_, ?_⟩
      · show (d.messageByParam i).bind _ = _
        rw [ha]; rfl
      · refine Res.bind_eq_ok.2 ⟨_, (inputParams_iff ma _).2 ⟨_, h2, rfl⟩, ?_⟩
        refine Res.bind_eq_ok.2 ⟨_, rfl, Res.bind_eq_ok.2 ⟨_, required_ok.2 h4, ?_⟩⟩
        rw [toFunction, h3, (documentation_iff ⟨n, .oneWay i⟩ _).2 h5]
        rfl
    | @requestResponse _ i o fs m m' _ h1 h1' h2 h3 h4 h5 =>
      obtain ⟨a, ha, rfl, ma⟩ := refers_message hd h1
      obtain ⟨b, hb, rfl, mb⟩ := refers_message hd h1'
      refine ⟨(a, b), ?_, ?_⟩
      · show (d.messageByParam i).bind _ = _
        rw [ha, Res.ok_bind, hb]; rfl
      · refine Res.bind_eq_ok.2 ⟨_, (inputParams_iff ma _).2 ⟨_, h2, rfl⟩, ?_⟩
        refine Res.bind_eq_ok.2 ⟨_, (outputType_iff mb _).2 ⟨_, h3, rfl⟩, Res.bind_eq_ok.2 ⟨_, required_ok.2 h4, ?_⟩⟩
        rw [toFunction, (documentation_iff ⟨n, .requestResponse i o fs⟩ _).2 h5]

theorem param_ne_err (p : Node) : Param.new p ≠ .err :=
  Parse.bind_ne_err (required_ne_err _ _) fun _ _ => Parse.bind_ne_err (by
    cases (p.attr "element".toList).or (p.attr "type".toList) <;> (intro h; cases h)) fun _ _ h => by cases h

theorem operationMessages_ne_err (d : Definitions) (ty : OperationType) : operationMessages d ty ≠ .err := by
  cases ty with
  | requestResponse i o fs =>
    exact Parse.bind_ne_err (messageByParam_ne_err _ _) fun _ _ =>
      Parse.bind_ne_err (messageByParam_ne_err _ _) fun _ _ h => by cases h
  | oneWay i => exact Parse.bind_ne_err (messageByParam_ne_err _ _) fun _ _ h => by cases h
  | solicitResponse o i fs => intro h; cases h
  | notification o => intro h; cases h

theorem inputParams_ne_err (o : Option Message) : inputParams o ≠ .err := by
  cases o with
  | none => intro h; cases h
  | some m =>
    unfold inputParams
    dsimp only
    split
    · exact Parse.bind_ne_err (required_ne_err _ _) fun _ _ h => by cases h
    · exact Parse.bind_ne_err (Parse.mapM'_ne_err fun p _ => param_ne_err p) fun _ _ h => by cases h

theorem outputType_ne_err (o : Option Message) : outputType o ≠ .err := by
  cases o with
  | none => intro h; cases h
  | some m =>
    unfold outputType
    dsimp only
    split <;> (intro h; cases h)

theorem function_ne_err (op : Operation) (d : Definitions) : Function.new op d ≠ .err :=
  Parse.bind_ne_err (operationMessages_ne_err _ _) fun _ _ => Parse.bind_ne_err (inputParams_ne_err _) fun _ _ =>
    Parse.bind_ne_err (outputType_ne_err _) fun _ _ => Parse.bind_ne_err (required_ne_err _ _) fun _ _ h => by cases h

/-- The function for a signature as text. -/
def functionText (U : UnicodeTable) (tns : Option Namespace) (sig : Sig) : Str := generateFunction U (toFunction sig) tns

theorem generate_iff (U : UnicodeTable) {root : Node} {d : Definitions} (hd : IsDefinitions root d)
    (order : List PortType) (t : Str) : generate U d order = .ok t ↔
      ∃ sigs, List.Forall₂ (Signature root) (order.flatMap PortType.operations) sigs ∧
        t = sigs.flatMap (functionText U (targetNamespace root)) := by
  have htn : d.targetNs = targetNamespace root := by rw [Definitions.targetNs, hd.node]
  rw [Wsdl.generate, Res.bind_eq_ok]
  constructor
  · rintro ⟨ts, h1, h2⟩
    rw [Parse.mapM'_ok] at h1
    have : ∃ sigs, List.Forall₂ (Signature root) (order.flatMap PortType.operations) sigs ∧
        ts = sigs.map (functionText U (targetNamespace root)) := by
      clear h2
      generalize order.flatMap PortType.operations = l at h1
      induction h1 with
      | nil => exact ⟨[], .nil, rfl⟩
      | cons h1 _ ih =>
        obtain ⟨f, hf, h2⟩ := Res.bind_eq_ok.1 h1
        obtain ⟨sig, hs, rfl⟩ := (function_iff hd _ _).1 hf
        obtain ⟨sigs, hss, rfl⟩ := ih
        refine ⟨sig :: sigs, .cons hs hss, ?_⟩
        rw [← Res.ok.inj h2, htn]
        rfl
    obtain ⟨sigs, h3, rfl⟩ := this
    exact ⟨sigs, h3, (Res.ok.inj h2).symm⟩
  · rintro ⟨sigs, h, rfl⟩
    refine ⟨sigs.map (functionText U (targetNamespace root)), ?_, rfl⟩
    rw [Parse.mapM'_ok]
    generalize order.flatMap PortType.operations = l at h
    induction h with
    | nil => exact .nil
    | cons h1 _ ih =>
      refine .cons (Res.bind_eq_ok.2 ⟨_, (function_iff hd _ _).2 ⟨_, h1, rfl⟩, ?_⟩) ih
      rw [htn]; rfl

theorem generate_ne_err (U : UnicodeTable) (d : Definitions) (order : List PortType) : generate U d order ≠ .err :=
  Parse.bind_ne_err (Parse.mapM'_ne_err fun op _ => Parse.bind_ne_err (function_ne_err op d) fun _ _ h => by cases h)
    fun _ _ h => by cases h

end Verif.Lemmas.Wsdl
