import Verif.Spec.Pieces
import Verif.Props.Client
import Verif.Lemmas.Service

/-! # C102: the pieces of the code of a client -/

namespace Verif.Props

open Verif Verif.Model Verif.Model.Wsdl Verif.Spec Verif.Spec.Wsdl Verif.RoXml Verif.Lemmas Verif.Lemmas.Wsdl Verif.Lemmas.Service

private theorem schemas_iff {U : UnicodeTable} {ss : List Node} {c : Str} :
    SchemasCode U ss c ↔ ∃ parts, List.Forall₂ (SchemaCode U) ss parts ∧ c = parts.flatten := by
  constructor
  · intro h
    induction h with
    | nil => exact ⟨[], .nil, rfl⟩
    | cons h _ ih =>
      obtain ⟨parts, h1, rfl⟩ := ih
      exact ⟨_ :: parts, .cons h h1, rfl⟩
  · rintro ⟨parts, h, rfl⟩
    induction h with
    | nil => exact .nil
    | cons h _ ih => exact .cons h ih

private theorem schemaCode_unique {U : UnicodeTable} {s : Node} {p q : Str} (h : SchemaCode U s p) (h' : SchemaCode U s q) : p = q := by
  obtain ⟨f, h1, h2⟩ := h
  obtain ⟨g, h3, h4⟩ := h'
  obtain rfl := Res.ok.inj (h1.symm.trans h3)
  exact Res.ok.inj (h2.symm.trans h4)

private theorem schemas_unique {U : UnicodeTable} {ss : List Node} {p q : Str} (h : SchemasCode U ss p) (h' : SchemasCode U ss q) : p = q := by
  induction h generalizing q with
  | nil => cases h'; rfl
  | cons h _ ih =>
    cases h' with
    | cons k1 k2 => rw [schemaCode_unique h k1, ih k2]

private theorem schemas_append {U : UnicodeTable} {l r : List Node} {c : Str} :
    SchemasCode U (l ++ r) c ↔ ∃ x y, SchemasCode U l x ∧ SchemasCode U r y ∧ c = x ++ y := by
  induction l generalizing c with
  | nil =>
    constructor
    · exact fun h => ⟨[], c, .nil, h, rfl⟩
    · rintro ⟨x, y, h1, h2, rfl⟩
      cases h1
      exact h2
  | cons s l ih =>
    constructor
    · intro h
      cases h with
      | cons h1 h2 =>
        obtain ⟨x, y, k1, k2, rfl⟩ := ih.1 h2
        exact ⟨_, y, .cons h1 k1, k2, (List.append_assoc _ _ _).symm⟩
    · rintro ⟨x, y, h1, h2, rfl⟩
      cases h1 with
      | cons k1 k2 =>
        rw [List.append_assoc]
        exact .cons k1 (ih.2 ⟨_, _, k2, h2, rfl⟩)

/-- **C102** The code of a client: that of its schemas, then the functions. -/
theorem C102_code (U : UnicodeTable) {root : Node} {d : Definitions} (hd : IsDefinitions root d) (ord : Definitions → List PortType)
    (t : Str) : wsdlCode U root ord = .ok t ↔
      ∃ c q, SchemasCode U (embedded root) c ∧ Wsdl.generate U d (ord d) = .ok q ∧ t = c ++ q := by
  unfold wsdlCode
  rw [(definitions_iff root d).2 hd, Res.ok_bind, schemas_code U root d hd]
  constructor
  · intro h
    obtain ⟨code, hc, h⟩ := Res.bind_eq_ok.1 h
    obtain ⟨fns, hf, h⟩ := Res.bind_eq_ok.1 h
    obtain rfl := Res.ok.inj h
    rw [Parse.mapM'_ok] at hc
    exact ⟨code.flatten, fns, schemas_iff.2 ⟨code, hc.imp fun s part h => Res.bind_eq_ok.1 h, rfl⟩, hf, by simp⟩
  · rintro ⟨c, q, h1, h2, rfl⟩
    obtain ⟨parts, h3, rfl⟩ := schemas_iff.1 h1
    refine Res.bind_eq_ok.2 ⟨parts, ?_, Res.bind_eq_ok.2 ⟨q, h2, by simp⟩⟩
    rw [Parse.mapM'_ok]
    exact h3.imp fun s part h => Res.bind_eq_ok.2 h

/-! ## Functions -/

private theorem signature_congr {a b : Node} {op : Operation} {sig : Sig} (h : ∀ i, ParamOf op i → ∀ x, Refers a i x → Refers b i x)
    (hs : Signature a op sig) : Signature b op sig := by
  cases hs with
  | oneWay h1 h2 h3 h4 h5 => exact .oneWay (h _ .oneWay _ h1) h2 h3 h4 h5
  | requestResponse h1 h2 h3 h4 h5 h6 => exact .requestResponse (h _ .input _ h1) (h _ .output _ h2) h3 h4 h5 h6

private theorem forall₂_congr_mem {α β : Type _} {R S : α → β → Prop} {as : List α} {bs : List β} (h : List.Forall₂ R as bs)
    (hi : ∀ a ∈ as, ∀ b, R a b → S a b) : List.Forall₂ S as bs := by
  induction h with
  | nil => exact .nil
  | cons h _ ih => exact .cons (hi _ List.mem_cons_self _ h) (ih fun a ha => hi a (List.mem_cons_of_mem _ ha))

private theorem generate_mono {U : UnicodeTable} {a b : Node} {da db : Definitions} (ha : IsDefinitions a da) (hb : IsDefinitions b db)
    (ht : targetNamespace a = targetNamespace b) {ps qs : List PortType} (ho : ps.flatMap PortType.operations = qs.flatMap PortType.operations)
    (hr : ∀ op ∈ ps.flatMap PortType.operations, ∀ i, ParamOf op i → ∀ x, Refers a i x → Refers b i x) {q : Str}
    (h : Wsdl.generate U da ps = .ok q) : Wsdl.generate U db qs = .ok q := by
  obtain ⟨sigs, h1, h2⟩ := (generate_iff U ha ps q).1 h
  refine (generate_iff U hb qs q).2 ⟨sigs, ?_, by rw [← ht]; exact h2⟩
  rw [← ho]
  exact forall₂_congr_mem h1 fun op hop sig hs => signature_congr (hr op hop) hs

private theorem forall₂_split {α β : Type _} {R : α → β → Prop} : ∀ {l r : List α} {bs : List β}, List.Forall₂ R (l ++ r) bs →
    ∃ x y, List.Forall₂ R l x ∧ List.Forall₂ R r y ∧ bs = x ++ y
  | [], _, bs, h => ⟨[], bs, .nil, h, rfl⟩
  | _ :: _, _, _, .cons h1 h2 => by
    obtain ⟨x, y, k1, k2, rfl⟩ := forall₂_split h2
    exact ⟨_ :: x, y, .cons h1 k1, k2, rfl⟩

private theorem generate_split {U : UnicodeTable} {a : Node} {d : Definitions} (hd : IsDefinitions a d) {ps : List PortType}
    {l r : List Operation} (ho : ps.flatMap PortType.operations = l ++ r) (n : Node) (q : Str) :
    Wsdl.generate U d ps = .ok q ↔ ∃ x y, Wsdl.generate U d [⟨n, l⟩] = .ok x ∧ Wsdl.generate U d [⟨n, r⟩] = .ok y ∧ q = x ++ y := by
  have hone : ∀ l : List Operation, [(⟨n, l⟩ : PortType)].flatMap PortType.operations = l := fun l => by simp
  simp only [generate_iff U hd, ho, hone]
  constructor
  · rintro ⟨sigs, h, rfl⟩
    obtain ⟨s1, s2, k1, k2, rfl⟩ := forall₂_split h
    exact ⟨_, _, ⟨s1, k1, rfl⟩, ⟨s2, k2, rfl⟩, List.flatMap_append⟩
  · rintro ⟨x, y, ⟨s1, k1, rfl⟩, ⟨s2, k2, rfl⟩, rfl⟩
    exact ⟨s1 ++ s2, List.rel_append k1 k2, List.flatMap_append.symm⟩

private theorem refers_same {a b i : Node} (hm : kids a "message" = kids b "message") {x : Option Node} (h : Refers a i x) : Refers b i x := by
  cases h with
  | found h1 h2 h3 h4 => exact .found h1 h2 (hm ▸ h3) h4
  | missing h1 h2 h3 => exact .missing h1 h2 fun m h => h3 m (hm ▸ h)

/-- **C102** One more schema in a description adds the code of this schema, after that of the schemas before it, and changes nothing
else. -/
theorem C102_schema (U : UnicodeTable) {a b s : Node} {da db : Definitions} (ha : IsDefinitions a da) (hb : IsDefinitions b db)
    {l r : List Node} (he : embedded a = l ++ r) (he' : embedded b = l ++ s :: r)
    (hm : kids a "message" = kids b "message") (ht : targetNamespace a = targetNamespace b) {ord ord' : Definitions → List PortType}
    (ho : (ord da).flatMap PortType.operations = (ord' db).flatMap PortType.operations) (t : Str) :
    wsdlCode U b ord' = .ok t ↔
      ∃ x p y, wsdlCode U a ord = .ok (x ++ y) ∧ SchemasCode U l x ∧ SchemaCode U s p ∧ t = x ++ (p ++ y) := by
  have hg : ∀ q, Wsdl.generate U da (ord da) = .ok q ↔ Wsdl.generate U db (ord' db) = .ok q := fun q =>
    ⟨generate_mono ha hb ht ho fun _ _ _ _ _ h => refers_same hm h, generate_mono hb ha ht.symm ho.symm fun _ _ _ _ _ h => refers_same hm.symm h⟩
  rw [C102_code U hb, he']
  constructor
  · rintro ⟨c, q, h1, h2, rfl⟩
    obtain ⟨x, y, k1, k2, rfl⟩ := schemas_append.1 h1
    cases k2 with
    | @cons _ _ p y k2 k3 =>
      refine ⟨x, p, y ++ q, (C102_code U ha _ _).2 ⟨x ++ y, q, ?_, (hg q).2 h2, by simp⟩, k1, k2, by simp⟩
      rw [he]
      exact schemas_append.2 ⟨x, y, k1, k3, rfl⟩
  · rintro ⟨x, p, y, h, k1, k2, rfl⟩
    obtain ⟨c, q, h1, h2, e⟩ := (C102_code U ha _ _).1 h
    rw [he] at h1
    obtain ⟨x', y', k3, k4, rfl⟩ := schemas_append.1 h1
    obtain rfl := schemas_unique k1 k3
    rw [List.append_assoc] at e
    obtain rfl := List.append_cancel_left e
    exact ⟨x ++ (p ++ y'), q, schemas_append.2 ⟨x, _, k1, .cons k2 k4, rfl⟩, (hg q).1 h2, by simp⟩

/-- **C102** One more operation adds its function, after those of the operations before it, and changes nothing else. -/
theorem C102_operation (U : UnicodeTable) {a b : Node} {da db : Definitions} (ha : IsDefinitions a da) (hb : IsDefinitions b db)
    (he : embedded a = embedded b) (hm : kids a "message" = kids b "message") (ht : targetNamespace a = targetNamespace b)
    {ord ord' : Definitions → List PortType} {l r : List Operation} {op : Operation}
    (ho : (ord da).flatMap PortType.operations = l ++ r) (ho' : (ord' db).flatMap PortType.operations = l ++ op :: r) (n : Node) (t : Str) :
    wsdlCode U b ord' = .ok t ↔
      ∃ c x p y, wsdlCode U a ord = .ok (c ++ (x ++ y)) ∧ SchemasCode U (embedded a) c ∧ Wsdl.generate U da [⟨n, l⟩] = .ok x ∧
        Wsdl.generate U db [⟨n, [op]⟩] = .ok p ∧ t = c ++ (x ++ (p ++ y)) := by
  have hg : ∀ (k : List Operation) q, Wsdl.generate U da [⟨n, k⟩] = .ok q ↔ Wsdl.generate U db [⟨n, k⟩] = .ok q := fun k q =>
    ⟨generate_mono ha hb ht rfl fun _ _ _ _ _ h => refers_same hm h, generate_mono hb ha ht.symm rfl fun _ _ _ _ _ h => refers_same hm.symm h⟩
  have hop : [(⟨n, op :: r⟩ : PortType)].flatMap PortType.operations = [op] ++ r := by simp
  rw [C102_code U hb, ← he]
  constructor
  · rintro ⟨c, q, h1, h2, rfl⟩
    obtain ⟨x, y, k1, k2, rfl⟩ := (generate_split hb ho' n q).1 h2
    obtain ⟨p, y, k4, k3, rfl⟩ := (generate_split hb hop n y).1 k2
    exact ⟨c, x, p, y, (C102_code U ha _ _).2 ⟨c, x ++ y, h1, (generate_split ha ho n _).2 ⟨x, y, (hg l x).2 k1, (hg r y).2 k3, rfl⟩, rfl⟩, h1,
      (hg l x).2 k1, k4, rfl⟩
  · rintro ⟨c, x, p, y, h, k0, k1, k2, rfl⟩
    obtain ⟨c', q, h1, h2, e⟩ := (C102_code U ha _ _).1 h
    obtain rfl := schemas_unique k0 h1
    obtain rfl := List.append_cancel_left e
    obtain ⟨x', y', k3, k4, e⟩ := (generate_split ha ho n _).1 h2
    obtain rfl := Res.ok.inj (k1.symm.trans k3)
    obtain rfl := List.append_cancel_left e
    exact ⟨c, _, h1, (generate_split hb ho' n _).2 ⟨x, p ++ y, (hg l x).1 k1, (generate_split hb hop n _).2 ⟨p, y, k2, (hg r y).1 k4, rfl⟩, rfl⟩, rfl⟩

/-- **C102** One more message to which no operation refers changes nothing. -/
theorem C102_message (U : UnicodeTable) {a b m : Node} {da db : Definitions} (ha : IsDefinitions a da) (hb : IsDefinitions b db)
    (he : embedded a = embedded b) (ht : targetNamespace a = targetNamespace b) {l r : List Node}
    (hm : kids a "message" = l ++ r) (hm' : kids b "message" = l ++ m :: r) {ord ord' : Definitions → List PortType}
    (ho : (ord da).flatMap PortType.operations = (ord' db).flatMap PortType.operations)
    (hu : ∀ op ∈ (ord da).flatMap PortType.operations, ∀ i, ParamOf op i → ∀ nm, RefersToName i nm → m.attr "name".toList ≠ some nm) (t : Str) :
    wsdlCode U a ord = .ok t ↔ wsdlCode U b ord' = .ok t := by
  have hmem : ∀ k, k ∈ kids b "message" ↔ k ∈ kids a "message" ∨ k = m := fun k => by
    rw [hm, hm', List.mem_append, List.mem_append, List.mem_cons]
    tauto
  have hg : ∀ q, Wsdl.generate U da (ord da) = .ok q ↔ Wsdl.generate U db (ord' db) = .ok q := fun q => by
    constructor
    · refine generate_mono ha hb ht ho fun op hop i hi x h => ?_
      cases h with
      | found h1 h2 h3 h4 => exact .found h1 h2 ((hmem _).2 (.inl h3)) h4
      | missing h1 h2 h3 =>
        refine .missing h1 h2 fun k hk => ?_
        rcases (hmem k).1 hk with hk | rfl
        · exact h3 k hk
        · exact hu op hop i hi _ ⟨_, h1, h2⟩
    · refine generate_mono hb ha ht.symm ho.symm fun op hop i hi x h => ?_
      rw [← ho] at hop
      cases h with
      | found h1 h2 h3 h4 =>
        rcases (hmem _).1 h3 with hk | rfl
        · exact .found h1 h2 hk h4
        · exact absurd h4 (hu op hop i hi _ ⟨_, h1, h2⟩)
      | missing h1 h2 h3 => exact .missing h1 h2 fun k hk => h3 k ((hmem k).2 (.inl hk))
  rw [C102_code U ha, C102_code U hb, he]
  simp only [hg]

private theorem generate_cons {U : UnicodeTable} {a : Node} {d : Definitions} (hd : IsDefinitions a d) (p : PortType) (ps : List PortType) (q : Str) :
    Wsdl.generate U d (p :: ps) = .ok q ↔ ∃ x y, Wsdl.generate U d [p] = .ok x ∧ Wsdl.generate U d ps = .ok y ∧ q = x ++ y := by
  have hone : [p].flatMap PortType.operations = p.operations := by simp
  simp only [generate_iff U hd, hone, List.flatMap_cons]
  constructor
  · rintro ⟨sigs, h, rfl⟩
    obtain ⟨s1, s2, k1, k2, rfl⟩ := forall₂_split h
    exact ⟨_, _, ⟨s1, k1, rfl⟩, ⟨s2, k2, rfl⟩, List.flatMap_append⟩
  · rintro ⟨x, y, ⟨s1, k1, rfl⟩, ⟨s2, k2, rfl⟩, rfl⟩
    exact ⟨s1 ++ s2, List.rel_append k1 k2, List.flatMap_append.symm⟩

private theorem generate_list {U : UnicodeTable} {a : Node} {d : Definitions} (hd : IsDefinitions a d) (ps : List PortType) (q : Str) :
    Wsdl.generate U d ps = .ok q ↔ ∃ fs, List.Forall₂ (fun p f => Wsdl.generate U d [p] = .ok f) ps fs ∧ q = fs.flatten := by
  induction ps generalizing q with
  | nil =>
    constructor
    · intro h
      obtain ⟨sigs, k, rfl⟩ := (generate_iff U hd [] q).1 h
      cases k
      exact ⟨[], .nil, rfl⟩
    · rintro ⟨fs, h, rfl⟩
      cases h
      exact (generate_iff U hd [] _).2 ⟨[], .nil, rfl⟩
  | cons p ps ih =>
    rw [generate_cons hd]
    constructor
    · rintro ⟨x, y, h1, h2, rfl⟩
      obtain ⟨fs, h3, rfl⟩ := (ih y).1 h2
      exact ⟨x :: fs, .cons h1 h3, rfl⟩
    · rintro ⟨fs, h, rfl⟩
      cases h with
      | cons h1 h2 => exact ⟨_, _, h1, (ih _).2 ⟨_, h2, rfl⟩, rfl⟩

private theorem forall₂_perm {α β : Type _} {R : α → β → Prop} {as as' : List α} (hp : as.Perm as') : ∀ {bs : List β},
    List.Forall₂ R as bs → ∃ bs', List.Forall₂ R as' bs' ∧ bs.Perm bs' := by
  induction hp with
  | nil => exact fun h => ⟨_, h, .refl _⟩
  | cons a _ ih =>
    rintro _ (_ | ⟨h1, h2⟩)
    obtain ⟨bs', k1, k2⟩ := ih h2
    exact ⟨_, .cons h1 k1, k2.cons _⟩
  | swap a b l =>
    rintro _ (_ | ⟨h1, _ | ⟨h2, h3⟩⟩)
    exact ⟨_, .cons h2 (.cons h1 h3), .swap _ _ _⟩
  | trans _ _ ih1 ih2 =>
    intro bs h
    obtain ⟨cs, h1, h2⟩ := ih1 h
    obtain ⟨es, h3, h4⟩ := ih2 h1
    exact ⟨es, h3, h2.trans h4⟩

/-- **C102** The order in which the port types are taken out of the hash map changes the order of the pieces only: there is one for each
port type, whatever the order. -/
theorem C102_order (U : UnicodeTable) {root : Node} {d : Definitions} (hd : IsDefinitions root d) (ord ord' : Definitions → List PortType)
    (hp : (ord d).Perm (ord' d)) {t : Str} (h : wsdlCode U root ord = .ok t) :
    ∃ c fs fs', SchemasCode U (embedded root) c ∧ List.Forall₂ (fun p f => Wsdl.generate U d [p] = .ok f) (ord d) fs ∧
      List.Forall₂ (fun p f => Wsdl.generate U d [p] = .ok f) (ord' d) fs' ∧ fs.Perm fs' ∧ t = c ++ fs.flatten ∧
      wsdlCode U root ord' = .ok (c ++ fs'.flatten) := by
  obtain ⟨c, q, h1, h2, rfl⟩ := (C102_code U hd ord t).1 h
  obtain ⟨fs, h3, rfl⟩ := (generate_list hd _ _).1 h2
  obtain ⟨fs', h4, h5⟩ := forall₂_perm hp h3
  exact ⟨c, fs, fs', h1, h3, h4, h5, rfl, (C102_code U hd ord' _).2 ⟨c, _, h1, (generate_list hd _ _).2 ⟨fs', h4, rfl⟩, rfl⟩⟩

/-- **C102** With at most one port type the code does not depend on the hash map. -/
theorem C102_single (U : UnicodeTable) {root : Node} {d : Definitions} (hd : IsDefinitions root d) (ord ord' : Definitions → List PortType)
    (ho : (ord d).Perm (d.portTypes.map (·.2))) (ho' : (ord' d).Perm (d.portTypes.map (·.2)))
    (h1 : (kids root "portType").length ≤ 1) : wsdlCode U root ord = wsdlCode U root ord' := by
  have e : ord d = ord' d := by
    have hl := hd.portTypes.1.length_eq
    rcases hps : d.portTypes with _ | ⟨p, _ | ⟨q, ps⟩⟩
    · rw [hps] at ho ho'
      rw [List.perm_nil.1 ho, List.perm_nil.1 ho']
    · rw [hps] at ho ho'
      rw [List.perm_singleton.1 ho, List.perm_singleton.1 ho']
    · rw [hps, List.length_cons, List.length_cons] at hl
      omega
  unfold wsdlCode
  rw [(definitions_iff root d).2 hd, Res.ok_bind, Res.ok_bind, e]

/-! ## Examples -/

private def order (d : Definitions) : List PortType := d.portTypes.map (·.2)
private def schema (n : String) : Node := el "schema" [] [el "element" [("name", n)] []]
private def message (n : String) : Node := el "message" [("name", n)] [el "part" [("name", "x"), ("element", "X")] []]
private def operation (n : String) : Node := el "operation" [("name", n)] [el "input" [("message", "t:In")] [], el "output" [("message", "t:Out")] []]
private def service (ss ms os : List Node) : Node := el "definitions" [] (el "types" [] ss :: ms ++ [el "portType" [("name", "P")] os])
private def both : List Node := [message "In", message "Out"]

private abbrev fns (t : Res Str) : List String :=
  match t with
  | .ok t => (readFns (.out []) (Str.splitOn '\n' t)).map fun f => String.ofList f.name
  | _ => []

private abbrev A := UnicodeTable.ascii

private theorem defs {root : Node} {d : Definitions} (h : Definitions.new root = .ok d) : IsDefinitions root d := (definitions_iff _ _).1 h

/-- A schema is added. -/
example : ∃ da db, IsDefinitions (service [schema "X", schema "Z"] both [operation "Get"]) da ∧
    IsDefinitions (service [schema "X", schema "Y", schema "Z"] both [operation "Get"]) db ∧
    (order da).flatMap PortType.operations = (order db).flatMap PortType.operations ∧
    ∃ t, wsdlCode A (service [schema "X", schema "Y", schema "Z"] both [operation "Get"]) order = .ok t :=
  ⟨_, _, defs rfl, defs rfl, rfl, _, rfl⟩

/-- An operation is added. -/
example : ∃ da db l op r, IsDefinitions (service [] both [operation "Get", operation "Put"]) da ∧
    IsDefinitions (service [] both [operation "Get", operation "Ask", operation "Put"]) db ∧
    (order da).flatMap PortType.operations = l ++ r ∧ (order db).flatMap PortType.operations = l ++ op :: r ∧ l ≠ [] ∧ r ≠ [] ∧
    fns (wsdlCode A (service [] both [operation "Get", operation "Put"]) order) = ["get", "put"] ∧
    fns (wsdlCode A (service [] both [operation "Get", operation "Ask", operation "Put"]) order) = ["get", "ask", "put"] :=
  ⟨_, _, [_], _, [_], defs rfl, defs rfl, rfl, rfl, by simp, by simp, by decide +kernel, by decide +kernel⟩

/-- A message is added, between those which are referred to. -/
example : ∃ da, IsDefinitions (service [] both [operation "Get"]) da ∧
    (∀ op ∈ (order da).flatMap PortType.operations, ∀ i, ParamOf op i → ∀ nm, RefersToName i nm →
      (message "Other").attr "name".toList ≠ some nm) ∧
    fns (wsdlCode A (service [] [message "In", message "Other", message "Out"] [operation "Get"]) order) = ["get"] := by
  refine ⟨_, defs rfl, ?_, by decide +kernel⟩
  intro op hop i hi nm hn e
  obtain rfl := List.mem_singleton.1 hop
  obtain rfl := Option.some.inj e
  obtain ⟨r, h1, h2⟩ := hn
  have h2 := Gen.lastSegment_iff.2 h2
  cases hi with
  | input =>
    obtain rfl := Option.some.inj (show some "t:In".toList = some r from h1)
    exact absurd h2 (by decide)
  | output =>
    obtain rfl := Option.some.inj (show some "t:Out".toList = some r from h1)
    exact absurd h2 (by decide)

private def two : Node := el "definitions" [] (both ++ [el "portType" [("name", "P")] [operation "Get"], el "portType" [("name", "Q")] [operation "Put"]])

/-- Two port types in two orders. -/
example : ∃ d, IsDefinitions two d ∧ (order d).Perm (order d).reverse ∧ fns (wsdlCode A two order) = ["get", "put"] ∧
    fns (wsdlCode A two fun d => (order d).reverse) = ["put", "get"] :=
  ⟨_, defs rfl, (List.reverse_perm _).symm, by decide +kernel, by decide +kernel⟩

/-- One port type. -/
example : ∃ d, IsDefinitions (service [] both [operation "Get", operation "Put"]) d ∧
    (kids (service [] both [operation "Get", operation "Put"]) "portType").length ≤ 1 ∧
    (order d).reverse.Perm (d.portTypes.map (·.2)) :=
  ⟨_, defs rfl, by decide +kernel, List.reverse_perm _⟩

end Verif.Props
