import Verif.Lemmas.Wsdl

/-! # Whole WSDL documents -/

namespace Verif.Lemmas.Wsdl

open Verif Verif.RoXml Verif.Model Verif.Model.Wsdl Verif.Spec Verif.Spec.Wsdl

theorem required_ok {n : Node} {a v : Str} : required n a = .ok v ↔ n.attr a = some v := by
  rw [required]
  cases n.attr a with
  | none => exact ⟨fun h => (by cases h), fun h => (by cases h)⟩
  | some w => exact ⟨fun h => congrArg some (Res.ok.inj h), fun h => congrArg Res.ok (Option.some.inj h)⟩

theorem required_ne_err (n : Node) (a : Str) : required n a ≠ .err := by
  rw [required]
  cases n.attr a <;> (intro h; cases h)

abbrev keys {α : Type} (l : List (Str × α)) : List Str := l.map (·.1)

theorem insertNew_ok {α : Type} {m m' : List (Str × α)} {k : Str} {v : α} :
    insertNew m k v = .ok m' ↔ k ∉ keys m ∧ m' = m ++ [(k, v)] := by
  have hany : (m.any fun e => decide (e.1 = k)) = true ↔ k ∈ keys m := by
    rw [List.any_eq_true, List.mem_map]
    exact ⟨fun ⟨e, h1, h2⟩ => ⟨e, h1, of_decide_eq_true h2⟩, fun ⟨e, h1, h2⟩ => ⟨e, h1, decide_eq_true h2⟩⟩
  rw [insertNew]
  by_cases h : k ∈ keys m
  · rw [if_pos (hany.2 h)]
    exact ⟨fun h => (by cases h), fun h' => absurd h h'.1⟩
  · rw [if_neg fun h' => h (hany.1 h')]
    exact ⟨fun h' => ⟨h, (Res.ok.inj h').symm⟩, fun h' => by rw [h'.2]⟩

theorem insertNew_ne_err {α : Type} (m : List (Str × α)) (k : Str) (v : α) : insertNew m k v ≠ .err := by
  rw [insertNew]; split <;> (intro h; cases h)

/-- New entries for these elements at the end of a table, the keys being all different. -/
def Grows {α : Type} (attr : String) (R : Node → α → Prop) (ns : List Node) (old new : List (Str × α)) : Prop :=
  ∃ es, new = old ++ es ∧ List.Forall₂ (fun n e => n.attr attr.toList = some e.1 ∧ R n e.2) ns es ∧ (keys new).Nodup

theorem Grows.nil {α : Type} {attr : String} {R : Node → α → Prop} {old new : List (Str × α)} (h : (keys old).Nodup) :
    Grows attr R [] old new ↔ new = old := by
  constructor
  · rintro ⟨es, rfl, h, -⟩
    cases h
    exact List.append_nil _
  · rintro rfl
    exact ⟨[], (List.append_nil _).symm, .nil, h⟩

theorem Grows.cons {α : Type} {attr : String} {R : Node → α → Prop} {n : Node} {ns : List Node} {old new : List (Str × α)} :
    Grows attr R (n :: ns) old new ↔ ∃ k v, n.attr attr.toList = some k ∧ R n v ∧ k ∉ keys old ∧
      Grows attr R ns (old ++ [(k, v)]) new := by
  constructor
  · rintro ⟨es, rfl, h, hn⟩
    cases h with
    | @cons _ e _ es h1 h2 =>
      refine ⟨e.1, e.2, h1.1, h1.2, ?_, es, ?_, h2, ?_⟩
      · intro hm
        rw [keys, List.map_append, List.nodup_append] at hn
        exact hn.2.2 _ hm e.1 (List.mem_cons_self ..) rfl
      · rw [List.append_assoc]; rfl
      · exact hn
  · rintro ⟨k, v, h1, h2, -, es, rfl, h3, h4⟩
    exact ⟨(k, v) :: es, by rw [List.append_assoc]; rfl, .cons ⟨h1, h2⟩ h3, h4⟩

def tagged (ns : List Node) (s : String) : List Node := ns.filter fun c => c.tag = s.toList

theorem tagged_pos {n : Node} {s : String} (h : n.tag = s.toList) (ns : List Node) :
    tagged (n :: ns) s = n :: tagged ns s :=
  List.filter_cons_of_pos (p := fun c : Node => decide (c.tag = s.toList)) (decide_eq_true h)

theorem tagged_neg {n : Node} {s : String} (h : n.tag ≠ s.toList) (ns : List Node) :
    tagged (n :: ns) s = tagged ns s :=
  List.filter_cons_of_neg (p := fun c : Node => decide (c.tag = s.toList)) fun h' => h (of_decide_eq_true h')

/-- All the elements are added. -/
structure Adds (d : Definitions) (ns : List Node) (d' : Definitions) : Prop where
  node : d'.node = d.node
  types : d'.types = d.types ++ tagged ns "types"
  imports : Grows "namespace" (fun n v => v = n) (tagged ns "import") d.imports d'.imports
  messages : Grows "name" IsMessage (tagged ns "message") d.messages d'.messages
  portTypes : Grows "name" IsPortType (tagged ns "portType") d.portTypes d'.portTypes
  bindings : Grows "name" IsBinding (tagged ns "binding") d.bindings d'.bindings

/-- No key twice. -/
structure Distinct (d : Definitions) : Prop where
  imports : (keys d.imports).Nodup
  messages : (keys d.messages).Nodup
  portTypes : (keys d.portTypes).Nodup
  bindings : (keys d.bindings).Nodup

theorem nodup_snoc {α : Type} {m : List (Str × α)} {k : Str} {v : α} (h : (keys m).Nodup) (hk : k ∉ keys m) :
    (keys (m ++ [(k, v)])).Nodup := by
  rw [keys, List.map_append, List.nodup_append]
  refine ⟨h, List.nodup_cons.2 ⟨List.not_mem_nil, List.nodup_nil⟩, ?_⟩
  intro a ha b hb e
  rcases List.mem_cons.1 hb with rfl | hb
  · exact hk (e ▸ ha)
  · cases hb

theorem addImport_ok {d d' : Definitions} {n : Node} : d.addImport n = .ok d' ↔
    ∃ k, n.attr "namespace".toList = some k ∧ k ∉ keys d.imports ∧ d' = { d with imports := d.imports ++ [(k, n)] } := by
  rw [Definitions.addImport, Res.bind_eq_ok]
  constructor
  · rintro ⟨k, h1, h2⟩
    obtain ⟨m, h3, h4⟩ := Res.bind_eq_ok.1 h2
    obtain ⟨h5, rfl⟩ := insertNew_ok.1 h3
    exact ⟨k, required_ok.1 h1, h5, (Res.ok.inj h4).symm⟩
  · rintro ⟨k, h1, h2, rfl⟩
    exact ⟨k, required_ok.2 h1, Res.bind_eq_ok.2 ⟨_, insertNew_ok.2 ⟨h2, rfl⟩, rfl⟩⟩

theorem addMessage_ok {d d' : Definitions} {n : Node} : d.addMessage n = .ok d' ↔
    ∃ k v, n.attr "name".toList = some k ∧ IsMessage n v ∧ k ∉ keys d.messages ∧
      d' = { d with messages := d.messages ++ [(k, v)] } := by
  rw [Definitions.addMessage, Res.bind_eq_ok]
  constructor
  · rintro ⟨k, h1, h2⟩
    obtain ⟨m, h3, h4⟩ := Res.bind_eq_ok.1 h2
    obtain ⟨h5, rfl⟩ := insertNew_ok.1 h3
    exact ⟨k, _, required_ok.1 h1, (message_iff n _).1 rfl, h5, (Res.ok.inj h4).symm⟩
  · rintro ⟨k, v, h1, hv, h2, rfl⟩
    obtain rfl := (message_iff n v).2 hv
    exact ⟨k, required_ok.2 h1, Res.bind_eq_ok.2 ⟨_, insertNew_ok.2 ⟨h2, rfl⟩, rfl⟩⟩

theorem addPortType_ok {d d' : Definitions} {n : Node} : d.addPortType n = .ok d' ↔
    ∃ k v, n.attr "name".toList = some k ∧ IsPortType n v ∧ k ∉ keys d.portTypes ∧
      d' = { d with portTypes := d.portTypes ++ [(k, v)] } := by
  rw [Definitions.addPortType, Res.bind_eq_ok]
  constructor
  · rintro ⟨v, h0, h⟩
    obtain ⟨k, h1, h2⟩ := Res.bind_eq_ok.1 h
    obtain ⟨m, h3, h4⟩ := Res.bind_eq_ok.1 h2
    obtain ⟨h5, rfl⟩ := insertNew_ok.1 h3
    have hv := (portType_iff n v).1 h0
    exact ⟨k, v, by rw [← hv.1]; exact required_ok.1 h1, hv, h5, (Res.ok.inj h4).symm⟩
  · rintro ⟨k, v, h1, hv, h2, rfl⟩
    refine ⟨v, (portType_iff n v).2 hv, Res.bind_eq_ok.2 ⟨k, ?_, Res.bind_eq_ok.2 ⟨_, insertNew_ok.2 ⟨h2, rfl⟩, rfl⟩⟩⟩
    rw [PortType.name, hv.1]
    exact required_ok.2 h1

theorem addBinding_ok {d d' : Definitions} {n : Node} : d.addBinding n = .ok d' ↔
    ∃ k v, n.attr "name".toList = some k ∧ IsBinding n v ∧ k ∉ keys d.bindings ∧
      d' = { d with bindings := d.bindings ++ [(k, v)] } := by
  rw [Definitions.addBinding, Res.bind_eq_ok]
  constructor
  · rintro ⟨k, h1, h2⟩
    obtain ⟨m, h3, h4⟩ := Res.bind_eq_ok.1 h2
    obtain ⟨h5, rfl⟩ := insertNew_ok.1 h3
    exact ⟨k, _, required_ok.1 h1, (binding_iff n _).1 rfl, h5, (Res.ok.inj h4).symm⟩
  · rintro ⟨k, v, h1, hv, h2, rfl⟩
    obtain rfl := (binding_iff n v).2 hv
    exact ⟨k, required_ok.2 h1, Res.bind_eq_ok.2 ⟨_, insertNew_ok.2 ⟨h2, rfl⟩, rfl⟩⟩

/-- The tags with a meaning below the root. -/
def docTags : List (String × WsdlType) :=
  [("import", .import), ("types", .types), ("message", .message), ("portType", .portType), ("binding", .binding)]

theorem docTags_sub {e : String × WsdlType} (h : e ∈ docTags) : e ∈ tagTable := by
  revert e; decide

theorem docTag_ne {n : Node} {s t : String} (h : n.tag = s.toList) (hne : s.toList ≠ t.toList) : n.tag ≠ t.toList := by
  rw [h]; exact hne

theorem addChild_other {d : Definitions} {n : Node} (h : ∀ e ∈ docTags, n.tag ≠ e.1.toList) : d.addChild n = .ok d := by
  have h' : ∀ e ∈ docTags, wsdlType n ≠ e.2 := fun e he hw =>
    h e he ((wsdlType_iff (docTags_sub (e := (e.1, e.2)) he) n).1 hw)
  rw [Definitions.addChild]
  split
  · exact absurd (by assumption) (h' ("import", .import) (by decide))
  · exact absurd (by assumption) (h' ("types", .types) (by decide))
  · exact absurd (by assumption) (h' ("message", .message) (by decide))
  · exact absurd (by assumption) (h' ("portType", .portType) (by decide))
  · exact absurd (by assumption) (h' ("binding", .binding) (by decide))
  · rfl

theorem addAll_iff (ns : List Node) : ∀ (d d' : Definitions), Distinct d → (d.addAll ns = .ok d' ↔ Adds d ns d') := by
  induction ns with
  | nil =>
    intro d d' hd
    constructor
    · intro h
      obtain rfl := Res.ok.inj h
      exact ⟨rfl, (List.append_nil _).symm, (Grows.nil hd.imports).2 rfl, (Grows.nil hd.messages).2 rfl,
        (Grows.nil hd.portTypes).2 rfl, (Grows.nil hd.bindings).2 rfl⟩
    · rintro ⟨h1, h2, h3, h4, h5, h6⟩
      have e1 := (Grows.nil hd.imports).1 h3
      have e2 := (Grows.nil hd.messages).1 h4
      have e3 := (Grows.nil hd.portTypes).1 h5
      have e4 := (Grows.nil hd.bindings).1 h6
      have e5 : d'.types = d.types := h2.trans (List.append_nil _)
      cases d; cases d'
      cases h1; cases e1; cases e2; cases e3; cases e4; cases e5
      rfl
  | cons n ns ih =>
    intro d d' hd
    rw [Definitions.addAll, Res.bind_eq_ok]
    by_cases hi : n.tag = "import".toList
    · have e : d.addChild n = d.addImport n := by
        rw [Definitions.addChild, (wsdlType_iff (s := "import") (t := .import) (by decide) n).2 hi]
      rw [e]
      have hne : ∀ t : String, "import".toList ≠ t.toList → tagged (n :: ns) t = tagged ns t :=
        fun t h => tagged_neg (docTag_ne hi h) ns
      constructor
      · rintro ⟨d1, h1, h2⟩
        obtain ⟨k, h3, h4, rfl⟩ := addImport_ok.1 h1
        have := (ih { d with imports := d.imports ++ [(k, n)] } _ ⟨nodup_snoc hd.imports h4, hd.messages, hd.portTypes, hd.bindings⟩).1 h2
        exact ⟨this.node, by rw [hne _ (by decide)]; exact this.types,
          by rw [tagged_pos hi]; exact Grows.cons.2 ⟨k, n, h3, rfl, h4, this.imports⟩,
          by rw [hne _ (by decide)]; exact this.messages, by rw [hne _ (by decide)]; exact this.portTypes,
          by rw [hne _ (by decide)]; exact this.bindings⟩
      · rintro ⟨g1, g2, g3, g4, g5, g6⟩
        rw [hne _ (by decide)] at g2 g4 g5 g6
        rw [tagged_pos hi] at g3
        obtain ⟨k, v, h3, hv, h4, g3⟩ := Grows.cons.1 g3
        rw [hv] at g3
        exact ⟨_, addImport_ok.2 ⟨k, h3, h4, rfl⟩,
          (ih { d with imports := d.imports ++ [(k, n)] } _ ⟨nodup_snoc hd.imports h4, hd.messages, hd.portTypes, hd.bindings⟩).2 ⟨g1, g2, g3, g4, g5, g6⟩⟩
    by_cases ht : n.tag = "types".toList
    · have e : d.addChild n = .ok { d with types := d.types ++ [n] } := by
        rw [Definitions.addChild, (wsdlType_iff (s := "types") (t := .types) (by decide) n).2 ht]
      rw [e]
      have hne : ∀ t : String, "types".toList ≠ t.toList → tagged (n :: ns) t = tagged ns t :=
        fun t h => tagged_neg (docTag_ne ht h) ns
      constructor
      · rintro ⟨d1, h1, h2⟩
        obtain rfl := Res.ok.inj h1
        have := (ih { d with types := d.types ++ [n] } _ ⟨hd.imports, hd.messages, hd.portTypes, hd.bindings⟩).1 h2
        exact ⟨this.node, by rw [tagged_pos ht]; exact this.types.trans (List.append_assoc ..),
          by rw [hne _ (by decide)]; exact this.imports,
          by rw [hne _ (by decide)]; exact this.messages, by rw [hne _ (by decide)]; exact this.portTypes,
          by rw [hne _ (by decide)]; exact this.bindings⟩
      · rintro ⟨g1, g2, g3, g4, g5, g6⟩
        rw [hne _ (by decide)] at g3 g4 g5 g6
        rw [tagged_pos ht] at g2
        exact ⟨_, rfl, (ih { d with types := d.types ++ [n] } _ ⟨hd.imports, hd.messages, hd.portTypes, hd.bindings⟩).2
          ⟨g1, g2.trans (List.append_assoc _ [n] _).symm, g3, g4, g5, g6⟩⟩
    by_cases hm : n.tag = "message".toList
    · have e : d.addChild n = d.addMessage n := by
        rw [Definitions.addChild, (wsdlType_iff (s := "message") (t := .message) (by decide) n).2 hm]
      rw [e]
      have hne : ∀ t : String, "message".toList ≠ t.toList → tagged (n :: ns) t = tagged ns t :=
        fun t h => tagged_neg (docTag_ne hm h) ns
      constructor
      · rintro ⟨d1, h1, h2⟩
        obtain ⟨k, v, h3, hv, h4, rfl⟩ := addMessage_ok.1 h1
        have := (ih { d with messages := d.messages ++ [(k, v)] } _ ⟨hd.imports, nodup_snoc hd.messages h4, hd.portTypes, hd.bindings⟩).1 h2
        exact ⟨this.node, by rw [hne _ (by decide)]; exact this.types, by rw [hne _ (by decide)]; exact this.imports,
          by rw [tagged_pos hm]; exact Grows.cons.2 ⟨k, v, h3, hv, h4, this.messages⟩,
          by rw [hne _ (by decide)]; exact this.portTypes, by rw [hne _ (by decide)]; exact this.bindings⟩
      · rintro ⟨g1, g2, g3, g4, g5, g6⟩
        rw [hne _ (by decide)] at g2 g3 g5 g6
        rw [tagged_pos hm] at g4
        obtain ⟨k, v, h3, hv, h4, g4⟩ := Grows.cons.1 g4
        exact ⟨_, addMessage_ok.2 ⟨k, v, h3, hv, h4, rfl⟩,
          (ih { d with messages := d.messages ++ [(k, v)] } _ ⟨hd.imports, nodup_snoc hd.messages h4, hd.portTypes, hd.bindings⟩).2 ⟨g1, g2, g3, g4, g5, g6⟩⟩
    by_cases hp : n.tag = "portType".toList
    · have e : d.addChild n = d.addPortType n := by
        rw [Definitions.addChild, (wsdlType_iff (s := "portType") (t := .portType) (by decide) n).2 hp]
      rw [e]
      have hne : ∀ t : String, "portType".toList ≠ t.toList → tagged (n :: ns) t = tagged ns t :=
        fun t h => tagged_neg (docTag_ne hp h) ns
      constructor
      · rintro ⟨d1, h1, h2⟩
        obtain ⟨k, v, h3, hv, h4, rfl⟩ := addPortType_ok.1 h1
        have := (ih { d with portTypes := d.portTypes ++ [(k, v)] } _ ⟨hd.imports, hd.messages, nodup_snoc hd.portTypes h4, hd.bindings⟩).1 h2
        exact ⟨this.node, by rw [hne _ (by decide)]; exact this.types, by rw [hne _ (by decide)]; exact this.imports,
          by rw [hne _ (by decide)]; exact this.messages,
          by rw [tagged_pos hp]; exact Grows.cons.2 ⟨k, v, h3, hv, h4, this.portTypes⟩,
          by rw [hne _ (by decide)]; exact this.bindings⟩
      · rintro ⟨g1, g2, g3, g4, g5, g6⟩
        rw [hne _ (by decide)] at g2 g3 g4 g6
        rw [tagged_pos hp] at g5
        obtain ⟨k, v, h3, hv, h4, g5⟩ := Grows.cons.1 g5
        exact ⟨_, addPortType_ok.2 ⟨k, v, h3, hv, h4, rfl⟩,
          (ih { d with portTypes := d.portTypes ++ [(k, v)] } _ ⟨hd.imports, hd.messages, nodup_snoc hd.portTypes h4, hd.bindings⟩).2 ⟨g1, g2, g3, g4, g5, g6⟩⟩
    by_cases hb : n.tag = "binding".toList
    · have e : d.addChild n = d.addBinding n := by
        rw [Definitions.addChild, (wsdlType_iff (s := "binding") (t := .binding) (by decide) n).2 hb]
      rw [e]
      have hne : ∀ t : String, "binding".toList ≠ t.toList → tagged (n :: ns) t = tagged ns t :=
        fun t h => tagged_neg (docTag_ne hb h) ns
      constructor
      · rintro ⟨d1, h1, h2⟩
        obtain ⟨k, v, h3, hv, h4, rfl⟩ := addBinding_ok.1 h1
        have := (ih { d with bindings := d.bindings ++ [(k, v)] } _ ⟨hd.imports, hd.messages, hd.portTypes, nodup_snoc hd.bindings h4⟩).1 h2
        exact ⟨this.node, by rw [hne _ (by decide)]; exact this.types, by rw [hne _ (by decide)]; exact this.imports,
          by rw [hne _ (by decide)]; exact this.messages, by rw [hne _ (by decide)]; exact this.portTypes,
          by rw [tagged_pos hb]; exact Grows.cons.2 ⟨k, v, h3, hv, h4, this.bindings⟩⟩
      · rintro ⟨g1, g2, g3, g4, g5, g6⟩
        rw [hne _ (by decide)] at g2 g3 g4 g5
        rw [tagged_pos hb] at g6
        obtain ⟨k, v, h3, hv, h4, g6⟩ := Grows.cons.1 g6
        exact ⟨_, addBinding_ok.2 ⟨k, v, h3, hv, h4, rfl⟩,
          (ih { d with bindings := d.bindings ++ [(k, v)] } _ ⟨hd.imports, hd.messages, hd.portTypes, nodup_snoc hd.bindings h4⟩).2 ⟨g1, g2, g3, g4, g5, g6⟩⟩
    · have ho : ∀ e ∈ docTags, n.tag ≠ e.1.toList := by
        intro e he
        rw [docTags] at he
        rcases List.mem_cons.1 he with rfl | he
        · exact hi
        rcases List.mem_cons.1 he with rfl | he
        · exact ht
        rcases List.mem_cons.1 he with rfl | he
        · exact hm
        rcases List.mem_cons.1 he with rfl | he
        · exact hp
        rcases List.mem_cons.1 he with rfl | he
        · exact hb
        · cases he
      rw [addChild_other ho]
      constructor
      · rintro ⟨d1, h1, h2⟩
        obtain rfl := Res.ok.inj h1
        have := (ih _ _ hd).1 h2
        exact ⟨this.node, by rw [tagged_neg ht]; exact this.types, by rw [tagged_neg hi]; exact this.imports,
          by rw [tagged_neg hm]; exact this.messages, by rw [tagged_neg hp]; exact this.portTypes,
          by rw [tagged_neg hb]; exact this.bindings⟩
      · rintro ⟨g1, g2, g3, g4, g5, g6⟩
        rw [tagged_neg ht] at g2
        rw [tagged_neg hi] at g3
        rw [tagged_neg hm] at g4
        rw [tagged_neg hp] at g5
        rw [tagged_neg hb] at g6
        exact ⟨_, rfl, (ih _ _ hd).2 ⟨g1, g2, g3, g4, g5, g6⟩⟩

theorem grows_table {α : Type} {attr : String} {R : Node → α → Prop} {ns : List Node} {es : List (Str × α)} :
    Grows attr R ns [] es ↔ Table attr R ns es := by
  constructor
  · rintro ⟨es', rfl, h1, h2⟩; exact ⟨h1, h2⟩
  · rintro ⟨h1, h2⟩; exact ⟨es, rfl, h1, h2⟩

theorem definitions_iff (root : Node) (d : Definitions) : Definitions.new root = .ok d ↔ IsDefinitions root d := by
  have hk : ∀ s, tagged (elements root) s = kids root s := fun s => filter_elements root s
  rw [Definitions.new, addAll_iff _ (Definitions.mk root [] [] [] [] []) _
    ⟨List.nodup_nil, List.nodup_nil, List.nodup_nil, List.nodup_nil⟩]
  constructor
  · rintro ⟨h1, h2, h3, h4, h5, h6⟩
    rw [hk] at h2 h3 h4 h5 h6
    exact ⟨h1, h2, grows_table.1 h3, grows_table.1 h4, grows_table.1 h5, grows_table.1 h6⟩
  · rintro ⟨h1, h2, h3, h4, h5, h6⟩
    exact ⟨h1, by rw [hk]; exact h2, by rw [hk]; exact grows_table.2 h3, by rw [hk]; exact grows_table.2 h4,
      by rw [hk]; exact grows_table.2 h5, by rw [hk]; exact grows_table.2 h6⟩

theorem addChild_ne_err (d : Definitions) (n : Node) : d.addChild n ≠ .err := by
  rw [Definitions.addChild]
  have hf : ∀ {β : Type} (x : β) {g : β → Res Definitions}, (∀ y, ∃ z, g y = .ok z) → g x ≠ .err := by
    intro β x g h e
    obtain ⟨z, hz⟩ := h x
    rw [hz] at e; cases e
  split
  · exact Parse.bind_ne_err (required_ne_err _ _) fun _ _ =>
      Parse.bind_ne_err (insertNew_ne_err _ _ _) fun _ _ h => by cases h
  · intro h; cases h
  · exact Parse.bind_ne_err (required_ne_err _ _) fun _ _ =>
      Parse.bind_ne_err (insertNew_ne_err _ _ _) fun _ _ h => by cases h
  · exact Parse.bind_ne_err (portType_ne_err _) fun _ _ => Parse.bind_ne_err (required_ne_err _ _) fun _ _ =>
      Parse.bind_ne_err (insertNew_ne_err _ _ _) fun _ _ h => by cases h
  · exact Parse.bind_ne_err (required_ne_err _ _) fun _ _ =>
      Parse.bind_ne_err (insertNew_ne_err _ _ _) fun _ _ h => by cases h
  · intro h; cases h

theorem addAll_ne_err (ns : List Node) : ∀ d : Definitions, d.addAll ns ≠ .err := by
  induction ns with
  | nil => intro d h; cases h
  | cons n ns ih =>
    intro d
    rw [Definitions.addAll]
    exact Parse.bind_ne_err (addChild_ne_err d n) fun d' _ => ih d'

theorem definitions_panic (root : Node) : Definitions.new root = .panic ↔ ¬ ∃ d, IsDefinitions root d := by
  constructor
  · rintro h ⟨d, hd⟩
    rw [(definitions_iff root d).2 hd] at h
    cases h
  · intro h
    cases hn : Definitions.new root with
    | ok d => exact absurd ⟨d, (definitions_iff root d).1 hn⟩ h
    | err => exact absurd hn (addAll_ne_err _ _)
    | panic => rfl

/-! ## References -/

theorem get_iff {α : Type} {m : List (Str × α)} (h : (keys m).Nodup) {k : Str} {v : α} : get m k = some v ↔ (k, v) ∈ m := by
  rw [Wsdl.get]
  induction m with
  | nil => exact ⟨fun h => (by cases h), fun h => (by cases h)⟩
  | cons e m ih =>
    rw [keys, List.map_cons, List.nodup_cons] at h
    by_cases he : e.1 = k
    · rw [List.find?_cons_of_pos (p := fun e : Str × α => decide (e.1 = k)) (decide_eq_true he)]
      constructor
      · intro h'
        have : e = (k, v) := by
          cases e; cases he; cases h'; rfl
        rw [this]; exact List.mem_cons_self ..
      · intro h'
        rcases List.mem_cons.1 h' with h' | h'
        · rw [← h']; rfl
        · exact absurd (List.mem_map.2 ⟨_, h', he.symm⟩) h.1
    · rw [List.find?_cons_of_neg (p := fun e : Str × α => decide (e.1 = k)) (fun h' => he (of_decide_eq_true h')), ih h.2]
      constructor
      · exact List.mem_cons_of_mem _
      · intro h'
        rcases List.mem_cons.1 h' with h' | h'
        · rw [← h'] at he; exact absurd rfl he
        · exact h'

theorem get_none {α : Type} {m : List (Str × α)} {k : Str} : get m k = none ↔ k ∉ keys m := by
  rw [Wsdl.get, Option.map_eq_none_iff, List.find?_eq_none]
  constructor
  · intro h hk
    obtain ⟨e, h1, h2⟩ := List.mem_map.1 hk
    exact h e h1 (decide_eq_true h2)
  · intro h e he h'
    exact h (List.mem_map.2 ⟨e, he, of_decide_eq_true h'⟩)

theorem forall₂_left {α β : Type} {R : α → β → Prop} {l : List α} {r : List β} (h : List.Forall₂ R l r) {a : α}
    (ha : a ∈ l) : ∃ b ∈ r, R a b := by
  induction h with
  | nil => cases ha
  | cons h1 _ ih =>
    rcases List.mem_cons.1 ha with rfl | ha
    · exact ⟨_, List.mem_cons_self .., h1⟩
    · obtain ⟨b, hb, hr⟩ := ih ha
      exact ⟨b, List.mem_cons_of_mem _ hb, hr⟩

theorem forall₂_right {α β : Type} {R : α → β → Prop} {l : List α} {r : List β} (h : List.Forall₂ R l r) {b : β}
    (hb : b ∈ r) : ∃ a ∈ l, R a b := by
  induction h with
  | nil => cases hb
  | cons h1 _ ih =>
    rcases List.mem_cons.1 hb with rfl | hb
    · exact ⟨_, List.mem_cons_self .., h1⟩
    · obtain ⟨a, ha, hr⟩ := ih hb
      exact ⟨a, List.mem_cons_of_mem _ ha, hr⟩

/-- The entry for a message element, given as the element. -/
theorem messageByParam_iff {root : Node} {d : Definitions} (hd : IsDefinitions root d) (param : Node) (o : Option Message) :
    d.messageByParam param = .ok o ↔ Refers root param (o.map (·.node)) ∧ ∀ m ∈ o, IsMessage m.node m := by
  rw [Definitions.messageByParam, Res.bind_eq_ok]
  have hm := hd.messages
  constructor
  · rintro ⟨r, h1, h2⟩
    replace h1 := required_ok.1 h1
    replace h2 := Res.ok.inj h2
    have hl := (Gen.lastSegment_iff (s := r)).1 rfl
    cases o with
    | none =>
      refine ⟨.missing h1 hl ?_, fun _ h => (by cases h)⟩
      intro m hmem hname
      obtain ⟨e, he, hr⟩ := forall₂_left hm.1 hmem
      have : lastSegment r = e.1 := Option.some.inj (hname.symm.trans hr.1)
      exact get_none.1 h2 (List.mem_map.2 ⟨e, he, this.symm⟩)
    | some m =>
      obtain ⟨n, hn, hr⟩ := forall₂_right hm.1 ((get_iff hm.2).1 h2)
      have hnode : m.node = n := hr.2.1
      refine ⟨?_, ?_⟩
      · show Refers root param (some m.node)
        rw [hnode]
        exact .found h1 hl hn hr.1
      · intro m' hm'
        cases hm'
        rw [hnode]; exact hr.2
  · rintro ⟨h1, h2⟩
    cases o with
    | none =>
      cases h1 with
      | @missing r name ha hl hn =>
        refine ⟨r, required_ok.2 ha, congrArg Res.ok ?_⟩
        rw [Gen.lastSegment_iff.2 hl, get_none]
        intro hk
        obtain ⟨e, he, hk⟩ := List.mem_map.1 hk
        obtain ⟨n, hmem, hr⟩ := forall₂_right hm.1 he
        exact hn n hmem (hr.1.trans (congrArg some hk))
    | some m =>
      generalize hx : (some m).map (·.node) = x at h1
      cases h1 with
      | missing => cases hx
      | @found r name n ha hl hmem hname =>
        cases hx
        refine ⟨r, required_ok.2 ha, congrArg Res.ok ?_⟩
        rw [Gen.lastSegment_iff.2 hl, get_iff hm.2]
        obtain ⟨e, he, hr⟩ := forall₂_left hm.1 hmem
        have e1 : name = e.1 := Option.some.inj (hname.symm.trans hr.1)
        have e2 : e.2 = m := ((message_iff _ _).2 hr.2).trans ((message_iff _ _).2 (h2 m rfl)).symm
        have : e = (name, m) := by
          cases e; cases e1; cases e2; rfl
        rw [← this]; exact he

theorem messageByParam_ne_err (d : Definitions) (n : Node) : d.messageByParam n ≠ .err :=
  Parse.bind_ne_err (required_ne_err _ _) fun _ _ h => by cases h

end Verif.Lemmas.Wsdl
