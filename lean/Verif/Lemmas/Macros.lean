import Verif.Lemmas.Closed
import Verif.Spec.Macros

/-! # Lemmas: what the derive macros get -/

namespace Verif.Lemmas.Parse

open Verif Verif.Model Verif.RoXml Verif.Spec

/-! ## The items of lists -/

/-- An inline type in a list, without lists and unions in it. -/
theorem list_content {root : Node} (hg : Grammatical root) {U : UnicodeTable} {k p : Node} {above : List Node} {x : RsEntity}
    (hk : PartOf root k) (ht : k.tag = "simpleType".toList) (hpt : p.tag = "list".toList)
    (hno : ∀ m, PartOf k m → m.tag ∉ ["list", "union"].map String.toList) (h : parseNode U k p above = .ok x) :
    (∃ n c b fs d, x = .tupleStruct (.mk n c b [] [] fs) ∧ PartOf k d ∧ d.attr "base".toList = some b) ∨
    ∃ e o, x = .enum e ∧ OwnerName (k :: p :: above) o ∧ e.name = o ++ "Enum".toList := by
  rw [parseNode_tag (s := "simpleType") (t := .simpleType) (by decide) ht] at h
  have h : parseSimpleType (placeOf U k p above) = .ok x := h
  obtain ⟨pt, hpt', h⟩ := Res.bind_eq_ok.1 h
  split at h
  · cases h
  rename_i hnm
  have hpt' : xsdType (above.head?.map Node.tag) p = .ok pt := hpt'
  rw [(type_iff (s := "list") (t := .list) (by decide)).2 hpt] at hpt'
  obtain rfl := Res.ok.inj hpt'
  have hnone : attrName k = none := by
    have : decide (ElementType.list = ElementType.schema) = (attrName k).isSome := by
      by_contra hne
      exact hnm hne
    cases ha : attrName k with
    | none => rfl
    | some v => rw [ha] at this; cases this
  obtain ⟨o, ho, h⟩ := Res.bind_eq_ok.1 h
  obtain ⟨k', hk', h⟩ := Res.bind_eq_ok.1 h
  rw [unwrap_ok.1 hk'] at ho
  obtain ⟨y, hy, h⟩ := Res.bind_eq_ok.1 h
  have h : Res.ok ((setNameIf (attrName k) y).setComment (getDocumentation k)) = .ok x := h
  rw [hnone] at h
  obtain rfl := Res.ok.inj h
  have hm := lastKid_member membersOnly_isMember ho
  obtain ⟨c, hc, rfl⟩ := List.mem_map.1 hm.1
  have hcm : c ∈ members k := mem_members.2 ⟨hc, hm.2⟩
  have hrow : c.tag = "restriction".toList ∨ c.tag = "list".toList ∨ c.tag = "union".toList := by
    simpa using hg.rows ("simpleType", ["restriction", "list", "union"]) (by decide) k c hk ht hcm
  have hcn := hno c (.child .root hcm)
  rcases hrow with hc | hc | hc
  · have hy : parseNode U c k (p :: above) = .ok y := hy
    have hkd : KindOf (some k.tag) c (.restriction .simpleType) :=
      .restriction (s := "simpleType") hc (by decide) (congrArg some ht)
    rw [parseNode_eq, parsePlace_branch] at hy
    obtain ⟨t, ht', hy⟩ := Res.bind_eq_ok.1 hy
    have ht'' : xsdType (some k.tag) c = .ok t := ht'
    rw [kind_xsdType hkd] at ht''
    obtain rfl := Res.ok.inj ht''
    have hy : parseRestriction U (placeOf U c k (p :: above)) = .ok y := hy
    obtain ⟨t, ht'', hy⟩ := Res.bind_eq_ok.1 hy
    have ht'' : xsdType (some k.tag) c = .ok t := ht''
    rw [kind_xsdType hkd] at ht''
    obtain rfl := Res.ok.inj ht''
    obtain ⟨base, hb, hy⟩ := Res.bind_eq_ok.1 hy
    obtain ⟨fs, -, hy⟩ := Res.bind_eq_ok.1 hy
    obtain ⟨sm, -, hy⟩ := Res.bind_eq_ok.1 hy
    split at hy
    · obtain ⟨nm, hnm, hy⟩ := Res.bind_eq_ok.1 hy
      obtain rfl := Res.ok.inj hy
      exact .inr ⟨_, nm, rfl, getParentName_ok hnm, rfl⟩
    · obtain rfl := Res.ok.inj hy
      exact .inl ⟨_, _, base, _, c, rfl, .child .root hcm, unwrap_ok.1 hb⟩
  · exact absurd (by rw [hc]; decide) hcn
  · exact absurd (by rw [hc]; decide) hcn

/-- The type is one which a single value has, or a list of one. -/
def itemPreds (root : Node) (uri : Str) : Preds where
  R _ _ _ := True
  N _ := True
  T t := t = "String".toList ∨ RefersTo root uri t
  C _ := True
  F _ := True
  J _ := True
  L _ := True
  W _ _ := True
  M ms t := (ms = [] ∧ (t = "String".toList ∨ RefersTo root uri t)) ∨
    (ms = [.array] ∧ ((RefersTo root uri t ∧ ∀ l ∈ listTypes, ¬ DenotesXsd root l t) ∨
      ∃ v, Lettered v ∧ t = v ++ "Enum".toList))
  A _ := True
  O := Lettered

theorem ownerName_lettered {l : List Node} {o : Str} (h : OwnerName l o)
    (hl : ∀ a ∈ l, ∀ v, a.attr "name".toList = some v → Lettered v) : Lettered o := by
  induction h with
  | root => exact ⟨⟨'U', rfl, .inl rfl⟩, by decide⟩
  | schema _ => exact ⟨⟨'S', rfl, .inl rfl⟩, by decide⟩
  | named _ h => exact hl _ List.mem_cons_self _ h
  | up _ _ _ ih => exact ih fun a ha => hl a (List.mem_cons_of_mem _ ha)

theorem item_texts {root : Node} {uri : Str} (hg : Grammatical root) (hs : SelfContained root uri) (hf : FlatLists root) :
    Texts (PartOf root) (PartOf root) (itemPreds root uri) where
  owner h1 h2 := hs.names _ _ h1 h2
  name h1 h2 := hs.names _ _ h1 h2
  plain _ := trivial
  owners v hv := by
    simp only [List.map_cons, List.map_nil, List.mem_cons, List.not_mem_nil, or_false] at hv
    rcases hv with rfl | rfl | rfl
    · exact ⟨⟨'U', rfl, .inl rfl⟩, by decide⟩
    · exact ⟨⟨'S', rfl, .inl rfl⟩, by decide⟩
    · exact ⟨⟨'U', rfl, .inl rfl⟩, by decide⟩
  ref _ _ := trivial
  refType h1 h2 h3 := .inr (hs.refs _ _ h1 h2 h3)
  type h1 h2 := .inr (hs.types _ "type" _ h1 (by decide) h2)
  base h1 h2 := .inr (hs.types _ "base" _ h1 (by decide) h2)
  itemType h1 h2 := .inr (hs.types _ "itemType" _ h1 (by decide) h2)
  memberTypes hn hv hw hne := ⟨trivial, .inr (hs.memberTypes _ _ _ _ hn hv (spaceSeparated_iff.2 rfl)
    (List.mem_filter.2 ⟨hw, decide_eq_true hne⟩))⟩
  facet _ _ := trivial
  enumeration _ _ := trivial
  namespace' _ := trivial
  location _ := trivial
  string := .inl rfl
  typeAlias _ := trivial
  nameAlias _ := trivial
  name_case _ := trivial
  name_import _ := trivial
  suffix _ := ⟨trivial, trivial, trivial⟩
  constants _ _ := trivial
  field _ _ := trivial
  marker _ _ := trivial
  rename _ _ := trivial
  retype _ _ := trivial
  inlineField _ _ := trivial
  enumField _ := trivial
  choice _ _ _ _ _ _ _ := ⟨trivial, fun _ _ _ => trivial⟩
  wrap _ := trivial
  wrapMore _ := trivial
  wrapInner _ _ _ := trivial
  kinds _ := ⟨trivial, trivial⟩
  union _ _ _ := trivial
  lone h := .inl ⟨rfl, h⟩
  items h1 _ h3 := .inr ⟨rfl, .inl ⟨hs.types _ "itemType" _ h1 (by decide) h3, hf.items _ _ h1 h3⟩⟩
  inlineEnum hc ht hk hkt h := by
    rcases list_content hg (.child hc.node hk) hkt ht (fun m hm => hf.inside _ _ m hc.node ht hk hm) h with
      ⟨n, cm, b, fs, d, hx, -⟩ | ⟨e, o, hx, ho, he⟩
    · cases hx
    · cases hx
      refine .inr ⟨rfl, .inr ⟨o, ownerName_lettered ho ?_, he⟩⟩
      intro a ha v hv
      refine hs.names a v ?_ hv
      rcases List.mem_cons.1 ha with rfl | ha
      · exact .child hc.node hk
      rcases List.mem_cons.1 ha with rfl | ha
      · exact hc.node
      rcases List.mem_cons.1 ha with rfl | ha
      · exact hc.parent
      · exact hc.above a ha
  inlineItems hc ht hk hkt h _ := by
    rcases list_content hg (.child hc.node hk) hkt ht (fun m hm => hf.inside _ _ m hc.node ht hk hm) h with
      ⟨n, cm, b, fs, d, hx, hd, hb⟩ | ⟨e, o, hx, -⟩
    · cases hx
      have hdn := partOf_trans (.child .root hk) hd
      exact .inr ⟨rfl, .inl ⟨hs.types d "base" b (partOf_trans hc.node hdn) (by decide) hb,
        hf.bases _ d b hc.node ht hdn hb⟩⟩
    · cases hx
  numbered _ := ⟨trivial, trivial⟩

theorem parseFile_items' {U : UnicodeTable} {root : Node} {uri : Str} {g : RsFile} (hg : Grammatical root)
    (hs : SelfContained root uri) (hf : FlatLists root) (h : parseFile U root = .ok g) :
    ∀ e ∈ g.types, Deep (itemPreds root uri).entity e :=
  (parseFile_deep (fieldwise_texts _ (item_texts hg hs hf).retype) (fun c hc _ he =>
    parseNode_deep (item_texts hg hs hf) (fun _ h c hc => .child h hc) (fun _ h => h) (.child .root hc) .root
      (fun a ha => by cases ha) he) h).1

/-! ## Unions -/

/-- All variants of unions have types. -/
def unionPreds : Preds where
  R := fun _ _ _ => True
  N := fun _ => True
  T := fun _ => True
  C := fun _ => True
  F := fun _ => True
  J := fun _ => True
  L := fun _ => True
  K := fun s cs => s = .union → ∀ c ∈ cs, c.typeName ≠ none

theorem sources_union (root : Node) : Sources (PartOf root) (PartOf root) unionPreds where
  hered _ h c hc := .child h hc
  mono _ h := h
  owner _ _ := trivial
  name _ _ := trivial
  ref _ _ := trivial
  type _ _ := trivial
  base _ _ := trivial
  itemType _ _ := trivial
  memberTypes _ _ _ _ := ⟨trivial, trivial⟩
  facet _ _ := trivial
  enumeration _ _ := trivial
  namespace' _ := trivial
  location _ := trivial
  name_type _ := trivial
  name_case _ := trivial
  name_import _ := trivial
  suffix _ := ⟨trivial, trivial, trivial⟩
  constants _ _ := trivial
  field _ _ := trivial
  marker _ _ := trivial
  rename _ _ := trivial
  kinds _ := ⟨fun h => absurd h (by decide), fun h => absurd h (by decide)⟩
  union _ _ h := fun _ => h
  numbered _ := ⟨trivial, trivial⟩

end Verif.Lemmas.Parse
