import Verif.Lemmas.DocDefs

/-! # Supported schemas are parsed -/

namespace Verif.Lemmas.Parse

open Verif Verif.Model Verif.RoXml Verif.Spec

theorem mapM'_exists {α β : Type} {f : α → Res β} : ∀ {l : List α}, (∀ a ∈ l, ∃ b, f a = .ok b) →
    ∃ r, Res.mapM' f l = .ok r
  | [], _ => ⟨[], rfl⟩
  | a :: l, h => by
    obtain ⟨b, hb⟩ := h a List.mem_cons_self
    obtain ⟨r, hr⟩ := mapM'_exists fun x hx => h x (List.mem_cons_of_mem _ hx)
    exact ⟨b :: r, by rw [Res.mapM', hb, hr]; rfl⟩

/-- Definitions for simple types. -/
def IsSimple (e : RsEntity) : Prop := (∃ x, e = .enum x) ∨ ∃ x, e = .tupleStruct x

/-- What the parents of a node rely on. -/
structure Fits (p n : Node) (e : RsEntity) : Prop where
  field : ¬ Is p ["schema"] → Is n ["attribute", "anyAttribute"] → ∃ f, e = .structField f
  group : ¬ Is p ["schema"] → Is n ["attributeGroup"] → ∃ f, e = .alias f
  member : Is p ["sequence", "all"] → Is n ["element", "any"] → ∃ f, e = .structField f
  choice : Is n ["choice"] → ∃ f, e = .enum f
  case : Is p ["choice"] → Is n ["element"] → ∃ f, e = .enumCase f
  simple : Is n ["simpleType", "list", "union"] → IsSimple e
  restriction : Is p ["simpleType"] → Is n ["restriction"] → IsSimple e

instance (n : Node) (l : List String) : Decidable (Is n l) := inferInstanceAs (Decidable (_ ∈ _))

theorem is_of {n : Node} {l : List String} {s : String} (h : n.tag = s.toList) (hs : s.toList ∈ l.map String.toList) :
    Is n l := by
  unfold Is; rw [h]; exact hs

theorem is_mono {n : Node} {l l' : List String} (h : Is n l)
    (hs : ∀ s ∈ l.map String.toList, s ∈ l'.map String.toList) : Is n l' := hs _ h

theorem is_one {n : Node} {s : String} : Is n [s] ↔ n.tag = s.toList := by
  unfold Is; exact List.mem_singleton

/-- The elements which are parsed. -/
def Parsed (p n : Node) : Prop :=
  Is n ["include", "import", "simpleType", "complexType", "attributeGroup", "element", "attribute", "anyAttribute", "any",
    "list", "union", "sequence", "all", "choice", "simpleContent", "complexContent"] ∨
  (Is n ["extension"] ∧ Is p ["simpleContent", "complexContent"]) ∨
  (Is n ["restriction"] ∧ Is p ["simpleType", "complexContent"])

section
variable {root : Node} (S : Supported root)
include S

theorem kind_exists {n : Node} (hn : PartOf root n) (p : Option Str) : ∃ t, KindOf p n t := by
  by_cases hk : ∀ s ∈ knownTags, n.tag ≠ s.toList
  · exact ⟨_, .unknown hk⟩
  · have : ∃ s ∈ knownTags, n.tag = s.toList := by
      by_contra h
      exact hk fun s hs e => h ⟨s, hs, e⟩
    obtain ⟨s, hs, ht⟩ := this
    rcases List.mem_append.1 hs with hs | hs
    · rcases List.mem_append.1 hs with hs | hs
      · obtain ⟨r, hr, rfl⟩ := List.mem_map.1 hs
        exact ⟨_, .plain hr ht⟩
      · obtain ⟨v, hv⟩ := S.facets n hn (is_of ht (List.mem_map_of_mem hs))
        obtain ⟨r, hr, rfl⟩ := List.mem_map.1 hs
        exact ⟨_, .facet hr ht hv⟩
    · simp only [List.mem_cons, List.not_mem_nil, or_false] at hs
      rcases hs with rfl | rfl | rfl
      · obtain ⟨v, hv, ha⟩ := S.whiteSpace n hn (is_of ht (by decide))
        have : ∀ v ∈ ["preserve", "replace", "collapse"], ∃ w, (v, w) ∈ whiteSpaceValues := by
          intro v hv
          simp only [List.mem_cons, List.not_mem_nil, or_false] at hv
          rcases hv with rfl | rfl | rfl
          · exact ⟨.preserve, by decide⟩
          · exact ⟨.replace, by decide⟩
          · exact ⟨.collapse, by decide⟩
        obtain ⟨w, hw⟩ := this v hv
        exact ⟨_, .whiteSpace ht hw ha⟩
      · exact ⟨_, extensionType_kind ht⟩
      · exact ⟨_, restrictionType_kind ht⟩

theorem type_exists {n : Node} (hn : PartOf root n) (p : Option Str) : ∃ t, xsdType p n = .ok t := by
  obtain ⟨t, ht⟩ := kind_exists S hn p
  exact ⟨t, kind_xsdType ht⟩

theorem readable {n : Node} (hn : PartOf root n) : Readable n := by
  intro c hc
  by_cases hm : Member c
  · exact kind_exists S (.child hn (mem_members.2 ⟨hc, hm⟩)) _
  · by_cases ha : c.tag = "annotation".toList
    · exact ⟨_, .plain (s := "annotation") (t := .annotation) (by decide) ha⟩
    · have he : c.tag = [] := by
        cases c with
        | element => exact absurd ⟨rfl, ha⟩ hm
        | text => rfl
        | other => rfl
      refine ⟨_, .unknown fun s hs e => ?_⟩
      have := known_names s hs
      rw [← e, he] at this
      exact absurd this (by decide)

theorem ownerName_exists : ∀ {l : List Node}, (∀ a ∈ l, PartOf root a) → ∃ s, getParentName l = .ok s
  | [], _ => ⟨_, by rw [getParentName]⟩
  | p :: above, h => by
    obtain ⟨t, ht⟩ := type_exists S (h p List.mem_cons_self) (above.head?.map Node.tag)
    rw [getParentName, ht]
    rw [Res.bind]
    by_cases hs : t = .schema
    · exact ⟨_, if_pos hs⟩
    · rw [if_neg hs]
      cases attrName p with
      | some v => exact ⟨_, rfl⟩
      | none => exact ownerName_exists fun a ha => h a (List.mem_cons_of_mem _ ha)

end

/-- What is known in a proof by induction. -/
structure Known (root : Node) (U : UnicodeTable) (n p : Node) (above : List Node) : Prop where
  node : PartOf root n
  place : n ∈ members p
  parent : PartOf root p
  ancestors : ∀ a ∈ above, PartOf root a
  kids : ∀ k ∈ members n, Parsed n k → ∃ e, parseNode U k n (p :: above) = .ok e ∧ Fits n k e

variable {root : Node} {U : UnicodeTable} {n p : Node} {above : List Node}

theorem row (S : Supported root) {s : String} {l : List String} (h : (s, l) ∈ supportedRows) {n c : Node} (hn : PartOf root n)
    (ht : n.tag = s.toList) (hc : c ∈ members n) : Is c l := S.rows _ h n c hn (is_one.2 ht) hc

theorem typedKids_exists (S : Supported root) (hn : PartOf root n) :
    (placeOf U n p above).typedKids = .ok (kidsOf U n p above) := typedKids_ok.2 ⟨readable S hn, rfl⟩

theorem mem_kidsOf {k : ElementType × Node × Res RsEntity} (h : k ∈ kidsOf U n p above) :
    k.2.1 ∈ n.children ∧ k.1 = kindD (some n.tag) k.2.1 ∧ k.2.2 = parseNode U k.2.1 n (p :: above) := by
  obtain ⟨c, hc, rfl⟩ := List.mem_map.1 h
  exact ⟨hc, rfl, rfl⟩

theorem member_tag {c : Node} {s : String} (h : c.tag = s.toList) (hs : s.toList ∉ ["", "annotation"].map String.toList) :
    Member c := by
  refine ⟨?_, fun e => hs (by rw [← h, e]; decide)⟩
  cases c with
  | element => rfl
  | text => exact absurd (show s.toList ∈ _ by rw [← h]; exact List.mem_cons_self) hs
  | other => exact absurd (show s.toList ∈ _ by rw [← h]; exact List.mem_cons_self) hs

/-- Children of a plain kind are parsed. -/
theorem kid_exists (K : Known root U n p above) {k : ElementType × Node × Res RsEntity} (h : k ∈ kidsOf U n p above)
    {s : String} {t : ElementType} (hs : (s, t) ∈ plainTags) (hk : k.1 = t)
    (hm : s.toList ∉ ["", "annotation"].map String.toList) (hp : s.toList ∈ (["include", "import", "simpleType", "complexType",
      "attributeGroup", "element", "attribute", "anyAttribute", "any", "list", "union", "sequence", "all", "choice",
      "simpleContent", "complexContent"]).map String.toList) :
    k.2.1.tag = s.toList ∧ ∃ e, k.2.2 = .ok e ∧ Fits n k.2.1 e := by
  obtain ⟨h1, h2, h3⟩ := mem_kidsOf h
  have ht : k.2.1.tag = s.toList := (kindD_iff hs).1 (h2.symm.trans hk)
  refine ⟨ht, ?_⟩
  rw [h3]
  exact K.kids _ (mem_members.2 ⟨h1, member_tag ht hm⟩) (.inl (is_of ht hp))

theorem attributesToFields_exists (S : Supported root) (K : Known root U n p above) (hs : ¬ Is n ["schema"]) :
    ∃ fs, attributesToFields (placeOf U n p above) = .ok fs := by
  unfold attributesToFields
  rw [typedKids_exists S K.node]
  refine mapM'_exists fun k hk => ?_
  obtain ⟨hk, hq⟩ := List.mem_filter.1 hk
  have : ∃ f, k.2.2 = .ok (.structField f) := by
    rcases of_decide_eq_true hq with hq | hq
    · obtain ⟨ht, e, he, hf⟩ := kid_exists (s := "attribute") K hk (by decide) hq (by decide) (by decide)
      obtain ⟨f, rfl⟩ := hf.field hs (is_of ht (by decide))
      exact ⟨f, he⟩
    · obtain ⟨ht, e, he, hf⟩ := kid_exists (s := "anyAttribute") K hk (by decide) hq (by decide) (by decide)
      obtain ⟨f, rfl⟩ := hf.field hs (is_of ht (by decide))
      exact ⟨f, he⟩
  obtain ⟨f, hf⟩ := this
  exact ⟨f, by rw [hf]; rfl⟩

theorem attributeGroupsToAliases_exists (S : Supported root) (K : Known root U n p above) (hs : ¬ Is n ["schema"]) :
    ∃ fs, attributeGroupsToAliases (placeOf U n p above) = .ok fs := by
  unfold attributeGroupsToAliases
  rw [typedKids_exists S K.node]
  refine mapM'_exists fun k hk => ?_
  obtain ⟨hk, hq⟩ := List.mem_filter.1 hk
  obtain ⟨ht, e, he, hf⟩ := kid_exists (s := "attributeGroup") K hk (by decide) (of_decide_eq_true hq) (by decide) (by decide)
  obtain ⟨f, rfl⟩ := hf.group hs (is_of ht (by decide))
  exact ⟨f, by rw [he]; rfl⟩

theorem parentName_exists (S : Supported root) (K : Known root U n p above) :
    ∃ s, (placeOf U n p above).parentName = .ok s :=
  ownerName_exists S fun a ha => by
    rcases List.mem_cons.1 ha with rfl | ha
    · exact K.parent
    · exact K.ancestors a ha

/-- The last child of some kinds. -/
theorem lastKid_exists (S : Supported root) (K : Known root U n p above) (q : ElementType → Node → Bool) :
    ∃ k, (placeOf U n p above).lastKid q = .ok k ∧
      ∀ x, k = some x → x.1 ∈ n.children ∧ q (kindD (some n.tag) x.1) x.1 = true ∧ x.2 = parseNode U x.1 n (p :: above) := by
  refine ⟨_, lastKid_ok.2 ⟨readable S K.node, rfl⟩, ?_⟩
  rintro x hx
  obtain ⟨c, hc, rfl⟩ := Option.map_eq_some_iff.1 hx
  obtain ⟨h1, h2⟩ := List.mem_filter.1 (List.mem_of_getLast? hc)
  exact ⟨h1, h2, rfl⟩


theorem bind_ok {α β : Type} {x : Res α} {a : α} {f : α → Res β} (h : x = .ok a) : x.bind f = f a := by rw [h]; rfl

theorem unwrap_exists {n : Node} {a : String} (h : Has n a) : ∃ v, Res.unwrap (n.attr a.toList) = .ok v := by
  obtain ⟨v, hv⟩ := h
  exact ⟨v, unwrap_ok.2 hv⟩

theorem withTags_kid {n : Node} {ts : List String} (h : withTags n ts ≠ []) : ∃ c ∈ n.children, Is c ts := by
  obtain ⟨c, hc⟩ := List.exists_mem_of_ne_nil _ h
  obtain ⟨h1, h2⟩ := List.mem_filter.1 hc
  obtain ⟨t, ht, h2⟩ := List.any_eq_true.1 h2
  exact ⟨c, h1, is_of (of_decide_eq_true h2) (List.mem_map_of_mem ht)⟩

/-- There is a last child of some kinds if there is any. -/
theorem lastKid_some (S : Supported root) (K : Known root U n p above) {q : ElementType → Node → Bool} {c : Node}
    (hc : c ∈ n.children) (hq : q (kindD (some n.tag) c) c = true) :
    ∃ x, (placeOf U n p above).lastKid q = .ok (some (x, parseNode U x n (p :: above))) ∧ x ∈ n.children ∧
      q (kindD (some n.tag) x) x = true := by
  have hne : (n.children.filter fun c => q (kindD (some n.tag) c) c) ≠ [] :=
    List.ne_nil_of_mem (List.mem_filter.2 ⟨hc, hq⟩)
  obtain ⟨h1, h2⟩ := List.mem_filter.1 (List.getLast_mem hne)
  exact ⟨_, lastKid_ok.2 ⟨readable S K.node, by rw [List.getLast?_eq_some_getLast hne]; rfl⟩, h1, h2⟩

theorem content_kid {c : Node} {pt : Option Str} (h : isContentType (kindD pt c) c = true) :
    c.tag = "simpleType".toList ∨ c.tag = "complexType".toList := by
  rcases of_decide_eq_true h with h | h
  · exact .inl ((kindD_iff (s := "simpleType") (by decide)).1 h)
  · exact .inr ((kindD_iff (s := "complexType") (by decide)).1 h)

theorem content_parsed {c : Node} (h : c.tag = "simpleType".toList ∨ c.tag = "complexType".toList) (n : Node) :
    Member c ∧ Parsed n c := by
  rcases h with h | h
  · exact ⟨member_tag h (by decide), .inl (is_of h (by decide))⟩
  · exact ⟨member_tag h (by decide), .inl (is_of h (by decide))⟩

theorem not_schema {s : String} (h : n.tag = s.toList) (hs : s.toList ≠ "schema".toList) : ¬ Is n ["schema"] := by
  rw [is_one, h]; exact hs

theorem element_exists (S : Supported root) (K : Known root U n p above) (hn : n.tag = "element".toList) :
    ∃ e, parseElement (placeOf U n p above) = .ok e ∧ Fits p n e := by
  have hfield : ∀ {f}, (Is p ["sequence", "all"]) → Fits p n (.structField f) := fun {f} h =>
    { field := fun _ h => absurd h (by unfold Is; rw [hn]; decide)
      group := fun _ h => absurd h (by unfold Is; rw [hn]; decide)
      member := fun _ _ => ⟨_, rfl⟩
      choice := fun h => absurd h (by unfold Is; rw [hn]; decide)
      case := fun h' => by
        rw [is_one] at h'
        exact absurd h (by unfold Is; rw [h']; decide)
      simple := fun h => absurd h (by unfold Is; rw [hn]; decide)
      restriction := fun _ h => absurd h (by unfold Is; rw [hn]; decide) }
  have hother : ∀ {e}, ¬ Is p ["sequence", "all"] → (Is p ["choice"] → ∃ f, e = .enumCase f) → Fits p n e := fun {e} h h' =>
    { field := fun _ h => absurd h (by unfold Is; rw [hn]; decide)
      group := fun _ h => absurd h (by unfold Is; rw [hn]; decide)
      member := fun h'' => absurd h'' h
      choice := fun h => absurd h (by unfold Is; rw [hn]; decide)
      case := fun h'' _ => h' h''
      simple := fun h => absurd h (by unfold Is; rw [hn]; decide)
      restriction := fun _ h => absurd h (by unfold Is; rw [hn]; decide) }
  have hseq : Is p ["sequence", "all"] → ∃ e, parseFieldOfSequence (placeOf U n p above) = .ok e ∧ Fits p n e := by
    intro hp
    unfold parseFieldOfSequence
    dsimp only
    split
    · exact ⟨_, rfl, hfield hp⟩
    · rename_i hno
      have : withTags n ["simpleType", "complexType"] ≠ [] := by
        rcases S.typed p n K.parent hp K.place (is_one.2 hn) with ⟨v, h⟩ | ⟨v, h⟩ | h
        · exact absurd (by unfold Node.hasAttribute; show ((n.attr _).isSome || _) = true; rw [h]; rfl) hno
        · exact absurd (by unfold Node.hasAttribute; show (_ || (n.attr _).isSome) = true; rw [h, Bool.or_comm]; rfl) hno
        · exact h
      obtain ⟨c, hc, ht⟩ := withTags_kid this
      have hq : isContentType (kindD (some n.tag) c) c = true := by
        refine decide_eq_true ?_
        rcases List.mem_cons.1 ht with ht | ht
        · exact .inl ((kindD_iff (s := "simpleType") (by decide)).2 ht)
        · exact .inr ((kindD_iff (s := "complexType") (by decide)).2 (List.mem_singleton.1 ht))
      obtain ⟨x, h1, h2, h3⟩ := lastKid_some S K hc hq
      obtain ⟨hm, hp'⟩ := content_parsed (content_kid h3) n
      obtain ⟨e, he, -⟩ := K.kids x (mem_members.2 ⟨h2, hm⟩) hp'
      rw [bind_ok h1, bind_ok (unwrap_ok.2 rfl), bind_ok he]
      exact ⟨_, rfl, hfield hp⟩
  unfold parseElement
  obtain ⟨pt, hpt⟩ := type_exists S K.parent (above.head?.map Node.tag)
  have hpt' : (placeOf U n p above).parentType = .ok pt := hpt
  rw [bind_ok hpt']
  by_cases h1 : p.tag = "schema".toList
  · obtain rfl := Res.ok.inj (hpt.symm.trans ((type_iff (s := "schema") (t := .schema) (by decide)).2 h1))
    have hnot : ¬ Is p ["sequence", "all"] := by unfold Is; rw [h1]; decide
    have hnot' : ¬ Is p ["choice"] := by unfold Is; rw [h1]; decide
    have hfit : ∀ e, Fits p n e := fun e => hother hnot fun h => absurd h hnot'
    show ∃ e, parseGlobalElement _ = _ ∧ _
    unfold parseGlobalElement
    obtain ⟨nm, hnm⟩ := unwrap_exists (S.named p n K.parent (is_one.2 h1) K.place (is_of hn (by decide)))
    rw [bind_ok (show Res.unwrap (attrName (placeOf U n p above).node) = .ok nm from hnm)]
    cases attrType (placeOf U n p above).node with
    | some t => exact ⟨_, rfl, hfit _⟩
    | none =>
      obtain ⟨k, hk, hx⟩ := lastKid_exists S K isContentType
      rw [bind_ok hk]
      cases k with
      | none => exact ⟨_, rfl, hfit _⟩
      | some x =>
        obtain ⟨h2, h3, h4⟩ := hx x rfl
        obtain ⟨hm, hp'⟩ := content_parsed (content_kid h3) n
        obtain ⟨e, he, -⟩ := K.kids x.1 (mem_members.2 ⟨h2, hm⟩) hp'
        show ∃ e, x.2.bind _ = _ ∧ _
        rw [bind_ok (h4.trans he)]
        exact ⟨_, rfl, hfit _⟩
  · by_cases h2 : p.tag = "sequence".toList
    · obtain rfl := Res.ok.inj (hpt.symm.trans ((type_iff (s := "sequence") (t := .sequence) (by decide)).2 h2))
      exact hseq (is_of h2 (by decide))
    · by_cases h3 : p.tag = "all".toList
      · obtain rfl := Res.ok.inj (hpt.symm.trans ((type_iff (s := "all") (t := .all) (by decide)).2 h3))
        exact hseq (is_of h3 (by decide))
      · have hnot : ¬ Is p ["sequence", "all"] := by
          intro h
          rcases List.mem_cons.1 h with h | h
          · exact h2 h
          · exact h3 (List.mem_singleton.1 h)
        by_cases h4 : p.tag = "choice".toList
        · obtain rfl := Res.ok.inj (hpt.symm.trans ((type_iff (s := "choice") (t := .choice) (by decide)).2 h4))
          refine ⟨_, rfl, hother hnot fun _ => ?_⟩
          unfold parseCaseOfChoice
          split <;> exact ⟨_, rfl⟩
        · have hfit : ∀ e, Fits p n e := fun e => hother hnot fun h => absurd (is_one.1 h) h4
          have : pt ≠ .schema ∧ pt ≠ .sequence ∧ pt ≠ .all ∧ pt ≠ .choice := by
            refine ⟨?_, ?_, ?_, ?_⟩ <;> rintro rfl
            · exact h1 ((type_iff (s := "schema") (by decide)).1 hpt)
            · exact h2 ((type_iff (s := "sequence") (by decide)).1 hpt)
            · exact h3 ((type_iff (s := "all") (by decide)).1 hpt)
            · exact h4 ((type_iff (s := "choice") (by decide)).1 hpt)
          refine ⟨elementDefault n, ?_, hfit _⟩
          cases pt with
          | schema => exact absurd rfl this.1
          | sequence => exact absurd rfl this.2.1
          | all => exact absurd rfl this.2.2.1
          | choice => exact absurd rfl this.2.2.2
          | _ => rfl


/-- Proves `Fits` for an element whose tag is known and has little to do with it. -/
macro "fits" h:ident : tactic => `(tactic| (constructor <;> first
  | exact fun h => absurd h (by unfold Is; rw [$h:ident]; decide)
  | exact fun _ h => absurd h (by unfold Is; rw [$h:ident]; decide)
  | exact fun _ => ⟨_, rfl⟩
  | exact fun _ _ => ⟨_, rfl⟩))

theorem attribute_exists (S : Supported root) (K : Known root U n p above) (hn : n.tag = "attribute".toList) :
    ∃ e, parseAttribute (placeOf U n p above) = .ok e ∧ Fits p n e := by
  unfold parseAttribute
  obtain ⟨pt, hpt⟩ := type_exists S K.parent (above.head?.map Node.tag)
  have hpt' : (placeOf U n p above).parentType = .ok pt := hpt
  rw [bind_ok hpt']
  obtain ⟨h1, h2⟩ := S.attributes n K.node (is_one.2 hn)
  have hs : pt = .schema ↔ p.tag = "schema".toList := by
    constructor
    · rintro rfl; exact (type_iff (s := "schema") (by decide)).1 hpt
    · exact fun h => Res.ok.inj (hpt.symm.trans ((type_iff (s := "schema") (t := .schema) (by decide)).2 h))
  by_cases hp : pt = .schema
  · rw [if_pos hp]
    have hfit : ∀ e, Fits p n e := fun e => by
      constructor <;> first
        | exact fun h => absurd (is_one.2 (hs.1 hp)) h
        | exact fun h => absurd h (by unfold Is; rw [hn]; decide)
        | exact fun _ h => absurd h (by unfold Is; rw [hn]; decide)
    unfold parseGlobalAttribute
    cases attrRef (placeOf U n p above).node with
    | some r => exact ⟨_, rfl, hfit _⟩
    | none =>
      obtain ⟨nm, hnm⟩ := unwrap_exists (S.named p n K.parent (is_one.2 (hs.1 hp)) K.place (is_of hn (by decide)))
      dsimp only
      rw [bind_ok (show Res.unwrap (attrName (placeOf U n p above).node) = .ok nm from hnm)]
      cases attrType (placeOf U n p above).node with
      | some t => exact ⟨_, rfl, hfit _⟩
      | none =>
        obtain ⟨k, hk, hx⟩ := lastKid_exists S K fun t n => n.isElement ∧ t = .simpleType
        dsimp only
        rw [bind_ok hk]
        cases k with
        | none => exact ⟨_, rfl, hfit _⟩
        | some x =>
          obtain ⟨h2, h3, h4⟩ := hx x rfl
          have ht := (kindD_iff (s := "simpleType") (by decide)).1 (of_decide_eq_true h3).2
          obtain ⟨hm, hp'⟩ := content_parsed (.inl ht) n
          obtain ⟨e, he, -⟩ := K.kids x.1 (mem_members.2 ⟨h2, hm⟩) hp'
          dsimp only
          rw [bind_ok (h4.trans he)]
          exact ⟨_, rfl, hfit _⟩
  · rw [if_neg hp]
    have : ∃ v, (n.attr "name".toList).or (n.attr "ref".toList) = some v := by
      rcases h1 with ⟨v, h⟩ | ⟨v, h⟩
      · rw [h]; exact ⟨v, rfl⟩
      · cases n.attr "name".toList with
        | none => exact ⟨v, h⟩
        | some w => exact ⟨w, rfl⟩
    obtain ⟨v, hv⟩ := this
    have hu : ∃ u, attrUse n = .ok u := by
      have : (n.attr "use".toList).getD "optional".toList ∈ ["optional", "prohibited", "required"].map String.toList := by
        cases hu : n.attr "use".toList with
        | none => decide
        | some w => exact h2 w hu
      unfold attrUse
      dsimp only
      simp only [List.map_cons, List.map_nil, List.mem_cons, List.not_mem_nil, or_false] at this
      rcases this with h | h | h <;> rw [h]
      · exact ⟨.optional, by decide⟩
      · exact ⟨.prohibited, by decide⟩
      · exact ⟨.required, by decide⟩
    obtain ⟨u, hu⟩ := hu
    rw [bind_ok (show Res.unwrap ((attrName (placeOf U n p above).node).or (attrRef (placeOf U n p above).node)) = .ok v
        from unwrap_ok.2 hv), bind_ok (show attrUse (placeOf U n p above).node = .ok u from hu)]
    refine ⟨_, rfl, ?_⟩
    fits hn

theorem schema_type (S : Supported root) (K : Known root U n p above) : ∃ pt, (placeOf U n p above).parentType = .ok pt ∧
    (pt = .schema ↔ Is p ["schema"]) := by
  obtain ⟨pt, hpt⟩ := type_exists S K.parent (above.head?.map Node.tag)
  refine ⟨pt, hpt, ?_⟩
  rw [is_one]
  constructor
  · rintro rfl; exact (type_iff (s := "schema") (by decide)).1 hpt
  · exact fun h => Res.ok.inj (hpt.symm.trans ((type_iff (s := "schema") (t := .schema) (by decide)).2 h))

theorem attributeGroup_exists (S : Supported root) (K : Known root U n p above) (hn : n.tag = "attributeGroup".toList) :
    ∃ e, parseAttributeGroup (placeOf U n p above) = .ok e ∧ Fits p n e := by
  unfold parseAttributeGroup
  obtain ⟨pt, hpt, hs⟩ := schema_type S K
  rw [bind_ok hpt]
  by_cases hp : pt = .schema
  · rw [if_pos hp]
    obtain ⟨nm, hnm⟩ := unwrap_exists (S.named p n K.parent (hs.1 hp) K.place (is_of hn (by decide)))
    obtain ⟨fs, hfs⟩ := attributesToFields_exists S K (not_schema hn (by decide))
    rw [bind_ok (show Res.unwrap (attrName (placeOf U n p above).node) = .ok nm from hnm), bind_ok hfs]
    refine ⟨_, rfl, ?_⟩
    constructor <;> first
      | exact fun h => absurd (hs.1 hp) h
      | exact fun h => absurd h (by unfold Is; rw [hn]; decide)
      | exact fun _ h => absurd h (by unfold Is; rw [hn]; decide)
  · rw [if_neg hp]
    obtain ⟨r, hr⟩ := unwrap_exists (S.groups p n K.parent (fun h => hp (hs.2 h)) K.place (is_one.2 hn))
    rw [bind_ok (show Res.unwrap (attrRef (placeOf U n p above).node) = .ok r from hr)]
    refine ⟨_, rfl, ?_⟩
    fits hn

theorem sequence_exists (S : Supported root) (K : Known root U n p above) (hn : n.tag = "sequence".toList ∨ n.tag = "all".toList) :
    ∃ e, parseSequence (placeOf U n p above) = .ok e ∧ Fits p n e := by
  unfold parseSequence elementsToFields
  obtain ⟨nm, hnm⟩ := parentName_exists S K
  rw [bind_ok hnm, typedKids_exists S K.node]
  have hn' : Is n ["sequence", "all"] := by
    rcases hn with h | h
    · exact is_of h (by decide)
    · exact is_of h (by decide)
  have : ∃ fs, Res.mapM' (fun k => k.2.2.bind (memberField nm))
      ((kidsOf U n p above).filter fun k => isMember k.1 k.2.1) = .ok fs := by
    refine mapM'_exists fun k hk => ?_
    obtain ⟨hk, hq⟩ := List.mem_filter.1 hk
    obtain ⟨h1, h2, h3⟩ := mem_kidsOf hk
    obtain ⟨he, hna⟩ := of_decide_eq_true hq
    have hm : k.2.1 ∈ members n := mem_members.2 ⟨h1, he, fun e =>
      hna (h2.trans ((kindD_iff (s := "annotation") (by decide)).2 e))⟩
    have hrow : Is k.2.1 ["element", "any", "choice"] := by
      rcases hn with h | h
      · exact row S (s := "sequence") (by decide) K.node h hm
      · exact row S (s := "all") (by decide) K.node h hm
    have hparsed : Parsed n k.2.1 := .inl (is_mono hrow (by decide))
    obtain ⟨e, he, hf⟩ := K.kids _ hm hparsed
    rw [bind_ok (h3.trans he)]
    by_cases hc : Is k.2.1 ["choice"]
    · obtain ⟨⟨⟩, rfl⟩ := hf.choice hc
      exact ⟨_, rfl⟩
    · have : Is k.2.1 ["element", "any"] := by
        rcases List.mem_cons.1 hrow with h | h
        · exact is_of h (by decide)
        · rcases List.mem_cons.1 h with h | h
          · exact is_of h (by decide)
          · exact absurd h hc
      obtain ⟨⟨⟩, rfl⟩ := hf.member hn' this
      exact ⟨_, rfl⟩
  obtain ⟨fs, hfs⟩ := this
  refine ⟨_, by rw [bind_ok rfl, bind_ok hfs], ?_⟩
  rcases hn with hn | hn
  · fits hn
  · fits hn

theorem choice_exists (S : Supported root) (K : Known root U n p above) (hn : n.tag = "choice".toList) :
    ∃ e, parseChoice (placeOf U n p above) = .ok e ∧ Fits p n e := by
  unfold parseChoice
  rw [typedKids_exists S K.node]
  have : ∃ fs, Res.mapM' (fun k => k.2.2.bind asCase)
      ((kidsOf U n p above).filter fun k => k.2.1.isElement ∧ k.1 = .element) = .ok fs := by
    refine mapM'_exists fun k hk => ?_
    obtain ⟨hk, hq⟩ := List.mem_filter.1 hk
    obtain ⟨ht, e, he, hf⟩ := kid_exists (s := "element") K hk (by decide) (of_decide_eq_true hq).2 (by decide) (by decide)
    obtain ⟨f, rfl⟩ := hf.case (is_one.2 hn) (is_one.2 ht)
    exact ⟨f, by rw [he]; rfl⟩
  obtain ⟨fs, hfs⟩ := this
  refine ⟨_, by rw [bind_ok rfl, bind_ok hfs], ?_⟩
  fits hn

/-- Kinds of one of these tags. -/
theorem is_kind {c : Node} {pt : Option Str} {l : List (String × ElementType)} (hl : ∀ r ∈ l, r ∈ plainTags)
    {t : ElementType} (h : kindD pt c = t) (ht : t ∈ l.map (·.2)) : Is c (l.map (·.1)) := by
  obtain ⟨r, hr, rfl⟩ := List.mem_map.1 ht
  exact is_of ((kindD_iff (hl r hr)).1 h) (List.mem_map_of_mem (List.mem_map_of_mem hr))

theorem complexType_exists (S : Supported root) (K : Known root U n p above) (hn : n.tag = "complexType".toList) :
    ∃ e, parseComplexType (placeOf U n p above) = .ok e ∧ Fits p n e := by
  have hfit : ∀ e, Fits p n e := fun e => by fits hn
  have hns := not_schema hn (by decide)
  unfold parseComplexType
  have hname : ∃ nm, complexTypeName (placeOf U n p above) = .ok nm := by
    unfold complexTypeName
    obtain ⟨pt, hpt, hs⟩ := schema_type S K
    rw [bind_ok hpt]
    by_cases hp : pt = .schema
    · rw [if_pos hp]
      exact unwrap_exists (S.named p n K.parent (hs.1 hp) K.place (is_of hn (by decide)))
    · rw [if_neg hp]
      exact parentName_exists S K
  obtain ⟨nm, hnm⟩ := hname
  obtain ⟨fs, hfs⟩ := attributesToFields_exists S K hns
  obtain ⟨ag, hag⟩ := attributeGroupsToAliases_exists S K hns
  obtain ⟨k, hk, hx⟩ := lastKid_exists S K isComplexContent
  rw [bind_ok hnm, bind_ok hfs, bind_ok hk]
  cases k with
  | none =>
    dsimp only
    rw [bind_ok hag]
    exact ⟨_, rfl, hfit _⟩
  | some x =>
    obtain ⟨h2, h3, h4⟩ := hx x rfl
    dsimp only
    by_cases hl : (x.1.children.filter Node.isElement).length = 0
    · rw [if_pos hl, bind_ok hag]
      exact ⟨_, rfl, hfit _⟩
    · rw [if_neg hl]
      obtain ⟨hel, hkind⟩ := of_decide_eq_true h3
      have hcont : Is x.1 ["all", "choice", "complexContent", "group", "sequence", "simpleContent"] :=
        is_kind (l := [("all", .all), ("choice", .choice), ("complexContent", .complexContent), ("group", .group),
          ("sequence", .sequence), ("simpleContent", .simpleContent)]) (by decide) rfl (by
            rcases hkind with h | h | h | h | h | h <;> rw [h] <;> decide)
      have hm : x.1 ∈ members n := mem_members.2 ⟨h2, hel, fun e => by unfold Is at hcont; rw [e] at hcont; revert hcont; decide⟩
      have hrow : Is x.1 ["attribute", "anyAttribute", "attributeGroup", "sequence", "all", "choice", "complexContent",
        "simpleContent"] := row S (s := "complexType") (by decide) K.node hn hm
      have hparsed : Parsed n x.1 := .inl (is_mono hrow (by decide))
      obtain ⟨e, he, -⟩ := K.kids _ hm hparsed
      rw [bind_ok (h4.trans he)]
      unfold finishComplexType
      split
      · exact ⟨_, rfl, hfit _⟩
      · dsimp only
        rw [bind_ok hag]
        exact ⟨_, rfl, hfit _⟩
      · exact ⟨_, rfl, hfit _⟩

/-- The last child of an element which is not an annotation. -/
theorem lastMember_exists (S : Supported root) (K : Known root U n p above)
    (hf : Is n ["simpleType", "simpleContent", "complexContent"]) :
    ∃ x ∈ members n, (placeOf U n p above).lastKid isMember = .ok (some (x, parseNode U x n (p :: above))) := by
  obtain ⟨c, hc⟩ := List.exists_mem_of_ne_nil _ (S.full n K.node hf)
  have hmem : ∀ c, c ∈ n.children → (isMember (kindD (some n.tag) c) c = true ↔ Member c) := by
    intro c hc
    unfold isMember Member
    rw [decide_eq_true_iff, ne_eq, kindD_iff (s := "annotation") (by decide)]
  obtain ⟨h1, h2⟩ := mem_members.1 hc
  obtain ⟨x, h3, h4, h5⟩ := lastKid_some S K h1 ((hmem c h1).2 h2)
  exact ⟨x, mem_members.2 ⟨h4, (hmem x h4).1 h5⟩, h3⟩

theorem content_exists (S : Supported root) (K : Known root U n p above)
    (hn : n.tag = "simpleContent".toList ∨ n.tag = "complexContent".toList) :
    ∃ e, parseContent (placeOf U n p above) = .ok e ∧ Fits p n e := by
  have hf : Is n ["simpleType", "simpleContent", "complexContent"] := by
    rcases hn with h | h
    · exact is_of h (by decide)
    · exact is_of h (by decide)
  obtain ⟨x, hm, hx⟩ := lastMember_exists S K hf
  unfold parseContent
  rw [bind_ok hx, bind_ok (unwrap_ok.2 rfl)]
  have hparsed : Parsed n x := by
    rcases hn with h | h
    · exact .inr (.inl ⟨row S (s := "simpleContent") (by decide) K.node h hm, is_of h (by decide)⟩)
    · rcases List.mem_cons.1 (row S (s := "complexContent") (l := ["extension", "restriction"]) (by decide) K.node h hm) with hr | hr
      · exact .inr (.inl ⟨is_one.2 hr, is_of h (by decide)⟩)
      · exact .inr (.inr ⟨hr, is_of h (by decide)⟩)
  obtain ⟨e, he, -⟩ := K.kids _ hm hparsed
  refine ⟨e, he, ?_⟩
  rcases hn with hn | hn
  · fits hn
  · fits hn

theorem derivedWithoutContent_exists (S : Supported root) (K : Known root U n p above) (hs : ¬ Is n ["schema"]) (fs) :
    ∃ e, derivedWithoutContent (placeOf U n p above) fs = .ok e := by
  unfold derivedWithoutContent
  obtain ⟨ag, hag⟩ := attributeGroupsToAliases_exists S K hs
  rw [bind_ok hag]
  exact ⟨_, rfl⟩

theorem derivedWithContent_exists (S : Supported root) (K : Known root U n p above) (hs : ¬ Is n ["schema"]) (fs x) :
    ∃ e, derivedWithContent (placeOf U n p above) fs x = .ok e := by
  unfold derivedWithContent
  split
  · exact ⟨_, rfl⟩
  · exact derivedWithoutContent_exists S K hs fs

theorem extension_exists (S : Supported root) (K : Known root U n p above) (hn : n.tag = "extension".toList)
    (hp : Is p ["simpleContent", "complexContent"]) :
    ∃ e, parseExtension (placeOf U n p above) = .ok e ∧ Fits p n e := by
  have hfit : ∀ e, Fits p n e := fun e => by fits hn
  have hns := not_schema hn (by decide)
  obtain ⟨b, hb⟩ := unwrap_exists (S.derived n K.node (is_of hn (by decide)))
  have hb' : Res.unwrap (attrBase (placeOf U n p above).node) = .ok b := hb
  obtain ⟨fs, hfs⟩ := attributesToFields_exists S K hns
  unfold parseExtension
  rcases List.mem_cons.1 hp with hp | hp
  · have ht : (placeOf U n p above).type = .ok (.extension .simpleContent) :=
      kind_xsdType (.extension (s := "simpleContent") hn (by decide) (congrArg some hp))
    rw [bind_ok ht]
    show ∃ e, simpleContentExtension _ = _ ∧ _
    unfold simpleContentExtension
    obtain ⟨ag, hag⟩ := attributeGroupsToAliases_exists S K hns
    rw [bind_ok hb', bind_ok hfs, bind_ok hag]
    exact ⟨_, rfl, hfit _⟩
  · have ht : (placeOf U n p above).type = .ok (.extension .complexContent) :=
      kind_xsdType (.extension (s := "complexContent") hn (by decide) (congrArg some (List.mem_singleton.1 hp)))
    rw [bind_ok ht]
    show ∃ e, complexContentExtension _ = _ ∧ _
    unfold complexContentExtension
    obtain ⟨k, hk, hx⟩ := lastKid_exists S K isExtensionContent
    rw [bind_ok hb', bind_ok hfs, bind_ok hk]
    cases k with
    | none =>
      obtain ⟨e, he⟩ := derivedWithoutContent_exists S K hns (fs ++ [baseField n b])
      exact ⟨e, he, hfit _⟩
    | some x =>
      obtain ⟨h2, h3, h4⟩ := hx x rfl
      obtain ⟨hel, -, hkind⟩ := of_decide_eq_true h3
      have hm : x.1 ∈ members n := mem_members.2 ⟨h2, hel, fun e => by
        rw [← kindD_iff (s := "annotation") (t := .annotation) (p := some n.tag) (by decide)] at e
        rw [e] at hkind; revert hkind; decide⟩
      have hrow : Is x.1 ["attribute", "anyAttribute", "attributeGroup", "sequence", "all", "choice"] :=
        row S (s := "extension") (by decide) K.node hn hm
      obtain ⟨e, he, -⟩ := K.kids _ hm (.inl (is_mono hrow (by decide)))
      dsimp only
      rw [bind_ok (h4.trans he)]
      obtain ⟨e, he⟩ := derivedWithContent_exists S K hns (fs ++ [baseField n b]) e
      exact ⟨e, he, hfit _⟩

theorem restriction_exists (S : Supported root) (K : Known root U n p above) (hn : n.tag = "restriction".toList)
    (hp : Is p ["simpleType", "complexContent"]) :
    ∃ e, parseRestriction U (placeOf U n p above) = .ok e ∧ Fits p n e := by
  have hns := not_schema hn (by decide)
  obtain ⟨b, hb⟩ := unwrap_exists (S.derived n K.node (is_of hn (by decide)))
  have hb' : Res.unwrap (attrBase (placeOf U n p above).node) = .ok b := hb
  unfold parseRestriction
  rcases List.mem_cons.1 hp with hp | hp
  · have ht : (placeOf U n p above).type = .ok (.restriction .simpleType) :=
      kind_xsdType (.restriction (s := "simpleType") hn (by decide) (congrArg some hp))
    have hfit : ∀ e, IsSimple e → Fits p n e := fun e h => by
      constructor <;> first
        | exact fun _ _ => h
        | exact fun h => absurd h (by unfold Is; rw [hn]; decide)
        | exact fun _ h => absurd h (by unfold Is; rw [hn]; decide)
    rw [bind_ok ht]
    show ∃ e, simpleTypeRestriction U _ = _ ∧ _
    unfold simpleTypeRestriction facets isSimpleEnumerations
    rw [bind_ok hb', typedKids_exists S K.node]
    dsimp only [Res.bind]
    split
    · obtain ⟨nm, hnm⟩ := parentName_exists S K
      rw [hnm]
      exact ⟨_, rfl, hfit _ (.inl ⟨_, rfl⟩)⟩
    · exact ⟨_, rfl, hfit _ (.inr ⟨_, rfl⟩)⟩
  · have hp := List.mem_singleton.1 hp
    have ht : (placeOf U n p above).type = .ok (.restriction .complexContent) :=
      kind_xsdType (.restriction (s := "complexContent") hn (by decide) (congrArg some hp))
    have hfit : ∀ e, Fits p n e := fun e => by
      constructor <;> first
        | exact fun h => absurd h (by unfold Is; rw [hn]; decide)
        | exact fun h => absurd h (by unfold Is; rw [hp]; decide)
        | exact fun _ h => absurd h (by unfold Is; rw [hn]; decide)
    rw [bind_ok ht]
    show ∃ e, complexContentRestriction _ = _ ∧ _
    unfold complexContentRestriction
    obtain ⟨fs, hfs⟩ := attributesToFields_exists S K hns
    obtain ⟨k, hk, hx⟩ := lastKid_exists S K isRestrictionContent
    rw [bind_ok hb', bind_ok hfs, bind_ok hk]
    cases k with
    | none =>
      obtain ⟨e, he⟩ := derivedWithoutContent_exists S K hns (fs ++ [baseField n b])
      exact ⟨e, he, hfit _⟩
    | some x =>
      obtain ⟨h2, h3, h4⟩ := hx x rfl
      obtain ⟨hel, -, hkind⟩ := of_decide_eq_true h3
      have hcont : Is x.1 ["all", "anyAttribute", "attribute", "attributeGroup", "choice", "group", "sequence"] :=
        is_kind (l := [("all", .all), ("anyAttribute", .anyAttribute), ("attribute", .attribute),
          ("attributeGroup", .attributeGroup), ("choice", .choice), ("group", .group), ("sequence", .sequence)])
          (by decide) rfl (by rcases hkind with h | h | h | h | h | h | h <;> rw [h] <;> decide)
      have hm : x.1 ∈ members n := mem_members.2 ⟨h2, hel, fun e => by unfold Is at hcont; rw [e] at hcont; revert hcont; decide⟩
      have hrow := row S (s := "restriction") (l := facetTags.map (·.1) ++ ["whiteSpace", "attribute", "anyAttribute",
        "attributeGroup", "sequence", "all", "choice"]) (by simp [supportedRows]) K.node hn hm
      have hno : ¬ Is x.1 ["group"] := fun h => by
        rw [is_one] at h; unfold Is at hrow; rw [h] at hrow; revert hrow; decide
      have hparsed : Is x.1 ["all", "anyAttribute", "attribute", "attributeGroup", "choice", "sequence"] := by
        have : ∀ t ∈ ["all", "anyAttribute", "attribute", "attributeGroup", "choice", "group", "sequence"].map String.toList,
          t ∉ ["group"].map String.toList →
          t ∈ ["all", "anyAttribute", "attribute", "attributeGroup", "choice", "sequence"].map String.toList := by decide
        exact this _ hcont hno
      obtain ⟨e, he, -⟩ := K.kids _ hm (.inl (is_mono hparsed (by decide)))
      dsimp only
      rw [bind_ok (h4.trans he)]
      obtain ⟨e, he⟩ := derivedWithContent_exists S K hns (fs ++ [baseField n b]) e
      exact ⟨e, he, hfit _⟩

theorem fits_simple {e : RsEntity} {s : String} (hn : n.tag = s.toList)
    (hs : s.toList ∈ ["simpleType", "list", "union"].map String.toList) (h : IsSimple e) : Fits p n e := by
  have hno : ∀ l : List String, (∀ t ∈ ["simpleType", "list", "union"].map String.toList, t ∉ l.map String.toList) →
      ¬ Is n l := fun l hl h => hl _ hs (by rw [← hn]; exact h)
  constructor <;> first
    | exact fun _ => h
    | exact fun h => absurd h (hno _ (by decide))
    | exact fun _ h => absurd h (hno _ (by decide))

theorem list_exists (S : Supported root) (K : Known root U n p above) (hn : n.tag = "list".toList) :
    ∃ e, parseList (placeOf U n p above) = .ok e ∧ Fits p n e := by
  unfold parseList
  cases hi : (placeOf U n p above).node.attr "itemType".toList with
  | some t => exact ⟨_, rfl, fits_simple hn (by decide) (.inr ⟨_, rfl⟩)⟩
  | none =>
    have hw : withTags n ["simpleType"] ≠ [] := by
      rcases S.lists n K.node (is_one.2 hn) with ⟨v, hv⟩ | h
      · exact absurd (hi.symm.trans hv) (fun h => by cases h)
      · exact h
    obtain ⟨c, hc, ht⟩ := withTags_kid hw
    rw [is_one] at ht
    have hf : ∃ k, ((placeOf U n p above).kids.find? fun k => k.1.isElement && k.1.tag = "simpleType".toList) = some k := by
      cases hf : (placeOf U n p above).kids.find? fun k => k.1.isElement && k.1.tag = "simpleType".toList with
      | some k => exact ⟨k, rfl⟩
      | none =>
        have := List.find?_eq_none.1 hf (c, parseNode U c n (p :: above)) (List.mem_map_of_mem hc)
        exact absurd (by rw [Bool.and_eq_true]; exact ⟨(member_tag ht (by decide)).1, decide_eq_true ht⟩) this
    obtain ⟨k, hk⟩ := hf
    obtain ⟨c', hc', rfl⟩ := List.mem_map.1 (List.mem_of_find?_eq_some hk)
    have hp := List.find?_some hk
    rw [Bool.and_eq_true, decide_eq_true_iff] at hp
    obtain ⟨hm, hp'⟩ := content_parsed (.inl hp.2) n
    obtain ⟨e, he, hfit⟩ := K.kids c' (mem_members.2 ⟨hc', hm⟩) hp'
    dsimp only
    rw [bind_ok (unwrap_ok.2 hk), bind_ok he]
    rcases hfit.simple (is_of hp.2 (by decide)) with ⟨⟨⟩, rfl⟩ | ⟨⟨⟩, rfl⟩
    · exact ⟨_, rfl, fits_simple hn (by decide) (.inr ⟨_, rfl⟩)⟩
    · exact ⟨_, rfl, fits_simple hn (by decide) (.inr ⟨_, rfl⟩)⟩

theorem unionSubtypes_exists : ∀ {l : List (Res RsEntity)} {i : Nat}, (∀ r ∈ l, ∃ e, r = .ok e) →
    ∃ es, unionSubtypes i l = .ok es
  | [], i, _ => ⟨[], by rw [unionSubtypes]⟩
  | r :: l, i, h => by
    obtain ⟨e, he⟩ := h r List.mem_cons_self
    obtain ⟨es, hes⟩ := unionSubtypes_exists (i := i + 1) fun x hx => h x (List.mem_cons_of_mem _ hx)
    exact ⟨_, by rw [unionSubtypes, bind_ok he, bind_ok hes]⟩

theorem union_exists (S : Supported root) (K : Known root U n p above) (hn : n.tag = "union".toList) :
    ∃ e, parseUnion (placeOf U n p above) = .ok e ∧ Fits p n e := by
  unfold parseUnion
  rw [bind_ok (typedKids_exists S K.node)]
  have hrow : ∀ c ∈ members n, Is c ["simpleType"] := fun c hc => row S (s := "union") (by decide) K.node hn hc
  have hsub : ∃ es, unionSubtypes 0 (((kidsOf U n p above).filter fun k => k.2.1.isElement ∧ k.1 = .simpleType).map (·.2.2)) =
      .ok es := by
    refine unionSubtypes_exists fun r hr => ?_
    obtain ⟨k, hk, rfl⟩ := List.mem_map.1 hr
    obtain ⟨hk, hq⟩ := List.mem_filter.1 hk
    obtain ⟨-, e, he, -⟩ := kid_exists (s := "simpleType") K hk (by decide) (of_decide_eq_true hq).2 (by decide) (by decide)
    exact ⟨e, he⟩
  obtain ⟨es, hes⟩ := hsub
  have hattr : attributesToFields (placeOf U n p above) = .ok [] := by
    unfold attributesToFields
    rw [bind_ok (typedKids_exists S K.node)]
    have : (kidsOf U n p above).filter (fun k => k.1 = .attribute ∨ k.1 = .anyAttribute) = [] := by
      refine List.filter_eq_nil_iff.2 fun k hk hq => ?_
      obtain ⟨h1, h2, -⟩ := mem_kidsOf hk
      have : Is k.2.1 ["attribute", "anyAttribute"] := by
        rcases of_decide_eq_true hq with h | h
        · exact is_of ((kindD_iff (s := "attribute") (by decide)).1 (h2.symm.trans h)) (by decide)
        · exact is_of ((kindD_iff (s := "anyAttribute") (by decide)).1 (h2.symm.trans h)) (by decide)
      have hm : Member k.2.1 := by
        rcases List.mem_cons.1 this with h | h
        · exact member_tag h (by decide)
        · exact member_tag (List.mem_singleton.1 h) (by decide)
      have hs := is_one.1 (hrow _ (mem_members.2 ⟨h1, hm⟩))
      unfold Is at this; rw [hs] at this; revert this; decide
    rw [this]; rfl
  rw [bind_ok hes, bind_ok hattr]
  exact ⟨_, rfl, fits_simple hn (by decide) (.inl ⟨_, rfl⟩)⟩

theorem isSimple_named {e : RsEntity} (h : IsSimple e) (o : Option Str) (c : Option Str) :
    IsSimple ((setNameIf o e).setComment c) := by
  rcases h with ⟨⟨⟩, rfl⟩ | ⟨⟨⟩, rfl⟩ <;> cases o
  · exact .inl ⟨_, rfl⟩
  · exact .inl ⟨_, rfl⟩
  · exact .inr ⟨_, rfl⟩
  · exact .inr ⟨_, rfl⟩

theorem simpleType_exists (S : Supported root) (K : Known root U n p above) (hn : n.tag = "simpleType".toList) :
    ∃ e, parseSimpleType (placeOf U n p above) = .ok e ∧ Fits p n e := by
  unfold parseSimpleType
  obtain ⟨pt, hpt, hs⟩ := schema_type S K
  rw [bind_ok hpt]
  have hname : decide (pt = .schema) = (attrName (placeOf U n p above).node).isSome := by
    by_cases hp : pt = .schema
    · obtain ⟨v, hv⟩ := S.named p n K.parent (hs.1 hp) K.place (is_of hn (by decide))
      rw [decide_eq_true hp]
      show true = (n.attr "name".toList).isSome
      rw [hv]; rfl
    · have := S.anonymous p n K.parent (fun h => hp (hs.2 h)) K.place (is_one.2 hn)
      rw [decide_eq_false hp]
      show false = (n.attr "name".toList).isSome
      cases ha : n.attr "name".toList with
      | none => rfl
      | some v => exact absurd ⟨v, ha⟩ this
  rw [if_neg (fun h => h hname)]
  obtain ⟨x, hm, hx⟩ := lastMember_exists S K (is_of hn (by decide))
  rw [bind_ok hx, bind_ok (unwrap_ok.2 rfl)]
  have hrow : Is x ["restriction", "list", "union"] := row S (s := "simpleType") (by decide) K.node hn hm
  have : ∃ e, parseNode U x n (p :: above) = .ok e ∧ IsSimple e := by
    by_cases hr : Is x ["restriction"]
    · obtain ⟨e, he, hf⟩ := K.kids x hm (.inr (.inr ⟨hr, is_of hn (by decide)⟩))
      exact ⟨e, he, hf.restriction (is_one.2 hn) hr⟩
    · have hr' : Is x ["list", "union"] := by
        rcases List.mem_cons.1 hrow with h | h
        · exact absurd (is_one.2 h) hr
        · exact h
      obtain ⟨e, he, hf⟩ := K.kids x hm (.inl (is_mono hr' (by decide)))
      exact ⟨e, he, hf.simple (is_mono hr' (by decide))⟩
  obtain ⟨e, he, hi⟩ := this
  dsimp only
  rw [bind_ok he]
  exact ⟨_, rfl, fits_simple hn (by decide) (isSimple_named hi _ _)⟩

/-- **Supported elements are parsed.** -/
theorem parse_exists (S : Supported root) (n p : Node) (above : List Node) (hp : PartOf root p) (hn : n ∈ members p)
    (ha : ∀ a ∈ above, PartOf root a) (h : Parsed p n) : ∃ e, parseNode U n p above = .ok e ∧ Fits p n e := by
  have K : Known root U n p above :=
    { node := .child hp hn, place := hn, parent := hp, ancestors := ha
      kids := fun k hk hpk => by
        have : sizeOf k < sizeOf n := child_size (mem_members.1 hk).1
        refine parse_exists S k n (p :: above) (.child hp hn) hk ?_ hpk
        intro a ha'
        rcases List.mem_cons.1 ha' with rfl | ha'
        · exact hp
        · exact ha a ha' }
  rw [parseNode_eq]
  have hplain : ∀ {s : String} {t : ElementType}, (s, t) ∈ plainTags → n.tag = s.toList → parsePlace U (placeOf U n p above) =
      (Res.ok t).bind fun t => _ := fun {s t} hs ht => by
    unfold parsePlace
    rw [show (placeOf U n p above).type = .ok t from (type_iff hs).2 ht]
  rcases h with h | ⟨h, hpp⟩ | ⟨h, hpp⟩
  · simp only [Is, List.map_cons, List.map_nil, List.mem_cons, List.not_mem_nil, or_false] at h
    rcases h with h | h | h | h | h | h | h | h | h | h | h | h | h | h | h | h
    · rw [hplain (s := "include") (t := .include) (by decide) h]; exact ⟨_, rfl, by fits h⟩
    · rw [hplain (s := "import") (t := .import) (by decide) h]; exact ⟨_, rfl, by fits h⟩
    · rw [hplain (s := "simpleType") (t := .simpleType) (by decide) h]; exact simpleType_exists S K h
    · rw [hplain (s := "complexType") (t := .complexType) (by decide) h]; exact complexType_exists S K h
    · rw [hplain (s := "attributeGroup") (t := .attributeGroup) (by decide) h]; exact attributeGroup_exists S K h
    · rw [hplain (s := "element") (t := .element) (by decide) h]; exact element_exists S K h
    · rw [hplain (s := "attribute") (t := .attribute) (by decide) h]; exact attribute_exists S K h
    · rw [hplain (s := "anyAttribute") (t := .anyAttribute) (by decide) h]; exact ⟨_, rfl, by fits h⟩
    · rw [hplain (s := "any") (t := .any) (by decide) h]; exact ⟨_, rfl, by fits h⟩
    · rw [hplain (s := "list") (t := .list) (by decide) h]; exact list_exists S K h
    · rw [hplain (s := "union") (t := .union) (by decide) h]; exact union_exists S K h
    · rw [hplain (s := "sequence") (t := .sequence) (by decide) h]; exact sequence_exists S K (.inl h)
    · rw [hplain (s := "all") (t := .all) (by decide) h]; exact sequence_exists S K (.inr h)
    · rw [hplain (s := "choice") (t := .choice) (by decide) h]; exact choice_exists S K h
    · rw [hplain (s := "simpleContent") (t := .simpleContent) (by decide) h]; exact content_exists S K (.inl h)
    · rw [hplain (s := "complexContent") (t := .complexContent) (by decide) h]; exact content_exists S K (.inr h)
  · rw [is_one] at h
    have : ∃ x, (placeOf U n p above).type = .ok (.extension x) := by
      rcases List.mem_cons.1 hpp with hp' | hp'
      · exact ⟨_, kind_xsdType (.extension (s := "simpleContent") (e := .simpleContent) h (by decide) (congrArg some hp'))⟩
      · exact ⟨_, kind_xsdType (.extension (s := "complexContent") (e := .complexContent) h (by decide) (congrArg some (List.mem_singleton.1 hp')))⟩
    obtain ⟨x, hx⟩ := this
    unfold parsePlace
    rw [bind_ok hx]
    exact extension_exists S K h hpp
  · rw [is_one] at h
    have : ∃ x, (placeOf U n p above).type = .ok (.restriction x) := by
      rcases List.mem_cons.1 hpp with hp' | hp'
      · exact ⟨_, kind_xsdType (.restriction (s := "simpleType") (r := .simpleType) h (by decide) (congrArg some hp'))⟩
      · exact ⟨_, kind_xsdType (.restriction (s := "complexContent") (r := .complexContent) h (by decide) (congrArg some (List.mem_singleton.1 hp')))⟩
    obtain ⟨x, hx⟩ := this
    unfold parsePlace
    rw [bind_ok hx]
    exact restriction_exists S K h hpp
termination_by sizeOf n

end Verif.Lemmas.Parse
