import Verif.Lemmas.Alike
import Verif.Lemmas.TotalExt
import Verif.Lemmas.ParseSchema
import Verif.Spec.Local

/-! # What the code for a declaration depends on -/

namespace Verif.Lemmas.Local

open Verif Verif.Model Verif.Spec Verif.RoXml Verif.Lemmas Verif.Lemmas.Parse Verif.Lemmas.Alike Verif.Lemmas.Ext

/-! ## Attribute groups of structs -/

/-- The attribute groups of a struct, or the one an alias stands for. -/
def GroupsOk (B : Str → Prop) (n : Node) (e : RsEntity) : Prop :=
  (∀ s, e = .struct s → ∀ a ∈ s.attributeGroups, B a.original) ∧
    (n.tag = "attributeGroup".toList → ∀ a, e = .alias a → B a.original)

section
variable {B : Str → Prop} {c : Place}

abbrev KidsGroups (B : Str → Prop) (c : Place) : Prop := ∀ k ∈ c.kids, Member k.1 → ∀ e, k.2 = .ok e → GroupsOk B k.1 e

def StructGroups (B : Str → Prop) (e : RsEntity) : Prop := ∀ s, e = .struct s → ∀ a ∈ s.attributeGroups, B a.original

theorem structGroups_of {e : RsEntity} (h : ∀ s, e ≠ .struct s) : StructGroups B e := fun s hs => absurd hs (h s)

theorem structGroups_mk {n c fs ag sub} (h : ∀ a ∈ ag, B a.original) : StructGroups B (.struct (.mk n c fs ag sub)) := by
  intro s hs
  obtain rfl := RsEntity.struct.inj hs
  exact h

theorem structGroups_nil {n c fs sub} : StructGroups B (.struct (.mk n c fs [] sub)) :=
  structGroups_mk fun _ h => absurd h List.not_mem_nil

theorem structGroups_setName {nm : Str} {e : RsEntity} (h : StructGroups B e) : StructGroups B (e.setName nm) := by
  cases e with
  | struct s => cases s; exact structGroups_mk (h _ rfl)
  | structField s => cases s; exact structGroups_of (by intro _ h; cases h)
  | tupleStruct s => cases s; exact structGroups_of (by intro _ h; cases h)
  | «enum» s => cases s; exact structGroups_of (by intro _ h; cases h)
  | «alias» s => cases s; exact structGroups_of (by intro _ h; cases h)
  | _ => exact structGroups_of (by intro _ h; cases h)

theorem structGroups_setComment {cm : Option Str} {e : RsEntity} (h : StructGroups B e) : StructGroups B (e.setComment cm) := by
  cases e with
  | struct s => cases s; exact structGroups_mk (h _ rfl)
  | structField s => cases s; exact structGroups_of (by intro _ h; cases h)
  | tupleStruct s => cases s; exact structGroups_of (by intro _ h; cases h)
  | «enum» s => cases s; exact structGroups_of (by intro _ h; cases h)
  | «alias» s => cases s; exact structGroups_of (by intro _ h; cases h)
  | _ => exact structGroups_of (by intro _ h; cases h)

theorem group_tag {ks : List (ElementType × Node × Res RsEntity)} (hks : c.typedKids = .ok ks) {k}
    (hk : k ∈ ks.filter fun k => decide (k.1 = .attributeGroup)) : k.2.1.tag = "attributeGroup".toList := by
  obtain ⟨hk, ht⟩ := List.mem_filter.1 hk
  have ht : k.1 = .attributeGroup := of_decide_eq_true ht
  have := mapM'_forall (Q := fun k => xsdType (some c.node.tag) k.2.1 = .ok k.1) hks (fun a _ b hb => by
    obtain ⟨t, h1, h2⟩ := Res.bind_eq_ok.1 hb
    obtain rfl := Res.ok.inj h2
    exact h1) k hk
  rw [ht] at this
  exact (type_iff (s := "attributeGroup") (by decide)).1 this

theorem aliases_groups (hk : KidsGroups B c) {as} (h : attributeGroupsToAliases c = .ok as) : ∀ a ∈ as, B a.original := by
  obtain ⟨ks, hks, h⟩ := Res.bind_eq_ok.1 h
  refine mapM'_forall h ?_
  intro k hk' f hf
  obtain ⟨e, he, hf⟩ := Res.bind_eq_ok.1 hf
  have := hk _ (filter_member hks membersOnly_group hk').1 (filter_member hks membersOnly_group hk').2 e he
  cases e with
  | «alias» g => obtain rfl := Res.ok.inj hf; exact this.2 (group_tag hks hk') _ rfl
  | _ => cases hf

theorem without_groups (hk : KidsGroups B c) {fs e} (h : derivedWithoutContent c fs = .ok e) : StructGroups B e := by
  obtain ⟨ag, hag, h⟩ := Res.bind_eq_ok.1 h
  obtain rfl := Res.ok.inj h
  exact structGroups_mk (aliases_groups hk hag)

theorem with_groups (hk : KidsGroups B c) {fs x e} (hx : StructGroups B x) (h : derivedWithContent c fs x = .ok e) :
    StructGroups B e := by
  cases x with
  | struct s =>
    obtain ⟨n', cm, fs', ag, sub⟩ := s
    obtain rfl := Res.ok.inj h
    exact structGroups_mk (hx _ rfl)
  | _ => exact without_groups hk h

/-- The attribute groups of structs come from references. -/
theorem parsePlace_groups {U : UnicodeTable} (hk : KidsGroups B c) {e} (h : parsePlace U c = .ok e) : StructGroups B e := by
  rw [parsePlace_branch] at h
  obtain ⟨t, hct, h⟩ := Res.bind_eq_ok.1 h
  have hseq : parseSequence c = .ok e → StructGroups B e := by
    intro h
    obtain ⟨nm, hnm, h⟩ := Res.bind_eq_ok.1 h
    obtain ⟨fs, hfs, h⟩ := Res.bind_eq_ok.1 h
    obtain rfl := Res.ok.inj h
    exact structGroups_nil
  have hcontent : parseContent c = .ok e → StructGroups B e := by
    intro h
    obtain ⟨o, ho, h⟩ := Res.bind_eq_ok.1 h
    obtain ⟨k, hk', h⟩ := Res.bind_eq_ok.1 h
    rw [unwrap_ok.1 hk'] at ho
    exact (hk k (lastKid_member membersOnly_isMember ho).1 (lastKid_member membersOnly_isMember ho).2 e h).1
  have hno : ∀ {e : RsEntity}, (∀ s, e ≠ .struct s) → StructGroups B e := structGroups_of
  cases t with
  | all => exact hseq h
  | sequence => exact hseq h
  | any => obtain rfl := Res.ok.inj h; exact hno (by intro _ h; cases h)
  | anyAttribute => obtain rfl := Res.ok.inj h; exact hno (by intro _ h; cases h)
  | «import» => obtain rfl := Res.ok.inj h; exact hno (by intro _ h; cases h)
  | «include» => obtain rfl := Res.ok.inj h; exact hno (by intro _ h; cases h)
  | complexContent => exact hcontent h
  | simpleContent => exact hcontent h
  | choice =>
    obtain ⟨ks, -, h⟩ := Res.bind_eq_ok.1 h
    obtain ⟨cs, -, h⟩ := Res.bind_eq_ok.1 h
    obtain rfl := Res.ok.inj h
    exact hno (by intro _ h; cases h)
  | «attribute» =>
    obtain ⟨pt, -, h⟩ := Res.bind_eq_ok.1 h
    by_cases hs : pt = .schema
    · rw [if_pos hs] at h
      unfold parseGlobalAttribute at h
      cases hr : attrRef c.node with
      | some r => rw [hr] at h; obtain rfl := Res.ok.inj h; exact hno (by intro _ h; cases h)
      | none =>
        rw [hr] at h
        obtain ⟨nm, -, h⟩ := Res.bind_eq_ok.1 h
        cases ht : attrType c.node with
        | some t => rw [ht] at h; obtain rfl := Res.ok.inj h; exact hno (by intro _ h; cases h)
        | none =>
          rw [ht] at h
          obtain ⟨o, ho, h⟩ := Res.bind_eq_ok.1 h
          cases o with
          | none => obtain rfl := Res.ok.inj h; exact structGroups_nil
          | some k =>
            obtain ⟨x, hx, h⟩ := Res.bind_eq_ok.1 h
            obtain rfl := Res.ok.inj h
            exact structGroups_setName (hk k (lastKid_member membersOnly_simple ho).1 (lastKid_member membersOnly_simple ho).2 x hx).1
    · rw [if_neg hs] at h
      obtain ⟨nm, -, h⟩ := Res.bind_eq_ok.1 h
      obtain ⟨u, -, h⟩ := Res.bind_eq_ok.1 h
      obtain rfl := Res.ok.inj h
      exact hno (by intro _ h; cases h)
  | attributeGroup =>
    obtain ⟨pt, -, h⟩ := Res.bind_eq_ok.1 h
    by_cases hs : pt = .schema
    · rw [if_pos hs] at h
      obtain ⟨nm, hnm, h⟩ := Res.bind_eq_ok.1 h
      obtain ⟨fs, hfs, h⟩ := Res.bind_eq_ok.1 h
      obtain rfl := Res.ok.inj h
      exact structGroups_nil
    · rw [if_neg hs] at h
      obtain ⟨r, hr, h⟩ := Res.bind_eq_ok.1 h
      obtain rfl := Res.ok.inj h
      exact hno (by intro _ h; cases h)
  | complexType =>
    obtain ⟨nm, -, h⟩ := Res.bind_eq_ok.1 h
    obtain ⟨fs, hfs, h⟩ := Res.bind_eq_ok.1 h
    obtain ⟨o, ho, h⟩ := Res.bind_eq_ok.1 h
    cases o with
    | none =>
      obtain ⟨ag, hag, h⟩ := Res.bind_eq_ok.1 h
      obtain rfl := Res.ok.inj h
      exact structGroups_mk (aliases_groups hk hag)
    | some k =>
      dsimp only at h
      split at h
      · obtain ⟨ag, hag, h⟩ := Res.bind_eq_ok.1 h
        obtain rfl := Res.ok.inj h
        exact structGroups_mk (aliases_groups hk hag)
      · obtain ⟨x, hx, h⟩ := Res.bind_eq_ok.1 h
        have := (hk k (lastKid_member membersOnly_complex ho).1 (lastKid_member membersOnly_complex ho).2 x hx).1
        cases x with
        | struct s =>
          obtain ⟨n', cm, fs', ag, sub⟩ := s
          obtain rfl := Res.ok.inj h
          exact structGroups_mk (this _ rfl)
        | «enum» s =>
          obtain ⟨n', cs, cm, t, sub, src⟩ := s
          obtain ⟨ag, hag, h⟩ := Res.bind_eq_ok.1 h
          obtain rfl := Res.ok.inj h
          exact hno (by intro _ h; cases h)
        | _ => obtain rfl := Res.ok.inj h; exact this
  | element =>
    obtain ⟨pt, hpt, h⟩ := Res.bind_eq_ok.1 h
    have hfield : parseFieldOfSequence c = .ok e → StructGroups B e := by
      intro h
      unfold parseFieldOfSequence at h
      dsimp only at h
      split at h
      · obtain rfl := Res.ok.inj h
        exact hno (by intro _ h; cases h)
      · obtain ⟨o, ho, h⟩ := Res.bind_eq_ok.1 h
        obtain ⟨k, hk', h⟩ := Res.bind_eq_ok.1 h
        obtain ⟨x, hx, h⟩ := Res.bind_eq_ok.1 h
        obtain rfl := Res.ok.inj h
        exact hno (by intro _ h; cases h)
    have hdef : Res.ok (elementDefault c.node) = .ok e → StructGroups B e := fun h => by
      obtain rfl := Res.ok.inj h; exact hno (by intro _ h; cases h)
    cases pt with
    | all => exact hfield h
    | sequence => exact hfield h
    | choice =>
      obtain rfl := Res.ok.inj h
      unfold parseCaseOfChoice
      split <;> exact hno (by intro _ h; cases h)
    | schema =>
      obtain ⟨nm, hnm, h⟩ := Res.bind_eq_ok.1 h
      cases ht : attrType c.node with
      | some t => rw [ht] at h; obtain rfl := Res.ok.inj h; exact hno (by intro _ h; cases h)
      | none =>
        rw [ht] at h
        obtain ⟨o, ho, h⟩ := Res.bind_eq_ok.1 h
        cases o with
        | none => obtain rfl := Res.ok.inj h; exact structGroups_nil
        | some k =>
          obtain ⟨x, hx, h⟩ := Res.bind_eq_ok.1 h
          obtain rfl := Res.ok.inj h
          exact structGroups_setName (hk k (lastKid_member membersOnly_content ho).1 (lastKid_member membersOnly_content ho).2 x hx).1
    | _ => exact hdef h
  | «extension» x =>
    obtain ⟨t, -, h⟩ := Res.bind_eq_ok.1 h
    split at h
    · obtain ⟨base, hb, h⟩ := Res.bind_eq_ok.1 h
      obtain ⟨fs, hfs, h⟩ := Res.bind_eq_ok.1 h
      exact without_groups hk h
    · obtain ⟨base, hb, h⟩ := Res.bind_eq_ok.1 h
      obtain ⟨fs, hfs, h⟩ := Res.bind_eq_ok.1 h
      obtain ⟨o, ho, h⟩ := Res.bind_eq_ok.1 h
      cases o with
      | none => exact without_groups hk h
      | some k =>
        obtain ⟨x, hx, h⟩ := Res.bind_eq_ok.1 h
        exact with_groups hk (hk k (lastKid_member membersOnly_extension ho).1
          (lastKid_member membersOnly_extension ho).2 x hx).1 h
    · cases h
  | restriction x =>
    obtain ⟨t, -, h⟩ := Res.bind_eq_ok.1 h
    split at h
    · obtain ⟨base, hb, h⟩ := Res.bind_eq_ok.1 h
      obtain ⟨fs, hfs, h⟩ := Res.bind_eq_ok.1 h
      obtain ⟨sm, hsm, h⟩ := Res.bind_eq_ok.1 h
      split at h
      · obtain ⟨nm, hnm, h⟩ := Res.bind_eq_ok.1 h
        obtain rfl := Res.ok.inj h
        exact hno (by intro _ h; cases h)
      · obtain rfl := Res.ok.inj h
        exact hno (by intro _ h; cases h)
    · cases h
    · obtain ⟨base, hb, h⟩ := Res.bind_eq_ok.1 h
      obtain ⟨fs, hfs, h⟩ := Res.bind_eq_ok.1 h
      obtain ⟨o, ho, h⟩ := Res.bind_eq_ok.1 h
      cases o with
      | none => exact without_groups hk h
      | some k =>
        obtain ⟨x, hx, h⟩ := Res.bind_eq_ok.1 h
        exact with_groups hk (hk k (lastKid_member membersOnly_restriction ho).1
          (lastKid_member membersOnly_restriction ho).2 x hx).1 h
    · cases h
  | list =>
    have hpush : ∀ (t : TupleStruct) s, pushArray t ≠ .struct s := fun t s h => by cases t; cases h
    have h : parseList c = .ok e := h
    unfold parseList at h
    cases ht : c.node.attr "itemType".toList with
    | some t => rw [ht] at h; obtain rfl := Res.ok.inj h; exact hno (hpush _)
    | none =>
      rw [ht] at h
      obtain ⟨k, hk', h⟩ := Res.bind_eq_ok.1 h
      obtain ⟨x, hx, h⟩ := Res.bind_eq_ok.1 h
      obtain ⟨t, ht, h⟩ := Res.bind_eq_ok.1 h
      obtain rfl := Res.ok.inj h
      exact hno (hpush _)
  | union =>
    obtain ⟨ks, hks, h⟩ := Res.bind_eq_ok.1 h
    obtain ⟨subs, hsubs, h⟩ := Res.bind_eq_ok.1 h
    obtain ⟨fs, hfs, h⟩ := Res.bind_eq_ok.1 h
    dsimp only at h
    split at h
    · obtain rfl := Res.ok.inj h
      exact hno (by intro _ h; cases h)
    · obtain ⟨nm, hnm, h⟩ := Res.bind_eq_ok.1 h
      obtain rfl := Res.ok.inj h
      exact structGroups_nil
  | simpleType =>
    obtain ⟨pt, -, h⟩ := Res.bind_eq_ok.1 h
    split at h
    · cases h
    · obtain ⟨o, ho, h⟩ := Res.bind_eq_ok.1 h
      obtain ⟨k, hk', h⟩ := Res.bind_eq_ok.1 h
      rw [unwrap_ok.1 hk'] at ho
      obtain ⟨x, hx, h⟩ := Res.bind_eq_ok.1 h
      obtain rfl := Res.ok.inj h
      refine structGroups_setComment ?_
      have := (hk k (lastKid_member membersOnly_isMember ho).1 (lastKid_member membersOnly_isMember ho).2 x hx).1
      cases hn : attrName c.node with
      | none => exact this
      | some nm => exact structGroups_setName this
  | _ => cases h

end

/-- A reference to an attribute group inside `c`. -/
def GroupIn (c : Node) (t : Str) : Prop := ∃ x, PartOf c x ∧ x.tag = "attributeGroup".toList ∧ x.attr "ref".toList = some t

theorem parse_groups {U : UnicodeTable} {c p : Node} {above : List Node} {e : RsEntity} (h : parseNode U c p above = .ok e) :
    StructGroups (GroupIn c) e := by
  refine (parse_ind (G := PartOf c) (H := fun _ => True) (P := fun n _ e => GroupsOk (GroupIn c) n e) (fun n hn k hk => .child hn hk)
    (fun _ _ => trivial) ?_ c p above e .root trivial (fun _ _ => trivial) h).1
  intro pl _ ha hk x hx
  refine ⟨parsePlace_groups hk hx, fun ht a he => ?_⟩
  subst he
  rw [parsePlace_branch] at hx
  obtain ⟨U', p', above', hpl⟩ := ha.place
  have hty : pl.type = .ok .attributeGroup := by
    unfold Place.type
    exact (type_iff (s := "attributeGroup") (by decide)).2 ht
  rw [bind_ok hty] at hx
  obtain ⟨pt, -, hx⟩ := Res.bind_eq_ok.1 hx
  by_cases hs : pt = .schema
  · rw [if_pos hs] at hx
    obtain ⟨nm, hnm, hx⟩ := Res.bind_eq_ok.1 hx
    obtain ⟨fs, hfs, hx⟩ := Res.bind_eq_ok.1 hx
    cases hx
  · rw [if_neg hs] at hx
    obtain ⟨r, hr, hx⟩ := Res.bind_eq_ok.1 hx
    obtain rfl := RsEntity.alias.inj (Res.ok.inj hx)
    exact ⟨pl.node, ha.node, ht, unwrap_ok.1 hr⟩

/-! ## Markers of structs -/

theorem sources_in {root c : Node}
    (hb : ∀ n a, (n = root ∨ PartOf c n) → a ∈ ["name", "ref"] → n.attr a.toList ≠ some "__base__".toList) :
    Sources (PartOf c) (fun n => n = root ∨ PartOf c n) (markerPreds fun t => ∃ x, PartOf c x ∧ x.attr "base".toList = some t) where
  hered n hn k hk := .child hn hk
  mono n hn := .inr hn
  owner hn hv e := by subst e; exact hb _ "name" hn (by decide) hv
  name hn hv e := by subst e; exact hb _ "name" (.inr hn) (by decide) hv
  ref hn hv e := by subst e; exact hb _ "ref" (.inr hn) (by decide) hv
  type _ _ := trivial
  base _ _ := trivial
  itemType _ _ := trivial
  memberTypes _ _ _ _ := ⟨trivial, trivial⟩
  facet _ _ := trivial
  enumeration _ _ := trivial
  namespace' _ := trivial
  location _ := trivial
  name_type _ := trivial
  name_case _ := trivial
  name_import _ := trivial
  suffix _ := ⟨ne_base_suffix (a := 'e') rfl (by decide), ne_base_suffix (a := 'm') rfl (by decide),
    ne_base_suffix (a := 'e') rfl (by decide)⟩
  constants := by
    intro v hv
    have : ∀ v ∈ ["", "UnsupportedName", "SchemaElement", "UNSUPPORTED_ELEMENT_NAME", "UNSUPPORTED", "any",
      "any_attribute", "String"].map String.toList, v ≠ "__base__".toList := by decide
    exact this v hv
  field hn _ e := absurd e hn
  marker hn hv _ := ⟨_, hn, hv⟩
  rename hn _ e := absurd e hn
  numbered i := ⟨fun h => absurd (congrArg List.head? h) (by
    show some 'E' ≠ _
    decide), trivial⟩

/-- The markers of a struct and of what is in it come from bases. -/
theorem parse_markers {U : UnicodeTable} {root c : Node}
    (hb : ∀ n a, (n = root ∨ PartOf c n) → a ∈ ["name", "ref"] → n.attr a.toList ≠ some "__base__".toList)
    {s : RStruct} (h : parseNode U c root [] = .ok (.struct s)) :
    ∀ t ∈ structBases s, ∃ x, PartOf c x ∧ x.attr "base".toList = some t := by
  have hd := parseNode_texts (sources_in hb) (p := root) (above := []) .root (.inl rfl) (fun a h => absurd h List.not_mem_nil) h
  obtain ⟨n, cm, fs, ag, sub⟩ := s
  intro t ht
  refine deep_entityBases (B := fun t => ∃ x, PartOf c x ∧ x.attr "base".toList = some t) (es := [.struct (.mk n cm fs ag sub)]) (fun e he => ?_) t ?_
  · obtain rfl := List.mem_singleton.1 he
    exact hd
  · rw [entityBases]
    exact List.mem_append_left _ ht

/-! ## Names of structs -/

/-- The struct for a declaration has the name of the declaration. -/
theorem declared_name {root c : Node} {U : UnicodeTable} (hs : root.tag = "schema".toList) (hr : Is c declarationTags) {s : RStruct}
    (h : parseNode U c root [] = .ok (.struct s)) : c.attr "name".toList = some s.name := by
  have hpt : (placeOf U c root []).parentType = .ok .schema := (type_iff (s := "schema") (by decide)).2 hs
  have hname : ∀ {e : RsEntity} {nm : Str}, e.setName nm = .struct s → s.name = nm := fun {e nm} h =>
    deep_name (.struct s) h
  rw [parseNode_eq, parsePlace_branch] at h
  obtain ⟨t, ht, h⟩ := Res.bind_eq_ok.1 h
  have ht : xsdType (some root.tag) c = .ok t := ht
  simp only [Is, declarationTags, List.map_cons, List.map_nil, List.mem_cons, List.not_mem_nil, or_false] at hr
  rcases hr with hr | hr | hr | hr | hr | hr | hr
  · obtain rfl := Res.ok.inj (ht.symm.trans ((type_iff (s := "include") (t := .include) (by decide)).2 hr))
    cases h
  · obtain rfl := Res.ok.inj (ht.symm.trans ((type_iff (s := "import") (t := .import) (by decide)).2 hr))
    cases h
  · obtain rfl := Res.ok.inj (ht.symm.trans ((type_iff (s := "simpleType") (t := .simpleType) (by decide)).2 hr))
    obtain ⟨pt, hpt', h⟩ := Res.bind_eq_ok.1 h
    obtain rfl := Res.ok.inj (hpt'.symm.trans hpt)
    split at h
    · cases h
    · rename_i hn
      obtain ⟨o, ho, h⟩ := Res.bind_eq_ok.1 h
      obtain ⟨k, hk', h⟩ := Res.bind_eq_ok.1 h
      obtain ⟨x, hx, h⟩ := Res.bind_eq_ok.1 h
      cases hnm : attrName (placeOf U c root []).node with
      | none => rw [hnm] at hn; exact absurd (by decide) hn
      | some nm =>
        rw [hnm] at h
        rw [show c.attr "name".toList = some nm from hnm]
        congr 1
        have h : (x.setName nm).setComment _ = .struct s := Res.ok.inj h
        cases hy : x.setName nm with
        | struct y =>
          rw [hy] at h
          have := deep_name (.struct y) hy
          cases y
          obtain rfl := RsEntity.struct.inj h
          exact this.symm
        | structField y => rw [hy] at h; cases y; cases h
        | tupleStruct y => rw [hy] at h; cases y; cases h
        | «enum» y => rw [hy] at h; cases y; cases h
        | «alias» y => rw [hy] at h; cases y; cases h
        | enumCase y => rw [hy] at h; cases h
        | «import» y => rw [hy] at h; cases h
  · obtain rfl := Res.ok.inj (ht.symm.trans ((type_iff (s := "complexType") (t := .complexType) (by decide)).2 hr))
    obtain ⟨nm, hnm, h⟩ := Res.bind_eq_ok.1 h
    obtain ⟨fs, hfs, h⟩ := Res.bind_eq_ok.1 h
    obtain ⟨o, ho, h⟩ := Res.bind_eq_ok.1 h
    unfold complexTypeName at hnm
    rw [bind_ok hpt, if_pos rfl] at hnm
    rw [show c.attr "name".toList = some nm from unwrap_ok.1 hnm]
    congr 1
    cases o with
    | none =>
      obtain ⟨ag, hag, h⟩ := Res.bind_eq_ok.1 h
      cases h; rfl
    | some k =>
      dsimp only at h
      split at h
      · obtain ⟨ag, hag, h⟩ := Res.bind_eq_ok.1 h
        cases h; rfl
      · obtain ⟨x, hx, h⟩ := Res.bind_eq_ok.1 h
        cases x with
        | struct y => obtain ⟨n', cm, fs', ag, sub⟩ := y; cases h; rfl
        | «enum» y =>
          obtain ⟨n', cs, cm, t, sub, src⟩ := y
          obtain ⟨ag, hag, h⟩ := Res.bind_eq_ok.1 h
          cases h
        | _ => cases h
  · obtain rfl := Res.ok.inj (ht.symm.trans ((type_iff (s := "attributeGroup") (t := .attributeGroup) (by decide)).2 hr))
    obtain ⟨pt, hpt', h⟩ := Res.bind_eq_ok.1 h
    obtain rfl := Res.ok.inj (hpt'.symm.trans hpt)
    rw [if_pos rfl] at h
    obtain ⟨nm, hnm, h⟩ := Res.bind_eq_ok.1 h
    obtain ⟨fs, hfs, h⟩ := Res.bind_eq_ok.1 h
    cases h
    exact unwrap_ok.1 hnm
  · obtain rfl := Res.ok.inj (ht.symm.trans ((type_iff (s := "element") (t := .element) (by decide)).2 hr))
    obtain ⟨pt, hpt', h⟩ := Res.bind_eq_ok.1 h
    obtain rfl := Res.ok.inj (hpt'.symm.trans hpt)
    obtain ⟨nm, hnm, h⟩ := Res.bind_eq_ok.1 h
    rw [show c.attr "name".toList = some nm from unwrap_ok.1 hnm]
    congr 1
    cases ht : attrType (placeOf U c root []).node with
    | some t => rw [ht] at h; cases h
    | none =>
      rw [ht] at h
      obtain ⟨o, ho, h⟩ := Res.bind_eq_ok.1 h
      cases o with
      | none => cases h; rfl
      | some k =>
        obtain ⟨x, hx, h⟩ := Res.bind_eq_ok.1 h
        exact (hname (Res.ok.inj h)).symm
  · obtain rfl := Res.ok.inj (ht.symm.trans ((type_iff (s := "attribute") (t := .attribute) (by decide)).2 hr))
    obtain ⟨pt, hpt', h⟩ := Res.bind_eq_ok.1 h
    obtain rfl := Res.ok.inj (hpt'.symm.trans hpt)
    rw [if_pos rfl] at h
    unfold parseGlobalAttribute at h
    cases hrf : attrRef (placeOf U c root []).node with
    | some r => rw [hrf] at h; cases h
    | none =>
      rw [hrf] at h
      obtain ⟨nm, hnm, h⟩ := Res.bind_eq_ok.1 h
      rw [show c.attr "name".toList = some nm from unwrap_ok.1 hnm]
      congr 1
      cases ht : attrType (placeOf U c root []).node with
      | some t => rw [ht] at h; cases h
      | none =>
        rw [ht] at h
        obtain ⟨o, ho, h⟩ := Res.bind_eq_ok.1 h
        cases o with
        | none => cases h; rfl
        | some k =>
          obtain ⟨x, hx, h⟩ := Res.bind_eq_ok.1 h
          exact (hname (Res.ok.inj h)).symm

/-- A declaration with a named type gives no struct. -/
theorem declared_untyped {root c : Node} {U : UnicodeTable} (hs : root.tag = "schema".toList) (hr : Is c ["element", "attribute"])
    {s : RStruct} (h : parseNode U c root [] = .ok (.struct s)) : ¬ Has c "type" := by
  rintro ⟨ty, hty⟩
  have hty : attrType (placeOf U c root []).node = some ty := hty
  have hpt : (placeOf U c root []).parentType = .ok .schema := (type_iff (s := "schema") (by decide)).2 hs
  rw [parseNode_eq, parsePlace_branch] at h
  obtain ⟨t, ht, h⟩ := Res.bind_eq_ok.1 h
  have ht : xsdType (some root.tag) c = .ok t := ht
  simp only [Is, List.map_cons, List.map_nil, List.mem_cons, List.not_mem_nil, or_false] at hr
  rcases hr with hr | hr
  · obtain rfl := Res.ok.inj (ht.symm.trans ((type_iff (s := "element") (t := .element) (by decide)).2 hr))
    obtain ⟨pt, hpt', h⟩ := Res.bind_eq_ok.1 h
    obtain rfl := Res.ok.inj (hpt'.symm.trans hpt)
    obtain ⟨nm, hnm, h⟩ := Res.bind_eq_ok.1 h
    rw [hty] at h
    cases h
  · obtain rfl := Res.ok.inj (ht.symm.trans ((type_iff (s := "attribute") (t := .attribute) (by decide)).2 hr))
    obtain ⟨pt, hpt', h⟩ := Res.bind_eq_ok.1 h
    obtain rfl := Res.ok.inj (hpt'.symm.trans hpt)
    rw [if_pos rfl] at h
    unfold parseGlobalAttribute at h
    cases hrf : attrRef (placeOf U c root []).node with
    | some r => rw [hrf] at h; cases h
    | none =>
      rw [hrf] at h
      obtain ⟨nm, hnm, h⟩ := Res.bind_eq_ok.1 h
      rw [hty] at h
      cases h

theorem declared_provides {root c : Node} {U : UnicodeTable} (hs : root.tag = "schema".toList) (hr : Is c declarationTags)
    {s : RStruct} (h : parseNode U c root [] = .ok (.struct s)) : Provides c s.name :=
  ⟨declared_name hs hr h, fun hx => declared_untyped hs hx.1 h hx.2⟩

/-! ## An entity less -/

/-- The position in the longer list. -/
def shift (p i : Nat) : Nat := if i < p then i else i + 1

theorem shift_lt {p i j : Nat} : shift p i < shift p j ↔ i < j := by
  unfold shift
  split <;> split <;> omega

theorem shift_inj {p i j : Nat} : shift p i = shift p j ↔ i = j := by
  unfold shift
  split <;> split <;> omega

theorem shift_onto {p j : Nat} (h : j ≠ p) : ∃ i, j = shift p i := by
  unfold shift
  rcases Nat.lt_or_gt_of_ne h with h | h
  · exact ⟨j, by rw [if_pos h]⟩
  · exact ⟨j - 1, by rw [if_neg (by omega)]; omega⟩

theorem shift_get {α : Type} (A : List α) (x : α) (B : List α) (i : Nat) :
    (A ++ x :: B)[shift A.length i]? = (A ++ B)[i]? := by
  unfold shift
  split
  · rename_i h
    rw [List.getElem?_append_left h, List.getElem?_append_left h]
  · rename_i h
    rw [List.getElem?_append_right (by omega), List.getElem?_append_right (by omega),
      show i + 1 - A.length = (i - A.length) + 1 by omega, List.getElem?_cons_succ]

/-- The entity is not what the name stands for. -/
def Spares (e : RsEntity) (key : Str) : Prop := ∀ s, e = .struct s → s.name ≠ key

section
variable {A B : List RsEntity} {x : RsEntity}

theorem structAt_shift {i : Nat} {s : RStruct} : StructAt (A ++ x :: B) (shift A.length i) s ↔ StructAt (A ++ B) i s := by
  unfold StructAt
  rw [shift_get]

theorem structAt_gap {s : RStruct} : StructAt (A ++ x :: B) A.length s ↔ x = .struct s := by
  unfold StructAt
  rw [List.getElem?_append_right (Nat.le_refl _), Nat.sub_self]
  exact ⟨Option.some.inj, fun h => by rw [h]; rfl⟩

theorem unknown_shift {key : Str} (hk : Spares x key) : Unknown (A ++ x :: B) key ↔ Unknown (A ++ B) key := by
  constructor
  · intro h k t ht
    exact h _ t (structAt_shift.2 ht)
  · intro h k t ht
    by_cases hp : k = A.length
    · subst hp
      exact hk t (structAt_gap.1 ht)
    · obtain ⟨i, rfl⟩ := shift_onto hp
      exact h i t (structAt_shift.1 ht)

theorem resolves_shift {key : Str} (hk : Spares x key) {i : Nat} :
    Resolves (A ++ x :: B) key (shift A.length i) ↔ Resolves (A ++ B) key i := by
  constructor
  · rintro ⟨⟨s, hs, hn⟩, h⟩
    exact ⟨⟨s, structAt_shift.1 hs, hn⟩, fun k t hk ht => h _ t (shift_lt.2 hk) (structAt_shift.2 ht)⟩
  · rintro ⟨⟨s, hs, hn⟩, h⟩
    refine ⟨⟨s, structAt_shift.2 hs, hn⟩, fun k t hk' ht => ?_⟩
    by_cases hp : k = A.length
    · subst hp
      exact hk t (structAt_gap.1 ht)
    · obtain ⟨j, rfl⟩ := shift_onto hp
      exact h j t (shift_lt.1 hk') (structAt_shift.1 ht)

theorem resolves_onto {key : Str} (hk : Spares x key) {j : Nat} (h : Resolves (A ++ x :: B) key j) :
    ∃ i, j = shift A.length i := by
  refine shift_onto fun hp => ?_
  obtain ⟨⟨s, hs, hn⟩, -⟩ := h
  subst hp
  exact hk s (structAt_gap.1 hs) hn

theorem seen_shift {C D : List RsEntity} {y : RsEntity} (hl : C.length = A.length) {i : Nat} {own : Option (List StructField)}
    {key : Str} {fs : List StructField} (hk : Spares x key) (h : Seen (A ++ x :: B) (C ++ y :: D) (shift A.length i) own key fs) :
    Seen (A ++ B) (C ++ D) i own key fs := by
  cases h with
  | unknown h => exact .unknown ((unknown_shift hk).1 h)
  | self h1 h2 => exact .self ((resolves_shift hk).1 h1) h2
  | earlier h1 h2 h3 =>
    obtain ⟨j, rfl⟩ := resolves_onto hk h1
    rw [← hl] at h3
    exact .earlier ((resolves_shift hk).1 h1) (shift_lt.1 h2) (structAt_shift.1 h3)
  | later h1 h2 h3 =>
    obtain ⟨j, rfl⟩ := resolves_onto hk h1
    exact .later ((resolves_shift hk).1 h1) (shift_lt.1 h2) (structAt_shift.1 h3)

end

/-- Everything asked for under these names is the same. -/
def Covers (R S : Str → List StructField → Prop) (ts : List Str) : Prop :=
  ∀ t ∈ ts, ∀ key, AfterLastColon t key → ∀ l, R key l → S key l

section
variable {R S : Str → List StructField → Prop}

theorem Covers.left {a b : List Str} (h : Covers R S (a ++ b)) : Covers R S a := fun t ht => h t (List.mem_append_left _ ht)
theorem Covers.right {a b : List Str} (h : Covers R S (a ++ b)) : Covers R S b := fun t ht => h t (List.mem_append_right _ ht)

theorem gathered_covers {ts : List Str} (hc : Covers R S ts) {fs : List StructField} (h : Gathered R ts fs) : Gathered S ts fs := by
  obtain ⟨ls, h, rfl⟩ := h
  refine ⟨ls, ?_, rfl⟩
  induction h with
  | nil => exact .nil
  | cons h1 _ ih =>
    obtain ⟨key, hk, hl⟩ := h1
    exact .cons ⟨key, hk, hc _ List.mem_cons_self key hk _ hl⟩ (ih fun t ht => hc t (List.mem_cons_of_mem _ ht))

mutual
theorem flatStruct_covers : ∀ {s s' : RStruct}, Covers R S (structBases s) → FlatStruct R s s' → FlatStruct S s s'
  | _, _, hc, .mk h1 h2 h3 => by
    rw [structBases] at hc
    refine .mk (flatFields_covers hc.left h1) (gathered_covers ?_ h2) (flatEntities_covers hc.right.right h3)
    rw [bases_flat h1]
    exact hc.right.left
theorem flatFields_covers : ∀ {s s' : List StructField}, Covers R S (nestedBases s) → FlatFields R s s' → FlatFields S s s'
  | _, _, _, .nil => .nil
  | _, _, hc, .cons h1 h2 => by
    rw [nestedBases] at hc
    exact .cons (flatEntities_covers hc.left h1) (flatFields_covers hc.right h2)
theorem flatEntities_covers : ∀ {s s' : List RsEntity}, Covers R S (entityBases s) → FlatEntities R s s' → FlatEntities S s s'
  | _, _, _, .nil => .nil
  | .struct (.mk n c fs ag sub) :: _, _, hc, .struct h1 h2 => by
    rw [entityBases] at hc
    exact .struct (flatStruct_covers hc.left h1) (flatEntities_covers hc.right h2)
  | e :: _, _, hc, .other h1 h2 => by
    rw [entityBases] at hc
    · exact .other h1 (flatEntities_covers hc h2)
    · exact fun _ _ _ _ _ h => h1 _ h
end

end

/-- The names which the fields of a struct depend on. -/
def uses (s : RStruct) : List Str := structBases s ++ s.attributeGroups.map RAlias.original

theorem extended_covers {b a b' a' : List RsEntity} {i i' : Nat} {s s' : RStruct}
    (hc : ∀ t ∈ uses s, ∀ key, AfterLastColon t key → ∀ own l, Seen b a i own key l → Seen b' a' i' own key l)
    (h : Extended b a i s s') : Extended b' a' i' s s' := by
  cases h with
  | @mk n c fs ag sub own inh gs sub' h1 h2 h3 h4 =>
    have hc' : ∀ own, Covers (Seen b a i own) (Seen b' a' i' own) (uses (.mk n c fs ag sub)) :=
      fun own t ht key hk l hl => hc t ht key hk own l hl
    unfold uses at hc'
    rw [structBases] at hc'
    refine .mk (flatFields_covers (hc' _).left.left h1) (gathered_covers ?_ h2) (flatEntities_covers (hc' _).left.right.right h3)
      (gathered_covers (hc' _).right h4)
    rw [bases_flat h1]
    exact (hc' _).left.right.left

/-- A name which a struct depends on. -/
def Uses (e : RsEntity) (key : Str) : Prop := ∃ s t, e = .struct s ∧ t ∈ uses s ∧ AfterLastColon t key

theorem length_split {α : Type} {l : List α} {m n : Nat} (h : l.length = m + (n + 1)) :
    ∃ X y Z, l = X ++ y :: Z ∧ X.length = m ∧ Z.length = n := by
  refine ⟨l.take m, l[m]'(by omega), l.drop (m + 1), ?_, by rw [List.length_take]; omega, by rw [List.length_drop]; omega⟩
  rw [List.getElem_cons_drop, List.take_append_drop]

/-- Without a type which no other depends on, the others become the same. -/
theorem extend_type {f : RsFile} {A B : List RsEntity} {x : RsEntity} (ht : f.types = A ++ x :: B)
    (hu : ∀ e ∈ A ++ B, ∀ key, Uses e key → Spares x key) {g : RsFile} (h : extendFile f = .ok g) :
    ∃ C y D, g.types = C ++ y :: D ∧ C.length = A.length ∧ extendFile { f with types := A ++ B } = .ok { g with types := C ++ D } := by
  obtain ⟨hm, hl, hg, h⟩ := extendFile_iff.1 h
  obtain ⟨C, y, D, hgt, hC, hD⟩ := length_split (l := g.types) (m := A.length) (n := B.length) (by
    rw [hl, ht, List.length_append, List.length_cons])
  refine ⟨C, y, D, hgt, hC, extendFile_iff.2 ⟨hm, ?_, hg, ?_⟩⟩
  · show (C ++ D).length = (A ++ B).length
    rw [List.length_append, List.length_append, hC, hD]
  · intro i e he
    have he : (A ++ B)[i]? = some e := he
    obtain ⟨h1, h2⟩ := h (shift A.length i) e (by rw [ht, shift_get, he])
    have hget : g.types[shift A.length i]? = (C ++ D)[i]? := by rw [hgt, ← hC, shift_get]
    rw [hget] at h1 h2
    refine ⟨fun s hs => ?_, h2⟩
    obtain ⟨s', hs', hx⟩ := h1 s hs
    refine ⟨s', hs', extended_covers (fun t ht' key hk own l hl => ?_) hx⟩
    rw [ht, hgt, List.append_assoc, List.append_assoc, List.cons_append, List.cons_append] at hl
    show Seen ((A ++ B) ++ f.attributeGroups) ((C ++ D) ++ g.attributeGroups) i own key l
    rw [List.append_assoc, List.append_assoc]
    exact seen_shift hC (hu e (List.mem_of_getElem? he) key ⟨s, t, hs, ht', hk⟩) hl

/-- Without an attribute group which no type depends on, the types become the same. -/
theorem extend_group {f : RsFile} {A B : List RsEntity} {x : RsEntity} (ht : f.attributeGroups = A ++ x :: B)
    (hu : ∀ e ∈ f.types, ∀ key, Uses e key → Spares x key) {g : RsFile} (h : extendFile f = .ok g) :
    extendFile { f with attributeGroups := A ++ B } = .ok { g with attributeGroups := A ++ B } := by
  obtain ⟨hm, hl, hg, h⟩ := extendFile_iff.1 h
  refine extendFile_iff.2 ⟨hm, hl, rfl, ?_⟩
  intro i e he
  have he : f.types[i]? = some e := he
  obtain ⟨h1, h2⟩ := h i e he
  refine ⟨fun s hs => ?_, h2⟩
  obtain ⟨s', hs', hx⟩ := h1 s hs
  refine ⟨s', hs', extended_covers (fun t ht' key hk own l hl' => ?_) hx⟩
  rw [hg, ht, ← List.append_assoc, ← List.append_assoc] at hl'
  show Seen (f.types ++ (A ++ B)) (g.types ++ (A ++ B)) i own key l
  rw [← List.append_assoc, ← List.append_assoc]
  have hi : i < f.types.length := (List.getElem?_eq_some_iff.1 he).1
  have hi : i = shift (f.types ++ A).length i := by
    unfold shift
    rw [if_pos (by rw [List.length_append]; omega)]
  rw [hi] at hl'
  exact seen_shift (by rw [List.length_append, List.length_append, hl]) (hu e (List.mem_of_getElem? he) key ⟨s, t, hs, ht', hk⟩) hl'

/-! ## Two neighbours exchanged -/

/-- The position before the exchange. -/
def swap (p i : Nat) : Nat := if i = p then p + 1 else if i = p + 1 then p else i

theorem swap_swap (p i : Nat) : swap p (swap p i) = i := by
  unfold swap
  split <;> split <;> (try split) <;> omega

theorem swap_lt {p i j : Nat} (h : i < j) (hn : ¬ (i = p ∧ j = p + 1)) : swap p i < swap p j := by
  unfold swap
  split <;> split <;> (try split) <;> (try split) <;> omega

theorem swap_get {α : Type} (A : List α) (x y : α) (B : List α) (i : Nat) :
    (A ++ x :: y :: B)[swap A.length i]? = (A ++ y :: x :: B)[i]? := by
  unfold swap
  by_cases h1 : i = A.length
  · subst h1
    rw [if_pos rfl, List.getElem?_append_right (by omega), List.getElem?_append_right (by omega),
      show A.length + 1 - A.length = 1 by omega, Nat.sub_self]
    rfl
  · rw [if_neg h1]
    by_cases h2 : i = A.length + 1
    · subst h2
      rw [if_pos rfl, List.getElem?_append_right (by omega), List.getElem?_append_right (by omega),
        show A.length + 1 - A.length = 1 by omega, Nat.sub_self]
      rfl
    · rw [if_neg h2]
      by_cases h3 : i < A.length
      · rw [List.getElem?_append_left h3, List.getElem?_append_left h3]
      · rw [List.getElem?_append_right (by omega), List.getElem?_append_right (by omega),
          show i - A.length = (i - A.length - 2) + 1 + 1 by omega]
        rfl

section
variable {A B : List RsEntity} {x y : RsEntity}

theorem structAt_swap {i : Nat} {s : RStruct} :
    StructAt (A ++ x :: y :: B) (swap A.length i) s ↔ StructAt (A ++ y :: x :: B) i s := by
  unfold StructAt
  rw [swap_get]

theorem unknown_swap {key : Str} (h : Unknown (A ++ x :: y :: B) key) : Unknown (A ++ y :: x :: B) key :=
  fun _ t ht => h _ t (structAt_swap.2 ht)

theorem structAt_first {s : RStruct} : StructAt (A ++ x :: y :: B) A.length s ↔ x = .struct s := structAt_gap

theorem structAt_second {s : RStruct} : StructAt (A ++ x :: y :: B) (A.length + 1) s ↔ y = .struct s := by
  unfold StructAt
  rw [List.getElem?_append_right (by omega), show A.length + 1 - A.length = 1 by omega]
  exact ⟨Option.some.inj, fun h => by rw [h]; rfl⟩

theorem resolves_swap {key : Str} (hk : Spares x key ∨ Spares y key) {i : Nat}
    (h : Resolves (A ++ x :: y :: B) key (swap A.length i)) : Resolves (A ++ y :: x :: B) key i := by
  obtain ⟨⟨s, hs, hn⟩, h⟩ := h
  refine ⟨⟨s, structAt_swap.1 hs, hn⟩, fun k t hik ht htn => ?_⟩
  by_cases hp : i = A.length ∧ k = A.length + 1
  · obtain ⟨rfl, rfl⟩ := hp
    rcases hk with hk | hk
    · exact hk t (structAt_second.1 ht) htn
    · exact hk s (structAt_first.1 (structAt_swap.1 hs)) hn
  · exact h _ t (swap_lt hik hp) (structAt_swap.2 ht) htn

theorem seen_swap {C D : List RsEntity} {x' y' : RsEntity} (hl : C.length = A.length) {i : Nat}
    {own : Option (List StructField)} {key : Str} {fs : List StructField} (hk : Spares x key ∨ Spares y key)
    (h1 : i = A.length → Spares x key) (h2 : i = A.length + 1 → Spares y key)
    (h : Seen (A ++ x :: y :: B) (C ++ x' :: y' :: D) (swap A.length i) own key fs) :
    Seen (A ++ y :: x :: B) (C ++ y' :: x' :: D) i own key fs := by
  have hpos : ∀ {j}, Resolves (A ++ x :: y :: B) key j → ∃ k, j = swap A.length k ∧ Resolves (A ++ y :: x :: B) key k ∧
      (j < swap A.length i → k < i) ∧ (swap A.length i < j → i < k) := by
    intro j hj
    have hj' : Resolves (A ++ x :: y :: B) key (swap A.length (swap A.length j)) := by rw [swap_swap]; exact hj
    have hr := resolves_swap hk hj'
    refine ⟨_, (swap_swap _ _).symm, hr, fun hlt => ?_, fun hlt => ?_⟩
    · have := swap_lt (p := A.length) hlt (by
        rintro ⟨rfl, hi⟩
        have hi : i = A.length := by
          have := congrArg (swap A.length) hi
          rw [swap_swap] at this
          rw [this]; unfold swap; rw [if_neg (by omega), if_pos rfl]
        obtain ⟨⟨s, hs, hn⟩, -⟩ := hj
        exact h1 hi s (structAt_first.1 hs) hn)
      rwa [swap_swap] at this
    · have := swap_lt (p := A.length) hlt (by
        rintro ⟨hi, rfl⟩
        have hi : i = A.length + 1 := by
          have := congrArg (swap A.length) hi
          rw [swap_swap] at this
          rw [this]; unfold swap; rw [if_pos rfl]
        obtain ⟨⟨s, hs, hn⟩, -⟩ := hj
        exact h2 hi s (structAt_second.1 hs) hn)
      rwa [swap_swap] at this
  cases h with
  | unknown h => exact .unknown (unknown_swap h)
  | self h1 h2 => exact .self (resolves_swap hk h1) h2
  | earlier h1 h2 h3 =>
    obtain ⟨k, rfl, hr, hlt, -⟩ := hpos h1
    rw [← hl] at h3
    exact .earlier hr (hlt h2) (structAt_swap.1 h3)
  | later h1 h2 h3 =>
    obtain ⟨k, rfl, hr, -, hlt⟩ := hpos h1
    exact .later hr (hlt h2) (structAt_swap.1 h3)

end

theorem swap_small {p i : Nat} (h : i < p) : swap p i = i := by
  unfold swap
  rw [if_neg (by omega), if_neg (by omega)]

/-- Neither entity is a struct which the other depends on, and their names are different. -/
structure Apart (x y : RsEntity) : Prop where
  names : ∀ key, Spares x key ∨ Spares y key
  first : ∀ key, Uses x key → Spares y key
  second : ∀ key, Uses y key → Spares x key

/-- With two types exchanged, all become the same. -/
theorem extend_types {f : RsFile} {A B : List RsEntity} {x y : RsEntity} (ht : f.types = A ++ x :: y :: B) (ha : Apart x y)
    {g : RsFile} (h : extendFile f = .ok g) : ∃ C x' y' D, g.types = C ++ x' :: y' :: D ∧
      extendFile { f with types := A ++ y :: x :: B } = .ok { g with types := C ++ y' :: x' :: D } := by
  obtain ⟨hm, hl, hg, h⟩ := extendFile_iff.1 h
  obtain ⟨C, x', D', hgt, hC, hD⟩ := length_split (l := g.types) (m := A.length) (n := B.length + 1) (by
    rw [hl, ht, List.length_append, List.length_cons, List.length_cons])
  cases D' with
  | nil => exact absurd hD (Nat.succ_ne_zero _).symm
  | cons y' D =>
  refine ⟨C, x', y', D, hgt, extendFile_iff.2 ⟨hm, ?_, hg, ?_⟩⟩
  · show (C ++ y' :: x' :: D).length = (A ++ y :: x :: B).length
    simp only [List.length_append, List.length_cons] at hD ⊢
    omega
  · intro i e he
    have he : (A ++ y :: x :: B)[i]? = some e := he
    obtain ⟨h1, h2⟩ := h (swap A.length i) e (by rw [ht, swap_get, he])
    have hget : g.types[swap A.length i]? = (C ++ y' :: x' :: D)[i]? := by rw [hgt, ← hC, swap_get]
    rw [hget] at h1 h2
    refine ⟨fun s hs => ?_, h2⟩
    obtain ⟨s', hs', hx⟩ := h1 s hs
    refine ⟨s', hs', extended_covers (fun t ht' key hk own l hl => ?_) hx⟩
    have hu : Uses e key := ⟨s, t, hs, ht', hk⟩
    rw [ht, hgt, List.append_assoc, List.append_assoc] at hl
    show Seen ((A ++ y :: x :: B) ++ f.attributeGroups) ((C ++ y' :: x' :: D) ++ g.attributeGroups) i own key l
    rw [List.append_assoc, List.append_assoc]
    refine seen_swap hC (ha.names key) (fun hi => ?_) (fun hi => ?_) hl
    · subst hi
      rw [List.getElem?_append_right (Nat.le_refl _), Nat.sub_self] at he
      obtain rfl : y = e := Option.some.inj he
      exact ha.second key hu
    · subst hi
      rw [List.getElem?_append_right (by omega), show A.length + 1 - A.length = 1 by omega] at he
      obtain rfl : x = e := Option.some.inj he
      exact ha.first key hu

/-- With two attribute groups exchanged, the types become the same. -/
theorem extend_groups {f : RsFile} {A B : List RsEntity} {x y : RsEntity} (ht : f.attributeGroups = A ++ x :: y :: B)
    (ha : ∀ key, Spares x key ∨ Spares y key) {g : RsFile} (h : extendFile f = .ok g) :
    extendFile { f with attributeGroups := A ++ y :: x :: B } = .ok { g with attributeGroups := A ++ y :: x :: B } := by
  obtain ⟨hm, hl, hg, h⟩ := extendFile_iff.1 h
  refine extendFile_iff.2 ⟨hm, hl, rfl, ?_⟩
  intro i e he
  have he : f.types[i]? = some e := he
  obtain ⟨h1, h2⟩ := h i e he
  refine ⟨fun s hs => ?_, h2⟩
  obtain ⟨s', hs', hx⟩ := h1 s hs
  refine ⟨s', hs', extended_covers (fun t ht' key hk own l hl' => ?_) hx⟩
  rw [hg, ht, ← List.append_assoc, ← List.append_assoc] at hl'
  show Seen (f.types ++ (A ++ y :: x :: B)) (g.types ++ (A ++ y :: x :: B)) i own key l
  rw [← List.append_assoc, ← List.append_assoc]
  have hi : i < f.types.length := (List.getElem?_eq_some_iff.1 he).1
  have hi : i < (f.types ++ A).length := by rw [List.length_append]; omega
  rw [← swap_small hi] at hl'
  exact seen_swap (by rw [List.length_append, List.length_append, hl]) (ha key) (fun h => absurd h (by omega))
    (fun h => absurd h (by omega)) hl'

/-! ## A declaration less -/

/-- The code, declaration by declaration. -/
def pieces (U : UnicodeTable) (n : Node) : Res (List Str) :=
  (parseFile U n).bind fun f => genList ⟨U, f.targetNs, f.xsdNs⟩ f.types

theorem convert_pieces {U : UnicodeTable} {n : Node} {t : Str} :
    convertXsd U n = .ok t ↔ ∃ ts, pieces U n = .ok ts ∧ t = ts.flatten := by
  unfold convertXsd pieces generateRsFile
  cases parseFile U n with
  | ok f =>
    rw [Res.ok_bind, Res.ok_bind]
    constructor
    · intro h
      obtain ⟨ts, h1, h2⟩ := Res.bind_eq_ok.1 h
      exact ⟨ts, h1, (Res.ok.inj h2).symm⟩
    · rintro ⟨ts, h1, rfl⟩
      exact Res.bind_eq_ok.2 ⟨ts, h1, rfl⟩
  | err => exact ⟨fun h => (nomatch h), fun ⟨_, h, _⟩ => (nomatch h)⟩
  | panic => exact ⟨fun h => (nomatch h), fun ⟨_, h, _⟩ => (nomatch h)⟩

/-- `b` is `a` without its child `d` after `cs`. -/
inductive WithoutAt (cs : List Node) (d : Node) : Node → Node → Prop where
  | mk {u as ns ds} :
      WithoutAt cs d (.element u "schema".toList as ns (cs ++ d :: ds)) (.element u "schema".toList as ns (cs ++ ds))

theorem without_at {d a b : Node} (h : Without d a b) : ∃ cs, WithoutAt cs d a b := by
  cases h with
  | @mk u as ns cs ds => exact ⟨cs, .mk⟩

theorem declaration_tag {d : Node} (hd : Is d declarationTags) : d.isElement = true ∧ d.tag ≠ "annotation".toList := by
  cases d with
  | element u t as ns cs =>
    refine ⟨rfl, fun h => ?_⟩
    have hd : t ∈ declarationTags.map String.toList := hd
    rw [show t = _ from h] at hd
    revert hd
    decide
  | text _ => exact absurd (show ([] : Str) ∈ declarationTags.map String.toList from hd) (by decide)
  | other => exact absurd (show ([] : Str) ∈ declarationTags.map String.toList from hd) (by decide)

theorem without_agree {d a b : Node} {cs : List Node} (hd : Is d declarationTags) (h : WithoutAt cs d a b) : Agree a b := by
  cases h with
  | @mk u as ns ds =>
    refine ⟨rfl, fun _ _ => rfl, ?_⟩
    unfold docOf
    congr 1
    show List.find? _ (cs ++ d :: ds) = List.find? _ (cs ++ ds)
    rw [List.find?_append, List.find?_append,
      List.find?_cons_of_neg (a := d) (p := fun c => decide (c.tag = "annotation".toList)) fun h =>
        (declaration_tag hd).2 (of_decide_eq_true h)]

theorem forall₂_split {α β : Type} {R : α → β → Prop} : ∀ {l1 l2 : List α} {m : List β}, List.Forall₂ R (l1 ++ l2) m →
    ∃ m1 m2, m = m1 ++ m2 ∧ List.Forall₂ R l1 m1 ∧ List.Forall₂ R l2 m2
  | [], _, m, h => ⟨[], m, rfl, .nil, h⟩
  | _ :: _, _, _, .cons h1 h2 => by
    obtain ⟨m1, m2, rfl, h3, h4⟩ := forall₂_split h2
    exact ⟨_ :: m1, m2, rfl, .cons h1 h3, h4⟩

theorem genList_length {g : GenCtx} : ∀ {es : List RsEntity} {ts : List Str}, genList g es = .ok ts → ts.length = es.length
  | [], _, h => by obtain rfl := Res.ok.inj h; rfl
  | _ :: _, _, h => by
    rw [genList] at h
    obtain ⟨t, -, h⟩ := Res.bind_eq_ok.1 h
    obtain ⟨ts', h2, h⟩ := Res.bind_eq_ok.1 h
    obtain rfl := Res.ok.inj h
    rw [List.length_cons, List.length_cons, genList_length h2]

theorem genList_split {g : GenCtx} : ∀ {A B : List RsEntity} {ts : List Str}, genList g (A ++ B) = .ok ts ↔
    ∃ t1 t2, ts = t1 ++ t2 ∧ genList g A = .ok t1 ∧ genList g B = .ok t2
  | [], B, ts => by
    constructor
    · intro h; exact ⟨[], ts, rfl, rfl, h⟩
    · rintro ⟨t1, t2, rfl, h1, h2⟩
      obtain rfl := Res.ok.inj h1
      exact h2
  | e :: A, B, ts => by
    rw [List.cons_append, genList]
    constructor
    · intro h
      obtain ⟨t, h1, h⟩ := Res.bind_eq_ok.1 h
      obtain ⟨ts', h2, h⟩ := Res.bind_eq_ok.1 h
      obtain rfl := Res.ok.inj h
      obtain ⟨t1, t2, rfl, h3, h4⟩ := genList_split.1 h2
      exact ⟨t :: t1, t2, rfl, by rw [genList, h1, Res.ok_bind, h3]; rfl, h4⟩
    · rintro ⟨t1, t2, rfl, h1, h2⟩
      rw [genList] at h1
      obtain ⟨t, h3, h1⟩ := Res.bind_eq_ok.1 h1
      obtain ⟨ts', h4, h1⟩ := Res.bind_eq_ok.1 h1
      obtain rfl := Res.ok.inj h1
      rw [h3, Res.ok_bind, genList_split.2 ⟨ts', t2, rfl, h4, h2⟩]
      rfl

theorem forall₂_imp_mem {α β : Type} {R S : α → β → Prop} {l : List α} {m : List β} (h : List.Forall₂ R l m)
    (hi : ∀ a ∈ l, ∀ b, R a b → S a b) : List.Forall₂ S l m := by
  induction h with
  | nil => exact .nil
  | cons h _ ih => exact .cons (hi _ List.mem_cons_self _ h) (ih fun a ha => hi a (List.mem_cons_of_mem _ ha))

theorem group_any {c : Node} : (["attributeGroup"].any fun t => decide (c.tag = t.toList)) = true ↔ c.tag = "attributeGroup".toList := by
  rw [List.any_cons, List.any_nil, Bool.or_false, decide_eq_true_iff]

theorem tagged_member {n c : Node} (h : c ∈ withTags n ["attributeGroup"]) : Member c := by
  obtain ⟨-, h⟩ := List.mem_filter.1 h
  have h := group_any.1 h
  exact declaration_tag (by unfold Is; rw [h]; decide)

/-- What the struct for a member depends on, the member does. -/
theorem uses_depends {U : UnicodeTable} {root c : Node}
    (hb : ∀ n a, (n = root ∨ PartOf c n) → a ∈ ["name", "ref"] → n.attr a.toList ≠ some "__base__".toList)
    {e : RsEntity} (h : parseNode U c root [] = .ok e) {key : Str} (hu : Uses e key) : DependsOn c key := by
  obtain ⟨s, t, rfl, ht, hk⟩ := hu
  rcases List.mem_append.1 ht with ht | ht
  · obtain ⟨n, hn, hv⟩ := parse_markers hb h t ht
    exact ⟨n, t, hn, .inl hv, hk⟩
  · obtain ⟨a, ha, rfl⟩ := List.mem_map.1 ht
    obtain ⟨n, hn, hg, hv⟩ := parse_groups h s rfl a ha
    exact ⟨n, _, hn, .inr ⟨hg, hv⟩, hk⟩

/-- The declaration gives one piece of the code; without it the other pieces are the same. -/
theorem pieces_without {U : UnicodeTable} {d a b : Node} {cs : List Node} (hd : Is d declarationTags) (h : WithoutAt cs d a b)
    (hb : ∀ n at', PartOf b n → at' ∈ ["name", "ref"] → n.attr at'.toList ≠ some "__base__".toList)
    (hm : ∀ nm, Provides d nm → ∀ c ∈ members b, ¬ DependsOn c nm) {ts : List Str} (hc : pieces U a = .ok ts) :
    (d.tag = "attributeGroup".toList ∧ pieces U b = .ok ts) ∨ (d.tag ≠ "attributeGroup".toList ∧
      ∃ xs y zs, ts = xs ++ y :: zs ∧ pieces U b = .ok (xs ++ zs) ∧ xs.length = (globals (.element none [] [] [] cs)).length) := by
  have hag := without_agree hd h
  have hs : a.tag = "schema".toList := by cases h; rfl
  obtain ⟨g, hp, hg⟩ := Res.bind_eq_ok.1 hc
  obtain ⟨f, hf, he⟩ := Res.bind_eq_ok.1 hp
  obtain ⟨hr, types, groups, h1, h2, rfl⟩ := schema_iff.1 hf
  have hel : ∀ c, Member c → parseNode U c a [] = parseNode U c b [] := fun c hc =>
    node_congr U (alike_refl hc.1) a b [] [] hag (.cons hag .nil)
  have hns : a.namespaces = b.namespaces := by cases h; rfl
  have e1 : targetNamespace b = targetNamespace a := by
    unfold targetNamespace; rw [hag.attr "targetNamespace" (by decide), hns]
  have e2 : xsdNamespace b = xsdNamespace a := by unfold xsdNamespace; rw [hns]
  have hrb : Readable b := by
    intro c hc
    rw [← hag.tag]
    refine hr c ?_
    cases h with
    | mk =>
      have hc : c ∈ _ ++ _ := hc
      show c ∈ _ ++ _
      rcases List.mem_append.1 hc with hc | hc
      · exact List.mem_append_left _ hc
      · exact List.mem_append_right _ (List.mem_cons_of_mem _ hc)
  have hmem : ∀ c, c ∈ members b → ∀ n at', (n = a ∨ PartOf c n) → at' ∈ ["name", "ref"] →
      n.attr at'.toList ≠ some "__base__".toList := by
    intro c hc n at' hn ha
    rcases hn with rfl | hn
    · rw [hag.attr at' (by
        have : ∀ x ∈ ["name", "ref"], x ∈ meaningfulAttrs := by decide
        exact this at' ha)]
      exact hb b at' .root ha
    · exact hb n at' (PartOf.trans (.child .root hc) hn) ha
  have hspare : ∀ c ∈ members b, ∀ e, parseNode U c a [] = .ok e → ∀ x, parseNode U d a [] = .ok x → ∀ key, Uses e key →
      Spares x key := by
    intro c hc e he x hx key hu s hs' hk
    subst hs'
    exact hm _ (hk ▸ declared_provides hs hd hx) c hc (uses_depends (hmem c hc) he hu)
  have hdel := declaration_tag hd
  -- the global declarations and the attribute groups
  by_cases hdg : d.tag = "attributeGroup".toList
  · have hgl : globals a = globals b := by
      cases h with
      | @mk u as ns ds =>
        unfold globals members
        show List.filter _ (List.filter _ (cs ++ d :: ds)) = List.filter _ (List.filter _ (cs ++ ds))
        rw [List.filter_filter, List.filter_filter, List.filter_append, List.filter_append]
        congr 1
        refine List.filter_cons_of_neg ?_
        rw [decide_eq_false (not_not_intro hdg), Bool.false_and]
        exact Bool.false_ne_true
    obtain ⟨A, B, hga, hgb⟩ : ∃ A B, withTags a ["attributeGroup"] = A ++ d :: B ∧ withTags b ["attributeGroup"] = A ++ B := by
      cases h with
      | @mk u as ns ds =>
        refine ⟨withTags (.element u [] [] [] cs) ["attributeGroup"], withTags (.element u [] [] [] ds) ["attributeGroup"], ?_, ?_⟩
        · unfold withTags
          show List.filter _ (cs ++ d :: ds) = List.filter _ cs ++ d :: List.filter _ ds
          rw [List.filter_append]
          congr 1
          exact List.filter_cons_of_pos (group_any.2 hdg)
        · unfold withTags
          exact List.filter_append ..
    rw [hga] at h2
    obtain ⟨G1, G', rfl, k1, k2⟩ := forall₂_split h2
    cases k2 with
    | @cons _ x _ G2 kd k2 =>
    have hx := extend_group (f := ⟨[], none, types, G1 ++ x :: G2, targetNamespace a, xsdNamespace a⟩) rfl (by
      intro e he key hu
      obtain ⟨c, hc, hpc⟩ := forall₂_left h1 e he
      rw [hgl] at hc
      exact hspare c (List.mem_of_mem_filter hc) e hpc x kd key hu) he
    refine .inl ⟨hdg, ?_⟩
    have hfb : parseSchema U b [] = .ok ⟨[], none, types, G1 ++ G2, targetNamespace a, xsdNamespace a⟩ := by
      refine schema_iff.2 ⟨hrb, types, G1 ++ G2, ?_, ?_, by rw [e1, e2]⟩
      · rw [← hgl]
        refine forall₂_imp_mem h1 fun c hc e he => ?_
        rw [← hel c (mem_members.1 (List.mem_of_mem_filter hc)).2]
        exact he
      · rw [hgb]
        refine forall₂_imp_mem (forall₂_join k1 k2) fun c hc e he => ?_
        rw [← hel c ?_]
        · exact he
        · rw [← hgb] at hc
          exact tagged_member hc
    unfold pieces parseFile
    rw [hfb, Res.ok_bind, hx, Res.ok_bind]
    exact hg
  · have hgl : withTags a ["attributeGroup"] = withTags b ["attributeGroup"] := by
      cases h with
      | @mk u as ns ds =>
        unfold withTags
        show List.filter _ (cs ++ d :: ds) = List.filter _ (cs ++ ds)
        rw [List.filter_append, List.filter_append]
        congr 1
        refine List.filter_cons_of_neg ?_
        exact fun hx => hdg (group_any.1 hx)
    obtain ⟨A, B, hga, hgb, hAl⟩ : ∃ A B, globals a = A ++ d :: B ∧ globals b = A ++ B ∧
        A.length = (globals (.element none [] [] [] cs)).length := by
      cases h with
      | @mk u as ns ds =>
        refine ⟨globals (.element u [] [] [] cs), globals (.element u [] [] [] ds), ?_, ?_, rfl⟩
        · unfold globals members
          show List.filter _ (List.filter _ (cs ++ d :: ds)) = List.filter _ (List.filter _ cs) ++ d :: List.filter _ (List.filter _ ds)
          rw [List.filter_append, List.filter_append]
          congr 1
          rw [List.filter_cons_of_pos (by rw [hdel.1, decide_eq_true hdel.2]; rfl), List.filter_cons_of_pos (p := fun c : Node => decide (c.tag ≠ "attributeGroup".toList)) (decide_eq_true hdg)]
        · unfold globals members
          show List.filter _ (List.filter _ (cs ++ ds)) = _
          rw [List.filter_append, List.filter_append]
          rfl
    rw [hga] at h1
    obtain ⟨T1, T', rfl, k1, k2⟩ := forall₂_split h1
    cases k2 with
    | @cons _ x _ T2 kd k2 =>
    obtain ⟨C, y, D, hty, hC, hx⟩ := extend_type (f := ⟨[], none, T1 ++ x :: T2, groups, targetNamespace a, xsdNamespace a⟩) rfl (by
      intro e he key hu
      obtain ⟨c, hc, hpc⟩ := forall₂_left (forall₂_join k1 k2) e he
      rw [← hgb] at hc
      exact hspare c (List.mem_of_mem_filter hc) e hpc x kd key hu) he
    have hfb : parseSchema U b [] = .ok ⟨[], none, T1 ++ T2, groups, targetNamespace a, xsdNamespace a⟩ := by
      refine schema_iff.2 ⟨hrb, T1 ++ T2, groups, ?_, ?_, by rw [e1, e2]⟩
      · rw [hgb]
        refine forall₂_imp_mem (forall₂_join k1 k2) fun c hc e he => ?_
        rw [← hgb] at hc
        rw [← hel c (mem_members.1 (List.mem_of_mem_filter hc)).2]
        exact he
      · rw [← hgl]
        refine forall₂_imp_mem h2 fun c hc e he => ?_
        rw [← hel c (tagged_member hc)]
        exact he
    have hts : genList ⟨U, g.targetNs, g.xsdNs⟩ g.types = .ok ts := hg
    rw [hty] at hts
    obtain ⟨t1, t', rfl, j1, j2⟩ := genList_split.1 hts
    rw [genList] at j2
    obtain ⟨u, j3, j2⟩ := Res.bind_eq_ok.1 j2
    obtain ⟨t2, j4, j2⟩ := Res.bind_eq_ok.1 j2
    obtain rfl := Res.ok.inj j2
    refine .inr ⟨hdg, t1, u, t2, rfl, ?_, ?_⟩
    · unfold pieces parseFile
      rw [hfb, Res.ok_bind, hx, Res.ok_bind]
      exact genList_split.2 ⟨t1, t2, rfl, j1, j4⟩
    · rw [genList_length j1, hC, ← k1.length_eq, hAl]

/-! ## Two declarations exchanged -/

theorem exchanged_agree {c d a b : Node} (hc : Is c declarationTags) (hd : Is d declarationTags) (h : Exchanged c d a b) :
    Agree a b := by
  cases h with
  | @mk u as ns cs ds =>
    refine ⟨rfl, fun _ _ => rfl, ?_⟩
    unfold docOf
    congr 1
    show List.find? _ (cs ++ c :: d :: ds) = List.find? _ (cs ++ d :: c :: ds)
    have h1 : ∀ (l : List Node) (x : Node), Is x declarationTags → List.find? (fun c => decide (c.tag = "annotation".toList)) (x :: l) =
        List.find? (fun c => decide (c.tag = "annotation".toList)) l := fun l x hx =>
      List.find?_cons_of_neg (a := x) (p := fun c => decide (c.tag = "annotation".toList)) fun h =>
        (declaration_tag hx).2 (of_decide_eq_true h)
    rw [List.find?_append, List.find?_append, h1 _ c hc, h1 _ d hd, h1 _ d hd, h1 _ c hc]

theorem filter_one {α : Type} {p : α → Bool} (x : α) (l : List α) :
    (p x = true ∧ (x :: l).filter p = x :: l.filter p) ∨ (p x = false ∧ (x :: l).filter p = l.filter p) := by
  cases h : p x with
  | true => exact .inl ⟨rfl, List.filter_cons_of_pos h⟩
  | false => exact .inr ⟨rfl, List.filter_cons_of_neg (by rw [h]; exact Bool.false_ne_true)⟩

theorem pieces_exchanged {U : UnicodeTable} {c d a b : Node} (hc : Is c declarationTags) (hd : Is d declarationTags)
    (hi : Independent c d) (h : Exchanged c d a b)
    (hb : ∀ n at', PartOf a n → at' ∈ ["name", "ref"] → n.attr at'.toList ≠ some "__base__".toList)
    {ts : List Str} (ht : pieces U a = .ok ts) :
    (∃ xs u v zs, ts = xs ++ u :: v :: zs ∧ pieces U b = .ok (xs ++ v :: u :: zs) ∧ c.tag ≠ "attributeGroup".toList ∧
      d.tag ≠ "attributeGroup".toList) ∨ (pieces U b = .ok ts ∧ (c.tag = "attributeGroup".toList ∨ d.tag = "attributeGroup".toList)) := by
  have hag := exchanged_agree hc hd h
  have hs : a.tag = "schema".toList := by cases h; rfl
  obtain ⟨g, hp, hg⟩ := Res.bind_eq_ok.1 ht
  obtain ⟨f, hf, he⟩ := Res.bind_eq_ok.1 hp
  obtain ⟨hr, types, groups, h1, h2, rfl⟩ := schema_iff.1 hf
  have hel : ∀ c, Member c → parseNode U c a [] = parseNode U c b [] := fun c hc =>
    node_congr U (alike_refl hc.1) a b [] [] hag (.cons hag .nil)
  have hns : a.namespaces = b.namespaces := by cases h; rfl
  have e1 : targetNamespace b = targetNamespace a := by
    unfold targetNamespace; rw [hag.attr "targetNamespace" (by decide), hns]
  have e2 : xsdNamespace b = xsdNamespace a := by unfold xsdNamespace; rw [hns]
  have hperm : ∀ k, k ∈ b.children → k ∈ a.children := by
    intro k hk
    cases h with
    | @mk u as ns cs ds =>
      have hk : k ∈ cs ++ d :: c :: ds := hk
      show k ∈ cs ++ c :: d :: ds
      simp only [List.mem_append, List.mem_cons] at hk ⊢
      tauto
  have hcd : c ∈ members a ∧ d ∈ members a := by
    cases h with
    | @mk u as ns cs ds =>
      exact ⟨mem_members.2 ⟨by show c ∈ cs ++ c :: d :: ds; simp, declaration_tag hc⟩,
        mem_members.2 ⟨by show d ∈ cs ++ c :: d :: ds; simp, declaration_tag hd⟩⟩
  have hrb : Readable b := fun k hk => by
    rw [← hag.tag]
    exact hr k (hperm k hk)
  have hmem : ∀ k, k ∈ members a → ∀ n at', (n = a ∨ PartOf k n) → at' ∈ ["name", "ref"] →
      n.attr at'.toList ≠ some "__base__".toList := by
    rintro k hk n at' (rfl | hn) ha
    · exact hb n at' .root ha
    · exact hb n at' (PartOf.trans (.child .root hk) hn) ha
  have hapart : ∀ x y, parseNode U c a [] = .ok x → parseNode U d a [] = .ok y → Apart x y := by
    intro x y hx hy
    refine ⟨fun key => ?_, fun key hu s hs' hk => ?_, fun key hu s hs' hk => ?_⟩
    · by_cases hxs : Spares x key
      · exact .inl hxs
      · refine .inr fun s hs' hk => hxs fun s' hs'' hk' => ?_
        subst hs' hs'' hk
        exact ((hi _).1 (hk' ▸ declared_provides hs hc hx)).1 (declared_provides hs hd hy)
    · subst hs' hk
      exact (hi _).2 (declared_provides hs hd hy) (uses_depends (hmem c hcd.1) hx hu)
    · subst hs' hk
      exact ((hi _).1 (declared_provides hs hc hx)).2 (uses_depends (hmem d hcd.2) hy hu)
  have hread : ∀ {l : List Node} {es : List RsEntity}, (∀ k ∈ l, Member k) →
      List.Forall₂ (fun c e => parseNode U c a [] = .ok e) l es → List.Forall₂ (fun c e => parseNode U c b [] = .ok e) l es :=
    fun hm hl => forall₂_imp_mem hl fun k hk e he => by rw [← hel k (hm k hk)]; exact he
  -- lists of children with some property
  have hsplit : ∀ p : Node → Bool, (∃ A B, a.children.filter p = A ++ c :: d :: B ∧ b.children.filter p = A ++ d :: c :: B) ∨
      (a.children.filter p = b.children.filter p ∧ (p c = false ∨ p d = false)) := by
    intro p
    cases h with
    | @mk u as ns cs ds =>
      show (∃ A B, List.filter p (cs ++ c :: d :: ds) = A ++ c :: d :: B ∧ List.filter p (cs ++ d :: c :: ds) = A ++ d :: c :: B) ∨
        (List.filter p (cs ++ c :: d :: ds) = List.filter p (cs ++ d :: c :: ds) ∧ _)
      rw [List.filter_append, List.filter_append]
      cases h1 : p c <;> cases h2 : p d
      · right; simp [h1, h2]
      · right; simp [h1, h2]
      · right; simp [h1, h2]
      · left; exact ⟨cs.filter p, ds.filter p, by simp [h1, h2], by simp [h1, h2]⟩
  have hgl : ∀ n : Node, globals n = n.children.filter fun c => decide (c.tag ≠ "attributeGroup".toList) &&
      (c.isElement && decide (c.tag ≠ "annotation".toList)) := fun n => by
    unfold globals members
    rw [List.filter_filter]
  have hglm : ∀ (n : Node), ∀ k ∈ globals n, Member k := fun n k hk => (mem_members.1 (List.mem_of_mem_filter hk)).2
  have hgrm : ∀ (n : Node), ∀ k ∈ withTags n ["attributeGroup"], Member k := fun n k hk => tagged_member hk
  rcases hsplit fun c => decide (c.tag ≠ "attributeGroup".toList) && (c.isElement && decide (c.tag ≠ "annotation".toList)) with
    ⟨A, B, k1, k2⟩ | ⟨k1, hkk⟩
  · -- two types
    rw [← hgl] at k1 k2
    have hcg : c.tag ≠ "attributeGroup".toList := by
      have : c ∈ globals a := by rw [k1]; simp
      exact of_decide_eq_true (List.mem_filter.1 this).2
    have hdg : d.tag ≠ "attributeGroup".toList := by
      have : d ∈ globals a := by rw [k1]; simp
      exact of_decide_eq_true (List.mem_filter.1 this).2
    have hgr : withTags a ["attributeGroup"] = withTags b ["attributeGroup"] := by
      rcases hsplit fun c => ["attributeGroup"].any fun t => decide (c.tag = t.toList) with ⟨A', B', j1, -⟩ | ⟨j1, -⟩
      · have : c ∈ a.children.filter fun c => ["attributeGroup"].any fun t => decide (c.tag = t.toList) := by rw [j1]; simp
        exact absurd (group_any.1 (List.mem_filter.1 this).2) hcg
      · exact j1
    rw [k1] at h1
    obtain ⟨T1, T', rfl, j1, j2⟩ := forall₂_split h1
    cases j2 with
    | @cons _ x _ T' jc j2 =>
    cases j2 with
    | @cons _ y _ T2 jd j2 =>
    obtain ⟨C, x', y', D, hty, hx⟩ := extend_types
      (f := ⟨[], none, T1 ++ x :: y :: T2, groups, targetNamespace a, xsdNamespace a⟩) rfl (hapart x y jc jd) he
    have hfb : parseSchema U b [] = .ok ⟨[], none, T1 ++ y :: x :: T2, groups, targetNamespace a, xsdNamespace a⟩ := by
      refine schema_iff.2 ⟨hrb, T1 ++ y :: x :: T2, groups, ?_, ?_, by rw [e1, e2]⟩
      · refine hread (hglm b) ?_
        rw [k2]
        exact forall₂_join j1 (.cons jd (.cons jc j2))
      · refine hread (hgrm b) ?_
        rw [← hgr]
        exact h2
    have hts : genList ⟨U, g.targetNs, g.xsdNs⟩ g.types = .ok ts := hg
    rw [hty] at hts
    obtain ⟨t1, t', rfl, i1, i2⟩ := genList_split.1 hts
    rw [genList] at i2
    obtain ⟨u, i3, i2⟩ := Res.bind_eq_ok.1 i2
    obtain ⟨t2, i4, i2⟩ := Res.bind_eq_ok.1 i2
    obtain rfl := Res.ok.inj i2
    rw [genList] at i4
    obtain ⟨v, i5, i4⟩ := Res.bind_eq_ok.1 i4
    obtain ⟨t3, i6, i4⟩ := Res.bind_eq_ok.1 i4
    obtain rfl := Res.ok.inj i4
    refine .inl ⟨t1, u, v, t3, rfl, ?_, hcg, hdg⟩
    unfold pieces parseFile
    rw [hfb, Res.ok_bind, hx, Res.ok_bind]
    exact genList_split.2 ⟨t1, v :: u :: t3, rfl, i1, by rw [genList, i5, Res.ok_bind, genList, i3, Res.ok_bind, i6]; rfl⟩
  · -- at most one type: the code is the same
    rw [← hgl, ← hgl] at k1
    have htag : c.tag = "attributeGroup".toList ∨ d.tag = "attributeGroup".toList := by
      have hx : ∀ k : Node, Is k declarationTags → (decide (k.tag ≠ "attributeGroup".toList) &&
          (k.isElement && decide (k.tag ≠ "annotation".toList))) = false → k.tag = "attributeGroup".toList := by
        intro k hk hf
        rw [(declaration_tag hk).1, decide_eq_true (declaration_tag hk).2, Bool.and_true, Bool.and_true] at hf
        exact Classical.not_not.1 (of_decide_eq_false hf)
      exact hkk.imp (hx c hc) (hx d hd)
    refine .inr ⟨?_, htag⟩
    have hgen : ∀ groups', List.Forall₂ (fun c e => parseNode U c a [] = .ok e) (withTags b ["attributeGroup"]) groups' →
        extendFile ⟨[], none, types, groups', targetNamespace a, xsdNamespace a⟩ = .ok { g with attributeGroups := groups' } →
        pieces U b = .ok ts := by
      intro groups' hgr hx
      have hfb : parseSchema U b [] = .ok ⟨[], none, types, groups', targetNamespace a, xsdNamespace a⟩ := by
        refine schema_iff.2 ⟨hrb, types, groups', ?_, hread (hgrm b) hgr, by rw [e1, e2]⟩
        refine hread (hglm b) ?_
        rw [← k1]
        exact h1
      unfold pieces parseFile
      rw [hfb, Res.ok_bind, hx, Res.ok_bind]
      exact hg
    rcases hsplit fun c => ["attributeGroup"].any fun t => decide (c.tag = t.toList) with ⟨A, B, j1, j2⟩ | ⟨j1, -⟩
    · rw [show withTags a ["attributeGroup"] = A ++ c :: d :: B from j1] at h2
      obtain ⟨G1, G', rfl, i1, i2⟩ := forall₂_split h2
      cases i2 with
      | @cons _ x _ G' ic i2 =>
      cases i2 with
      | @cons _ y _ G2 id i2 =>
      refine hgen (G1 ++ y :: x :: G2) ?_ (extend_groups
        (f := ⟨[], none, types, G1 ++ x :: y :: G2, targetNamespace a, xsdNamespace a⟩) rfl (hapart x y ic id).names he)
      rw [show withTags b ["attributeGroup"] = A ++ d :: c :: B from j2]
      exact forall₂_join i1 (.cons id (.cons ic i2))
    · refine hgen groups ?_ ?_
      · rw [show withTags b ["attributeGroup"] = withTags a ["attributeGroup"] from j1.symm]
        exact h2
      · rw [he]
        have := (extendFile_iff.1 he).2.2.1
        rw [show groups = g.attributeGroups from this.symm]

/-- The names are those of the same elements. -/
theorem exchanged_names {c d a b : Node} (h : Exchanged c d a b)
    (hb : ∀ n at', PartOf a n → at' ∈ ["name", "ref"] → n.attr at'.toList ≠ some "__base__".toList) :
    ∀ n at', PartOf b n → at' ∈ ["name", "ref"] → n.attr at'.toList ≠ some "__base__".toList := by
  have hp : ∀ n, PartOf b n → n = b ∨ PartOf a n := by
    intro n hn
    induction hn with
    | root => exact .inl rfl
    | @child n k hn hk ih =>
      right
      rcases ih with rfl | ih
      · refine .child .root ?_
        obtain ⟨hk, hm⟩ := mem_members.1 hk
        refine mem_members.2 ⟨?_, hm⟩
        cases h with
        | @mk u as ns cs ds =>
          have hk : k ∈ cs ++ d :: c :: ds := hk
          show k ∈ cs ++ c :: d :: ds
          simp only [List.mem_append, List.mem_cons] at hk ⊢
          tauto
      · exact .child ih hk
  intro n at' hn ha
  rcases hp n hn with rfl | hn
  · have := hb a at' .root ha
    cases h
    exact this
  · exact hb n at' hn ha

theorem pieces_reordered {U : UnicodeTable} {a b : Node} (h : Reordered a b)
    (hb : ∀ n at', PartOf a n → at' ∈ ["name", "ref"] → n.attr at'.toList ≠ some "__base__".toList)
    {ts : List Str} (ht : pieces U a = .ok ts) : ∃ ts', pieces U b = .ok ts' ∧ ts.Perm ts' := by
  suffices ∃ ts', pieces U b = .ok ts' ∧ ts.Perm ts' ∧
      ∀ n at', PartOf b n → at' ∈ ["name", "ref"] → n.attr at'.toList ≠ some "__base__".toList by
    obtain ⟨ts', h1, h2, -⟩ := this
    exact ⟨ts', h1, h2⟩
  induction h with
  | refl => exact ⟨ts, ht, .refl _, hb⟩
  | step _ hc hd hi hx ih =>
    obtain ⟨ts', h1, h2, h3⟩ := ih
    rcases pieces_exchanged hc hd hi hx h3 h1 with ⟨xs, u, v, zs, rfl, h4, -⟩ | ⟨h4, -⟩
    · exact ⟨_, h4, h2.trans (List.Perm.append_left _ (List.Perm.swap ..)), exchanged_names hx h3⟩
    · exact ⟨ts', h4, h2, exchanged_names hx h3⟩

/-- Without a declaration, there are fewer names. -/
theorem without_names {d a b : Node} (h : Without d a b)
    (hb : ∀ n at', PartOf a n → at' ∈ ["name", "ref"] → n.attr at'.toList ≠ some "__base__".toList) :
    ∀ n at', PartOf b n → at' ∈ ["name", "ref"] → n.attr at'.toList ≠ some "__base__".toList := by
  have hp : ∀ n, PartOf b n → n = b ∨ PartOf a n := by
    intro n hn
    induction hn with
    | root => exact .inl rfl
    | @child n k hn hk ih =>
      right
      rcases ih with rfl | ih
      · refine .child .root ?_
        obtain ⟨hk, hm⟩ := mem_members.1 hk
        refine mem_members.2 ⟨?_, hm⟩
        cases h with
        | @mk u as ns cs ds =>
          have hk : k ∈ cs ++ ds := hk
          show k ∈ cs ++ d :: ds
          simp only [List.mem_append, List.mem_cons] at hk ⊢
          tauto
      · exact .child ih hk
  intro n at' hn ha
  rcases hp n hn with rfl | hn
  · have := hb a at' .root ha
    cases h
    exact this
  · exact hb n at' hn ha

theorem pieces_pruned {U : UnicodeTable} {a b : Node} (h : Pruned a b)
    (hb : ∀ n at', PartOf a n → at' ∈ ["name", "ref"] → n.attr at'.toList ≠ some "__base__".toList)
    {ts : List Str} (ht : pieces U a = .ok ts) : ∃ ts', pieces U b = .ok ts' ∧ ts'.Sublist ts := by
  suffices ∃ ts', pieces U b = .ok ts' ∧ ts'.Sublist ts ∧
      ∀ n at', PartOf b n → at' ∈ ["name", "ref"] → n.attr at'.toList ≠ some "__base__".toList by
    obtain ⟨ts', h1, h2, -⟩ := this
    exact ⟨ts', h1, h2⟩
  induction h with
  | refl => exact ⟨ts, ht, .refl _, hb⟩
  | step _ hd hx hm ih =>
    obtain ⟨ts', h1, h2, h3⟩ := ih
    obtain ⟨cs, hx'⟩ := without_at hx
    have h4 := without_names hx h3
    rcases pieces_without hd hx' h4 hm h1 with ⟨-, h5⟩ | ⟨-, xs, y, zs, rfl, h5, -⟩
    · exact ⟨ts', h5, h2, h4⟩
    · exact ⟨_, h5, (List.Sublist.append (.refl _) (List.sublist_cons_self ..)).trans h2, h4⟩

end Verif.Lemmas.Local
