import Verif.Lemmas.ExtendInv
import Verif.Spec.Document

/-! # Which entities of a document are definitions -/

namespace Verif.Lemmas.Parse

open Verif Verif.Model Verif.RoXml Verif.Spec

/-- What is directly inside an entity are definitions. -/
def Inside (e : RsEntity) : Prop := (∀ s, e = .struct s → s.subtypes = []) ∧ ∀ x ∈ inner e, IsItem x

theorem sameHead_item {e e' : RsEntity} (h : SameHead e e') : IsItem e → IsItem e' := by
  cases h with
  | refl => exact id
  | struct => exact fun _ => trivial

theorem sameHeads_item {es es' : List RsEntity} (h : List.Forall₂ SameHead es es') (hi : ∀ x ∈ es, IsItem x) :
    ∀ x ∈ es', IsItem x := by
  induction h with
  | nil => exact hi
  | cons h1 h2 ih =>
    intro x hx
    rcases List.mem_cons.1 hx with rfl | hx
    · exact sameHead_item h1 (hi _ List.mem_cons_self)
    · exact ih (fun y hy => hi y (List.mem_cons_of_mem _ hy)) x hx

theorem fieldwise_inside : Fieldwise Inside where
  noSub h := h.1 _ rfl
  field h f hf := ⟨fun _ e => (by cases e), fun x hx =>
    h.2 x (List.mem_append.2 (.inr (List.mem_flatMap.2 ⟨f, hf, hx⟩)))⟩
  struct h hf := ⟨fun s e => by cases e; rfl, fun x hx => by
    rcases List.mem_append.1 hx with hx | hx
    · cases hx
    · obtain ⟨f, h1, h2⟩ := List.mem_flatMap.1 hx
      exact (hf f h1).2 x h2⟩
  retype h hs := ⟨fun _ e => (by cases e), sameHeads_item hs h.2⟩

/-- Inside and itself a definition. -/
abbrev Item (e : RsEntity) : Prop := Deep Inside e ∧ IsItem e

theorem item_struct {n : Str} {cm : Option Str} {fs : List StructField} {ag : List RAlias}
    (hf : ∀ f ∈ fs, Deep Inside (.structField f)) : Item (.struct (.mk n cm fs ag [])) := by
  have hx : ∀ x ∈ inner (.struct (.mk n cm fs ag [])), Item x := by
    intro x hx
    rcases List.mem_append.1 hx with hx | hx
    · cases hx
    · obtain ⟨f, h1, h2⟩ := List.mem_flatMap.1 hx
      exact ⟨(hf f h1).inside x h2, (hf f h1).here.2 x h2⟩
  exact ⟨.mk ⟨fun s e => (by cases e; rfl), fun x h => (hx x h).2⟩ fun x h => (hx x h).1, trivial⟩

theorem inside_field {n t : Str} {cm : Option Str} {sub : List RsEntity} {src ms} (h : ∀ x ∈ sub, Item x) :
    Deep Inside (.structField (.mk n t cm sub src ms)) :=
  .mk ⟨fun _ e => (by cases e), fun x hx => (h x hx).2⟩ fun x hx => (h x hx).1

theorem item_enum {n : Str} {cs} {cm : Option Str} {t : Str} {sub : List RsEntity} {src} (h : ∀ x ∈ sub, Item x) :
    Item (.enum (.mk n cs cm t sub src)) :=
  ⟨.mk ⟨fun _ e => (by cases e), fun x hx => (h x hx).2⟩ fun x hx => (h x hx).1, trivial⟩

theorem item_tuple {n : Str} {cm : Option Str} {t : Str} {sub : List RsEntity} {ms fs} (h : ∀ x ∈ sub, Item x) :
    Item (.tupleStruct (.mk n cm t sub ms fs)) :=
  ⟨.mk ⟨fun _ e => (by cases e), fun x hx => (h x hx).2⟩ fun x hx => (h x hx).1, trivial⟩

theorem item_alias {n t : Str} {cm : Option Str} : Item (.alias (.mk n t cm [])) :=
  ⟨.mk ⟨fun _ e => (by cases e), no_kids⟩ no_kids, trivial⟩

theorem inside_case {c : EnumCase} : Deep Inside (.enumCase c) :=
  .mk ⟨fun _ e => (by cases e), no_kids⟩ no_kids

theorem item_inner {e : RsEntity} (h : Deep Inside e) : ∀ x ∈ inner e, Item x :=
  fun x hx => ⟨h.inside x hx, h.here.2 x hx⟩

theorem deep_setName {nm : Str} : ∀ {e : RsEntity}, Deep Inside e → Deep Inside (e.setName nm)
  | .struct (.mk _ _ _ _ _), h => .mk ⟨fun s e => (by cases e; have := h.here.1 _ rfl; exact this), h.here.2⟩ h.inside
  | .tupleStruct (.mk _ _ _ _ _ _), h => .mk ⟨fun _ e => (by cases e), h.here.2⟩ h.inside
  | .enum (.mk _ _ _ _ _ _), h => .mk ⟨fun _ e => (by cases e), h.here.2⟩ h.inside
  | .enumCase _, h => .mk ⟨fun _ e => (by cases e), h.here.2⟩ h.inside
  | .alias (.mk _ _ _ _), h => .mk ⟨fun _ e => (by cases e), h.here.2⟩ h.inside
  | .structField (.mk _ _ _ _ _ _), h => .mk ⟨fun _ e => (by cases e), h.here.2⟩ h.inside
  | .import _, h => .mk ⟨fun _ e => (by cases e), h.here.2⟩ h.inside

theorem item_setName {nm : Str} : ∀ {e : RsEntity}, Item e → Item (e.setName nm) := fun {e} h =>
  ⟨deep_setName h.1, by
    cases e with
    | struct s => cases s; trivial
    | tupleStruct s => cases s; trivial
    | «enum» s => cases s; trivial
    | «alias» s => cases s; trivial
    | «import» s => trivial
    | structField s => exact absurd h.2 id
    | enumCase s => exact absurd h.2 id⟩

theorem deep_setComment {c : Option Str} : ∀ {e : RsEntity}, Deep Inside e → Deep Inside (e.setComment c)
  | .struct (.mk _ _ _ _ _), h => .mk ⟨fun s e => (by cases e; have := h.here.1 _ rfl; exact this), h.here.2⟩ h.inside
  | .tupleStruct (.mk _ _ _ _ _ _), h => .mk ⟨fun _ e => (by cases e), h.here.2⟩ h.inside
  | .enum (.mk _ _ _ _ _ _), h => .mk ⟨fun _ e => (by cases e), h.here.2⟩ h.inside
  | .enumCase _, h => .mk ⟨fun _ e => (by cases e), h.here.2⟩ h.inside
  | .alias (.mk _ _ _ _), h => .mk ⟨fun _ e => (by cases e), h.here.2⟩ h.inside
  | .structField (.mk _ _ _ _ _ _), h => .mk ⟨fun _ e => (by cases e), h.here.2⟩ h.inside
  | .import _, h => .mk ⟨fun _ e => (by cases e), h.here.2⟩ h.inside

theorem item_setComment {c : Option Str} : ∀ {e : RsEntity}, Item e → Item (e.setComment c) := fun {e} h =>
  ⟨deep_setComment h.1, by
    cases e with
    | struct s => cases s; trivial
    | tupleStruct s => cases s; trivial
    | «enum» s => cases s; trivial
    | «alias» s => cases s; trivial
    | «import» s => trivial
    | structField s => exact absurd h.2 id
    | enumCase s => exact absurd h.2 id⟩

/-- The elements for fields and variants. -/
def memberTags : List Str := ["any", "anyAttribute", "attribute", "element"].map String.toList

/-- An element for a definition. -/
def ItemPlace (n p : Node) : Prop :=
  n.tag ∉ memberTags ∨ (p.tag = "schema".toList ∧ (n.tag = "attribute".toList ∨ n.tag = "element".toList))

/-- What the proof needs of the grammar. -/
structure Placed (G : Node → Prop) : Prop where
  hered : Hereditary G
  content : ∀ {n c}, G n → n.tag ∈ ["simpleType", "simpleContent", "complexContent"].map String.toList → c ∈ members n →
    c.tag ∉ memberTags

section
variable {G : Node → Prop} {c : Place}

/-- What is known of the children. -/
abbrev KidItems (c : Place) : Prop :=
  ∀ k ∈ c.kids, Member k.1 → ∀ e, k.2 = .ok e → Deep Inside e ∧ (ItemPlace k.1 c.node → IsItem e)

theorem attributesToFields_items (hk : KidItems c) {fs} (h : attributesToFields c = .ok fs) :
    ∀ f ∈ fs, Deep Inside (.structField f) := by
  obtain ⟨ks, hks, h⟩ := Res.bind_eq_ok.1 h
  refine mapM'_forall h ?_
  intro k hk' f hf
  obtain ⟨e, he, hf⟩ := Res.bind_eq_ok.1 hf
  have := hk _ (filter_member hks membersOnly_attribute hk').1 (filter_member hks membersOnly_attribute hk').2 e he
  cases e with
  | structField g => obtain rfl := Res.ok.inj hf; exact this.1
  | _ => cases hf

theorem tag_of {s : String} {t : ElementType} {p n} (h : xsdType p n = .ok t) (hs : (s, t) ∈ plainTags := by decide) :
    n.tag = s.toList := (type_iff hs).1 h

/-- A child which is a definition by its tag. -/
theorem kid_item (hk : KidItems c) {q : ElementType → Node → Bool} (hq : MembersOnly q) {k}
    (ho : c.lastKid q = .ok (some k)) (ht : k.1.tag ∉ memberTags) {e} (he : k.2 = .ok e) : Item e := by
  obtain ⟨h1, h2⟩ := lastKid_member hq ho
  obtain ⟨h3, h4⟩ := hk k h1 h2 e he
  exact ⟨h3, h4 (.inl ht)⟩

theorem content_tag {k} (ho : c.lastKid isContentType = .ok (some k)) : k.1.tag ∉ memberTags := by
  obtain ⟨-, t, ht, hp, -⟩ := lastKid_all ho
  rcases of_decide_eq_true hp with rfl | rfl
  · rw [tag_of (s := "simpleType") ht]; decide
  · rw [tag_of (s := "complexType") ht]; decide

theorem simple_tag {k} (ho : c.lastKid (fun t n => n.isElement ∧ t = .simpleType) = .ok (some k)) :
    k.1.tag ∉ memberTags := by
  obtain ⟨-, t, ht, hp, -⟩ := lastKid_all ho
  obtain ⟨-, rfl⟩ := of_decide_eq_true hp
  rw [tag_of (s := "simpleType") ht]; decide

theorem enumToField_items {e : REnum} (h : Deep Inside (.enum e)) : Deep Inside (.structField (enumToField e)) := by
  cases e
  exact inside_field fun x hx => by obtain rfl := List.mem_singleton.1 hx; exact ⟨h, trivial⟩

theorem parseElement_items (hn : c.node.tag = "element".toList) (hk : KidItems c) {e} (h : parseElement c = .ok e) :
    Deep Inside e ∧ (ItemPlace c.node c.parent → IsItem e) := by
  obtain ⟨pt, hpt, h⟩ := Res.bind_eq_ok.1 h
  have hnot : c.node.tag ∈ memberTags := by rw [hn]; decide
  have hfield : pt ≠ .schema → Deep Inside e → Deep Inside e ∧ (ItemPlace c.node c.parent → IsItem e) := by
    intro hne hd
    refine ⟨hd, ?_⟩
    rintro (hp | ⟨hp, -⟩)
    · exact absurd hnot hp
    · exact absurd (Res.ok.inj (hpt.symm.trans ((type_iff (s := "schema") (t := .schema) (by decide)).2 hp))) hne
  have hseq : parseFieldOfSequence c = .ok e → Deep Inside e := by
    intro h
    unfold parseFieldOfSequence at h
    dsimp only at h
    split at h
    · obtain rfl := Res.ok.inj h; exact inside_field no_kids
    · obtain ⟨o, ho, h⟩ := Res.bind_eq_ok.1 h
      obtain ⟨k, hk', h⟩ := Res.bind_eq_ok.1 h
      rw [unwrap_ok.1 hk'] at ho
      obtain ⟨x, hx, h⟩ := Res.bind_eq_ok.1 h
      obtain rfl := Res.ok.inj h
      refine inside_field fun y hy => ?_
      obtain rfl := List.mem_singleton.1 hy
      exact item_setName (kid_item hk membersOnly_content ho (content_tag ho) hx)
  have hdef : Res.ok (elementDefault c.node) = .ok e → Deep Inside e ∧ (ItemPlace c.node c.parent → IsItem e) := by
    intro h
    obtain rfl := Res.ok.inj h
    exact ⟨item_alias.1, fun _ => trivial⟩
  cases pt with
  | all => exact hfield (fun e => (by cases e)) (hseq h)
  | sequence => exact hfield (fun e => (by cases e)) (hseq h)
  | choice =>
    obtain rfl := Res.ok.inj h
    refine hfield (fun e => (by cases e)) ?_
    unfold parseCaseOfChoice
    cases attrRef c.node <;> exact inside_case
  | schema =>
    have : Item e := by
      obtain ⟨nm, hnm, h⟩ := Res.bind_eq_ok.1 h
      cases ht : attrType c.node with
      | some t => rw [ht] at h; obtain rfl := Res.ok.inj h; exact item_alias
      | none =>
        rw [ht] at h
        obtain ⟨o, ho, h⟩ := Res.bind_eq_ok.1 h
        cases o with
        | some k =>
          obtain ⟨x, hx, h⟩ := Res.bind_eq_ok.1 h
          obtain rfl := Res.ok.inj h
          exact item_setName (kid_item hk membersOnly_content ho (content_tag ho) hx)
        | none => obtain rfl := Res.ok.inj h; exact item_struct no_kids
    exact ⟨this.1, fun _ => this.2⟩
  | _ => exact hdef h

theorem parseAttribute_items (hn : c.node.tag = "attribute".toList) (hk : KidItems c) {e}
    (h : parseAttribute c = .ok e) : Deep Inside e ∧ (ItemPlace c.node c.parent → IsItem e) := by
  obtain ⟨pt, hpt, h⟩ := Res.bind_eq_ok.1 h
  by_cases hs : pt = .schema
  · rw [if_pos hs] at h
    have : Item e := by
      unfold parseGlobalAttribute at h
      cases hr : attrRef c.node with
      | some r => rw [hr] at h; obtain rfl := Res.ok.inj h; exact item_alias
      | none =>
        rw [hr] at h
        obtain ⟨nm, hnm, h⟩ := Res.bind_eq_ok.1 h
        cases ht : attrType c.node with
        | some t => rw [ht] at h; obtain rfl := Res.ok.inj h; exact item_alias
        | none =>
          rw [ht] at h
          obtain ⟨o, ho, h⟩ := Res.bind_eq_ok.1 h
          cases o with
          | some k =>
            obtain ⟨x, hx, h⟩ := Res.bind_eq_ok.1 h
            obtain rfl := Res.ok.inj h
            exact item_setName (kid_item hk membersOnly_simple ho (simple_tag ho) hx)
          | none => obtain rfl := Res.ok.inj h; exact item_struct no_kids
    exact ⟨this.1, fun _ => this.2⟩
  · rw [if_neg hs] at h
    obtain ⟨nm, hnm, h⟩ := Res.bind_eq_ok.1 h
    obtain ⟨u, -, h⟩ := Res.bind_eq_ok.1 h
    obtain rfl := Res.ok.inj h
    refine ⟨inside_field no_kids, ?_⟩
    rintro (hp | ⟨hp, -⟩)
    · exact absurd (by rw [hn]; decide) hp
    · exact absurd (Res.ok.inj (hpt.symm.trans ((type_iff (s := "schema") (t := .schema) (by decide)).2 hp))) hs

theorem parseAttributeGroup_items (hk : KidItems c) {e} (h : parseAttributeGroup c = .ok e) : Item e := by
  obtain ⟨pt, -, h⟩ := Res.bind_eq_ok.1 h
  by_cases hs : pt = .schema
  · rw [if_pos hs] at h
    obtain ⟨nm, hnm, h⟩ := Res.bind_eq_ok.1 h
    obtain ⟨fs, hfs, h⟩ := Res.bind_eq_ok.1 h
    obtain rfl := Res.ok.inj h
    exact item_struct (attributesToFields_items hk hfs)
  · rw [if_neg hs] at h
    obtain ⟨r, hr, h⟩ := Res.bind_eq_ok.1 h
    obtain rfl := Res.ok.inj h
    exact item_alias

theorem parseSequence_items (hk : KidItems c) {e} (h : parseSequence c = .ok e) : Item e := by
  obtain ⟨nm, hnm, h⟩ := Res.bind_eq_ok.1 h
  obtain ⟨fs, hfs, h⟩ := Res.bind_eq_ok.1 h
  obtain rfl := Res.ok.inj h
  refine item_struct ?_
  obtain ⟨ks, hks, h⟩ := Res.bind_eq_ok.1 hfs
  refine mapM'_forall h ?_
  intro k hk' f hf
  obtain ⟨x, hx, hf⟩ := Res.bind_eq_ok.1 hf
  have := (hk _ (filter_member hks membersOnly_isMember hk').1 (filter_member hks membersOnly_isMember hk').2 x hx).1
  cases x with
  | structField g =>
    cases g
    obtain rfl := Res.ok.inj hf
    exact inside_field (item_inner this)
  | «enum» g =>
    cases g
    obtain rfl := Res.ok.inj hf
    exact enumToField_items (item_enum (item_inner this)).1
  | _ => cases hf

theorem parseChoice_items {e} (h : parseChoice c = .ok e) : Item e := by
  obtain ⟨ks, hks, h⟩ := Res.bind_eq_ok.1 h
  obtain ⟨cs, hcs, h⟩ := Res.bind_eq_ok.1 h
  obtain rfl := Res.ok.inj h
  exact item_enum no_kids

theorem struct_noSub {n cm fs ag sub} (h : Deep Inside (.struct (.mk n cm fs ag sub))) : sub = [] := h.here.1 _ rfl

theorem finishComplexType_items {nm : Str} {fs : List StructField} {x e : RsEntity}
    (hfs : ∀ f ∈ fs, Deep Inside (.structField f)) (hx : Item x)
    (h : finishComplexType c nm fs x = .ok e) : Item e := by
  cases x with
  | struct s =>
    obtain ⟨n', cm, fs', ag, sub⟩ := s
    obtain rfl := Res.ok.inj h
    obtain rfl := struct_noSub hx.1
    refine item_struct ?_
    intro f hf
    rcases List.mem_append.1 hf with hf | hf
    · exact deep_fields fieldwise_inside hx.1 f hf
    · exact hfs f hf
  | «enum» s =>
    obtain ⟨n', cs, cm, t, sub, src⟩ := s
    obtain ⟨ag, hag, h⟩ := Res.bind_eq_ok.1 h
    obtain rfl := Res.ok.inj h
    refine item_enum ?_
    intro y hy
    obtain rfl := List.mem_singleton.1 hy
    refine item_struct ?_
    intro f hf
    rcases List.mem_append.1 hf with hf | hf
    · exact hfs f hf
    · obtain rfl := List.mem_singleton.1 hf
      exact inside_field no_kids
  | _ => obtain rfl := Res.ok.inj h; exact hx

theorem complex_tag {k} (ho : c.lastKid isComplexContent = .ok (some k)) : k.1.tag ∉ memberTags := by
  obtain ⟨-, t, ht, hp, -⟩ := lastKid_all ho
  rcases (of_decide_eq_true hp).2 with rfl | rfl | rfl | rfl | rfl | rfl
  · rw [tag_of (s := "all") ht]; decide
  · rw [tag_of (s := "choice") ht]; decide
  · rw [tag_of (s := "complexContent") ht]; decide
  · rw [tag_of (s := "group") ht]; decide
  · rw [tag_of (s := "sequence") ht]; decide
  · rw [tag_of (s := "simpleContent") ht]; decide

theorem parseComplexType_items (hk : KidItems c) {e} (h : parseComplexType c = .ok e) : Item e := by
  obtain ⟨nm, hnm, h⟩ := Res.bind_eq_ok.1 h
  obtain ⟨fs, hfs, h⟩ := Res.bind_eq_ok.1 h
  obtain ⟨o, ho, h⟩ := Res.bind_eq_ok.1 h
  have hfs := attributesToFields_items hk hfs
  cases o with
  | none =>
    obtain ⟨ag, hag, h⟩ := Res.bind_eq_ok.1 h
    obtain rfl := Res.ok.inj h
    exact item_struct hfs
  | some k =>
    dsimp only at h
    split at h
    · obtain ⟨ag, hag, h⟩ := Res.bind_eq_ok.1 h
      obtain rfl := Res.ok.inj h
      exact item_struct hfs
    · obtain ⟨x, hx, h⟩ := Res.bind_eq_ok.1 h
      exact finishComplexType_items hfs (kid_item hk membersOnly_complex ho (complex_tag ho) hx) h

/-- The last member, where only definitions are allowed. -/
theorem last_member (hP : Placed G) (hc : Around G G c) (hkids : c.kids.map Prod.fst = c.node.children)
    (ht : c.node.tag ∈ ["simpleType", "simpleContent", "complexContent"].map String.toList) {k}
    (ho : c.lastKid isMember = .ok (some k)) : k.1.tag ∉ memberTags := by
  obtain ⟨h1, h2⟩ := lastKid_member membersOnly_isMember ho
  refine hP.content hc.node ht (mem_members.2 ⟨?_, h2⟩)
  rw [← hkids]
  exact List.mem_map.2 ⟨k, h1, rfl⟩

theorem parseContent_items (hk : KidItems c) (hl : ∀ k, c.lastKid isMember = .ok (some k) → k.1.tag ∉ memberTags) {e}
    (h : parseContent c = .ok e) : Item e := by
  obtain ⟨o, ho, h⟩ := Res.bind_eq_ok.1 h
  obtain ⟨k, hk', h⟩ := Res.bind_eq_ok.1 h
  rw [unwrap_ok.1 hk'] at ho
  exact kid_item hk membersOnly_isMember ho (hl k ho) h

theorem parseSimpleType_items (hk : KidItems c) (hl : ∀ k, c.lastKid isMember = .ok (some k) → k.1.tag ∉ memberTags) {e}
    (h : parseSimpleType c = .ok e) : Item e := by
  obtain ⟨pt, -, h⟩ := Res.bind_eq_ok.1 h
  split at h
  · cases h
  · obtain ⟨o, ho, h⟩ := Res.bind_eq_ok.1 h
    obtain ⟨k, hk', h⟩ := Res.bind_eq_ok.1 h
    rw [unwrap_ok.1 hk'] at ho
    obtain ⟨x, hx, h⟩ := Res.bind_eq_ok.1 h
    obtain rfl := Res.ok.inj h
    refine item_setComment ?_
    have := kid_item hk membersOnly_isMember ho (hl k ho) hx
    cases hn : attrName c.node with
    | none => exact this
    | some nm => exact item_setName this

theorem withBase_items (hk : KidItems c) {base fs} (hfs : attributesToFields c = .ok fs) :
    ∀ f ∈ fs ++ [baseField c.node base], Deep Inside (.structField f) := by
  intro f hf
  rcases List.mem_append.1 hf with hf | hf
  · exact attributesToFields_items hk hfs f hf
  · obtain rfl := List.mem_singleton.1 hf
    exact inside_field no_kids

theorem derivedWithoutContent_items {fs e} (hfs : ∀ f ∈ fs, Deep Inside (.structField f))
    (h : derivedWithoutContent c fs = .ok e) : Item e := by
  obtain ⟨ag, hag, h⟩ := Res.bind_eq_ok.1 h
  obtain rfl := Res.ok.inj h
  exact item_struct hfs

theorem derivedWithContent_items {fs x e} (hfs : ∀ f ∈ fs, Deep Inside (.structField f)) (hx : Deep Inside x)
    (h : derivedWithContent c fs x = .ok e) : Item e := by
  cases x with
  | struct s =>
    obtain ⟨n', cm, fs', ag, sub⟩ := s
    obtain rfl := Res.ok.inj h
    obtain rfl := struct_noSub hx
    refine item_struct ?_
    intro f hf
    rcases List.mem_append.1 hf with hf | hf
    · exact deep_fields fieldwise_inside hx f hf
    · exact hfs f hf
  | _ => exact derivedWithoutContent_items hfs h

theorem parseExtension_items (hk : KidItems c) {e} (h : parseExtension c = .ok e) : Item e := by
  obtain ⟨t, -, h⟩ := Res.bind_eq_ok.1 h
  split at h
  · obtain ⟨base, hb, h⟩ := Res.bind_eq_ok.1 h
    obtain ⟨fs, hfs, h⟩ := Res.bind_eq_ok.1 h
    exact derivedWithoutContent_items (withBase_items hk hfs) h
  · obtain ⟨base, hb, h⟩ := Res.bind_eq_ok.1 h
    obtain ⟨fs, hfs, h⟩ := Res.bind_eq_ok.1 h
    obtain ⟨o, ho, h⟩ := Res.bind_eq_ok.1 h
    cases o with
    | none => exact derivedWithoutContent_items (withBase_items hk hfs) h
    | some k =>
      obtain ⟨x, hx, h⟩ := Res.bind_eq_ok.1 h
      exact derivedWithContent_items (withBase_items hk hfs) (hk k (lastKid_member membersOnly_extension ho).1
        (lastKid_member membersOnly_extension ho).2 x hx).1 h
  · cases h

theorem parseRestriction_items {U : UnicodeTable} (hk : KidItems c) {e} (h : parseRestriction U c = .ok e) : Item e := by
  obtain ⟨t, -, h⟩ := Res.bind_eq_ok.1 h
  split at h
  · obtain ⟨base, hb, h⟩ := Res.bind_eq_ok.1 h
    obtain ⟨fs, hfs, h⟩ := Res.bind_eq_ok.1 h
    obtain ⟨sm, -, h⟩ := Res.bind_eq_ok.1 h
    split at h
    · obtain ⟨nm, hnm, h⟩ := Res.bind_eq_ok.1 h
      obtain rfl := Res.ok.inj h
      exact item_enum no_kids
    · obtain rfl := Res.ok.inj h
      exact item_tuple no_kids
  · cases h
  · obtain ⟨base, hb, h⟩ := Res.bind_eq_ok.1 h
    obtain ⟨fs, hfs, h⟩ := Res.bind_eq_ok.1 h
    obtain ⟨o, ho, h⟩ := Res.bind_eq_ok.1 h
    cases o with
    | none => exact derivedWithoutContent_items (withBase_items hk hfs) h
    | some k =>
      obtain ⟨x, hx, h⟩ := Res.bind_eq_ok.1 h
      exact derivedWithContent_items (withBase_items hk hfs) (hk k (lastKid_member membersOnly_restriction ho).1
        (lastKid_member membersOnly_restriction ho).2 x hx).1 h
  · cases h

theorem parseList_items (hk : KidItems c) {e} (h : parseList c = .ok e) : Item e := by
  unfold parseList at h
  cases ht : c.node.attr "itemType".toList with
  | some t =>
    rw [ht] at h
    obtain rfl := Res.ok.inj h
    exact item_tuple no_kids
  | none =>
    rw [ht] at h
    obtain ⟨k, hk', h⟩ := Res.bind_eq_ok.1 h
    obtain ⟨x, hx, h⟩ := Res.bind_eq_ok.1 h
    obtain ⟨t, ht, h⟩ := Res.bind_eq_ok.1 h
    obtain rfl := Res.ok.inj h
    have hfind := unwrap_ok.1 hk'
    have hp := List.find?_some hfind
    rw [Bool.and_eq_true, decide_eq_true_iff] at hp
    have := (hk k (List.mem_of_find?_eq_some hfind) ⟨hp.1, by rw [hp.2]; decide⟩ x hx).1
    cases x with
    | «enum» g =>
      cases g
      obtain rfl := Res.ok.inj ht
      refine item_tuple ?_
      intro y hy
      obtain rfl := List.mem_singleton.1 hy
      exact ⟨this, trivial⟩
    | tupleStruct g =>
      obtain rfl := Res.ok.inj ht
      cases g
      exact item_tuple (item_inner this)
    | _ => cases ht

theorem unionSubtypes_items : ∀ {l : List (Res RsEntity)} {i : Nat} {es : List RsEntity},
    (∀ r ∈ l, ∀ e, r = .ok e → Item e) → unionSubtypes i l = .ok es → ∀ e ∈ es, Item e
  | [], i, es, _, h => by
    rw [unionSubtypes] at h
    obtain rfl := Res.ok.inj h
    exact no_kids
  | r :: l, i, es, hl, h => by
    rw [unionSubtypes] at h
    obtain ⟨x, hx, h⟩ := Res.bind_eq_ok.1 h
    obtain ⟨xs, hxs, h⟩ := Res.bind_eq_ok.1 h
    obtain rfl := Res.ok.inj h
    intro e he
    rcases List.mem_cons.1 he with rfl | he
    · exact item_setName (hl r List.mem_cons_self x hx)
    · exact unionSubtypes_items (fun r hr => hl r (List.mem_cons_of_mem _ hr)) hxs e he

theorem parseUnion_items (hk : KidItems c) {e} (h : parseUnion c = .ok e) : Item e := by
  obtain ⟨ks, hks, h⟩ := Res.bind_eq_ok.1 h
  obtain ⟨subs, hsubs, h⟩ := Res.bind_eq_ok.1 h
  obtain ⟨fs, hfs, h⟩ := Res.bind_eq_ok.1 h
  have hsubs := unionSubtypes_items (fun r hr e he => by
    obtain ⟨k, hk', rfl⟩ := List.mem_map.1 hr
    have hm := filter_member hks membersOnly_simple hk'
    obtain ⟨h1, h2⟩ := hk _ hm.1 hm.2 e he
    refine ⟨h1, h2 (.inl ?_)⟩
    obtain ⟨hk1, hk2⟩ := List.mem_filter.1 hk'
    obtain ⟨-, ht, -⟩ := typedKids_all hks k hk1
    rw [(of_decide_eq_true hk2).2] at ht
    rw [tag_of (s := "simpleType") ht]
    decide) hsubs
  dsimp only at h
  split at h
  · obtain rfl := Res.ok.inj h
    exact item_enum hsubs
  · obtain ⟨nm, hnm, h⟩ := Res.bind_eq_ok.1 h
    obtain rfl := Res.ok.inj h
    refine item_struct ?_
    intro f hf
    rcases List.mem_append.1 hf with hf | hf
    · exact attributesToFields_items hk hfs f hf
    · obtain rfl := List.mem_singleton.1 hf
      exact enumToField_items (item_enum hsubs).1

theorem parsePlace_items {U : UnicodeTable} (hP : Placed G) (hc : Around G G c)
    (hkids : c.kids.map Prod.fst = c.node.children) (hk : KidItems c) {e} (h : parsePlace U c = .ok e) :
    Deep Inside e ∧ (ItemPlace c.node c.parent → IsItem e) := by
  rw [parsePlace_branch] at h
  obtain ⟨t, ht, h⟩ := Res.bind_eq_ok.1 h
  have hi : Item e → Deep Inside e ∧ (ItemPlace c.node c.parent → IsItem e) := fun h => ⟨h.1, fun _ => h.2⟩
  have himp : Res.ok (parseImport c.node) = .ok e → Item e := fun h => by
    obtain rfl := Res.ok.inj h
    exact ⟨.mk ⟨fun _ e => (by cases e), no_kids⟩ no_kids, trivial⟩
  have hno : c.node.tag = "any".toList ∨ c.node.tag = "anyAttribute".toList → ¬ ItemPlace c.node c.parent := by
    rintro (ht | ht) (hp | ⟨-, hp | hp⟩)
    · exact hp (by rw [ht]; decide)
    · rw [ht] at hp; exact absurd hp (by decide)
    · rw [ht] at hp; exact absurd hp (by decide)
    · exact hp (by rw [ht]; decide)
    · rw [ht] at hp; exact absurd hp (by decide)
    · rw [ht] at hp; exact absurd hp (by decide)
  cases t with
  | all => exact hi (parseSequence_items hk h)
  | any =>
    obtain rfl := Res.ok.inj h
    exact ⟨inside_field no_kids, fun hp => absurd hp (hno (.inl (tag_of (s := "any") ht)))⟩
  | anyAttribute =>
    obtain rfl := Res.ok.inj h
    exact ⟨inside_field no_kids, fun hp => absurd hp (hno (.inr (tag_of (s := "anyAttribute") ht)))⟩
  | «attribute» => exact parseAttribute_items (tag_of (s := "attribute") ht) hk h
  | attributeGroup => exact hi (parseAttributeGroup_items hk h)
  | choice => exact hi (parseChoice_items h)
  | complexContent =>
    exact hi (parseContent_items hk (fun k => last_member hP hc hkids
      (by rw [tag_of (s := "complexContent") ht]; decide)) h)
  | complexType => exact hi (parseComplexType_items hk h)
  | element => exact parseElement_items (tag_of (s := "element") ht) hk h
  | «extension» x => exact hi (parseExtension_items hk h)
  | «import» => exact hi (himp h)
  | «include» => exact hi (himp h)
  | list => exact hi (parseList_items hk h)
  | restriction x => exact hi (parseRestriction_items hk h)
  | sequence => exact hi (parseSequence_items hk h)
  | simpleContent =>
    exact hi (parseContent_items hk (fun k => last_member hP hc hkids
      (by rw [tag_of (s := "simpleContent") ht]; decide)) h)
  | simpleType =>
    exact hi (parseSimpleType_items hk (fun k => last_member hP hc hkids
      (by rw [tag_of (s := "simpleType") ht]; decide)) h)
  | union => exact hi (parseUnion_items hk h)
  | _ => cases h

end

/-- What `parse_node` yields for an element which may be a definition is one, and so is everything inside. -/
theorem parseNode_items {G : Node → Prop} {U : UnicodeTable} (hP : Placed G) {n p : Node} {above : List Node}
    {e : RsEntity} (hn : G n) (hp : G p) (ha : ∀ a ∈ above, G a) (h : parseNode U n p above = .ok e) :
    Deep Inside e ∧ (ItemPlace n p → IsItem e) :=
  parse_ind (P := fun n p e => Deep Inside e ∧ (ItemPlace n p → IsItem e)) hP.hered (fun _ h => h)
    (fun _ hkids hc hk _ h => parsePlace_items hP hc hkids hk h) n p above e hn hp ha h

end Verif.Lemmas.Parse
