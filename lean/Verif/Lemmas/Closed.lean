import Verif.Lemmas.DocSimple
import Verif.Spec.Closed

/-! # Lemmas: what the entities refer to -/

namespace Verif.Lemmas.Parse

open Verif Verif.Model Verif.RoXml Verif.Spec

/-! ## Kinds of inline types -/

/-- A struct, wrapper or enum. -/
def TypeLike : RsEntity → Prop
  | .struct _ => True
  | .tupleStruct _ => True
  | .enum _ => True
  | _ => False

theorem typeLike_setName {e : RsEntity} (h : TypeLike e) (nm : Str) : TypeLike (e.setName nm) := by
  cases e with
  | struct s => cases s; trivial
  | tupleStruct s => cases s; trivial
  | «enum» s => cases s; trivial
  | _ => exact h.elim

theorem typeLike_setComment {e : RsEntity} (h : TypeLike e) (cm : Option Str) : TypeLike (e.setComment cm) := by
  cases e with
  | struct s => cases s; trivial
  | tupleStruct s => cases s; trivial
  | «enum» s => cases s; trivial
  | _ => exact h.elim

theorem pushArray_typeLike : ∀ t : TupleStruct, TypeLike (pushArray t)
  | .mk _ _ _ _ _ _ => trivial

theorem derived_typeLike {c : Place} {fs x e} (h : derivedWithContent c fs x = .ok e) : TypeLike e := by
  have hw : ∀ {fs}, derivedWithoutContent c fs = .ok e → TypeLike e := by
    intro fs h
    obtain ⟨_, -, h⟩ := Res.bind_eq_ok.1 h
    obtain rfl := Res.ok.inj h
    trivial
  cases x with
  | struct s => cases s; obtain rfl := Res.ok.inj h; trivial
  | _ => exact hw h

theorem restriction_typeLike {U : UnicodeTable} {c : Place} {e} (h : parseRestriction U c = .ok e) : TypeLike e := by
  obtain ⟨t, -, h⟩ := Res.bind_eq_ok.1 h
  split at h
  · obtain ⟨base, -, h⟩ := Res.bind_eq_ok.1 h
    obtain ⟨fs, -, h⟩ := Res.bind_eq_ok.1 h
    obtain ⟨sm, -, h⟩ := Res.bind_eq_ok.1 h
    split at h
    · obtain ⟨nm, -, h⟩ := Res.bind_eq_ok.1 h
      obtain rfl := Res.ok.inj h
      trivial
    · obtain rfl := Res.ok.inj h
      trivial
  · cases h
  · obtain ⟨base, -, h⟩ := Res.bind_eq_ok.1 h
    obtain ⟨fs, -, h⟩ := Res.bind_eq_ok.1 h
    obtain ⟨o, -, h⟩ := Res.bind_eq_ok.1 h
    cases o with
    | none => obtain ⟨_, -, h⟩ := Res.bind_eq_ok.1 h; obtain rfl := Res.ok.inj h; trivial
    | some k =>
      obtain ⟨x, -, h⟩ := Res.bind_eq_ok.1 h
      exact derived_typeLike h
  · cases h

theorem list_typeLike {c : Place} {e} (h : parseList c = .ok e) : TypeLike e := by
  unfold parseList at h
  cases ht : c.node.attr "itemType".toList with
  | some t =>
    rw [ht] at h
    obtain rfl := Res.ok.inj h
    exact pushArray_typeLike _
  | none =>
    rw [ht] at h
    obtain ⟨k, -, h⟩ := Res.bind_eq_ok.1 h
    obtain ⟨x, -, h⟩ := Res.bind_eq_ok.1 h
    obtain ⟨t, -, h⟩ := Res.bind_eq_ok.1 h
    obtain rfl := Res.ok.inj h
    exact pushArray_typeLike _

theorem union_typeLike {c : Place} {e} (h : parseUnion c = .ok e) : TypeLike e := by
  obtain ⟨ks, -, h⟩ := Res.bind_eq_ok.1 h
  obtain ⟨subs, -, h⟩ := Res.bind_eq_ok.1 h
  obtain ⟨fs, -, h⟩ := Res.bind_eq_ok.1 h
  dsimp only at h
  split at h
  · obtain rfl := Res.ok.inj h; trivial
  · obtain ⟨nm, -, h⟩ := Res.bind_eq_ok.1 h
    obtain rfl := Res.ok.inj h
    trivial

/-- Types given in place become structs, wrappers or enums. -/
theorem inline_typeLike {root : Node} (hg : Grammatical root) {tags : List String} {x : RsEntity}
    (ht : ∀ s ∈ tags, s ∈ ["simpleType", "complexType"]) (h : Inline (PartOf root) tags x) : TypeLike x := by
  obtain ⟨U, k, p, above, hk, htag, h⟩ := h
  obtain ⟨s, hs, hks⟩ := List.mem_map.1 htag
  have hs := ht s hs
  simp only [List.mem_cons, List.not_mem_nil, or_false] at hs
  rcases hs with rfl | rfl
  · rw [parseNode_tag (s := "simpleType") (t := .simpleType) (by decide) hks.symm] at h
    have h : parseSimpleType (placeOf U k p above) = .ok x := h
    obtain ⟨pt, -, h⟩ := Res.bind_eq_ok.1 h
    split at h
    · cases h
    · obtain ⟨o, ho, h⟩ := Res.bind_eq_ok.1 h
      obtain ⟨k', hk', h⟩ := Res.bind_eq_ok.1 h
      rw [unwrap_ok.1 hk'] at ho
      obtain ⟨y, hy, h⟩ := Res.bind_eq_ok.1 h
      obtain rfl := Res.ok.inj h
      have hm := lastKid_member membersOnly_isMember ho
      obtain ⟨c, hc, rfl⟩ := List.mem_map.1 hm.1
      have hcm : c ∈ members k := mem_members.2 ⟨hc, hm.2⟩
      have hrow : c.tag = "restriction".toList ∨ c.tag = "list".toList ∨ c.tag = "union".toList := by
        simpa using hg.rows ("simpleType", ["restriction", "list", "union"]) (by decide) k c hk hks.symm hcm
      refine typeLike_setComment ?_ _
      have hyl : TypeLike y := by
        rcases hrow with hc | hc | hc
        · have hy : parseNode U c k (p :: above) = .ok y := hy
          have hkd : KindOf (some k.tag) c (.restriction .simpleType) :=
            .restriction (s := "simpleType") hc (by decide) (congrArg some hks.symm)
          rw [parseNode_eq, parsePlace_branch] at hy
          obtain ⟨t, ht, hy⟩ := Res.bind_eq_ok.1 hy
          have ht : xsdType (some k.tag) c = .ok t := ht
          rw [kind_xsdType hkd] at ht
          obtain rfl := Res.ok.inj ht
          exact restriction_typeLike hy
        · rw [show (c, parseNode U c k (p :: above)).2 = parseNode U c k (p :: above) from rfl,
            parseNode_tag (s := "list") (t := .list) (by decide) hc] at hy
          exact list_typeLike hy
        · rw [show (c, parseNode U c k (p :: above)).2 = parseNode U c k (p :: above) from rfl,
            parseNode_tag (s := "union") (t := .union) (by decide) hc] at hy
          exact union_typeLike hy
      show TypeLike (setNameIf (attrName k) y)
      cases attrName k with
      | none => exact hyl
      | some nm => exact typeLike_setName hyl nm
  · rw [parseNode_tag (s := "complexType") (t := .complexType) (by decide) hks.symm] at h
    have h : parseComplexType (placeOf U k p above) = .ok x := h
    obtain ⟨nm, -, h⟩ := Res.bind_eq_ok.1 h
    obtain ⟨fs, -, h⟩ := Res.bind_eq_ok.1 h
    obtain ⟨o, ho, h⟩ := Res.bind_eq_ok.1 h
    have hplain : ∀ {o : Res RsEntity}, ((attributeGroupsToAliases (placeOf U k p above)).bind fun ag =>
        .ok (.struct (.mk nm (getDocumentation (placeOf U k p above).node) fs ag []))) = .ok x → TypeLike x := by
      intro _ h
      obtain ⟨_, -, h⟩ := Res.bind_eq_ok.1 h
      obtain rfl := Res.ok.inj h
      trivial
    cases o with
    | none => exact hplain (o := .err) h
    | some k' =>
      dsimp only at h
      split at h
      · exact hplain (o := .err) h
      · obtain ⟨y, hy, h⟩ := Res.bind_eq_ok.1 h
        obtain ⟨-, ho⟩ := lastKid_ok.1 ho
        rw [contentTags_eq] at ho
        obtain ⟨c, hc, rfl⟩ := Option.map_eq_some_iff.1 ho.symm
        obtain ⟨hcm, hct⟩ := mem_contentTags hc
        rcases content_kind hg (.child hk hcm) hct hy with ⟨-, cs, rfl⟩ | ⟨-, s, rfl⟩
        · obtain ⟨_, -, h⟩ := Res.bind_eq_ok.1 h
          obtain rfl := Res.ok.inj h
          trivial
        · cases s
          obtain rfl := Res.ok.inj h
          trivial

/-! ## What is referred to -/

/-- The type is a built-in one or one which is defined by a declaration of the schema. -/
def Global (root : Node) (uri t : Str) : Prop :=
  t = "String".toList ∨ RefersTo root uri t ∨
  ∃ c ∈ globals root, ∃ v, c.tag = "complexType".toList ∧ c.attr "name".toList = some v ∧ ChoiceContent c ∧
    t = v ++ "Choice".toList

/-- The type is there, or it is one of the types inside. -/
def closedPreds (root : Node) (uri : Str) : Preds where
  R _ t ss := (ss = [] ∧ Global root uri t) ∨
    ∃ x v, ss = [x] ∧ x.name = t ∧ TypeLike x ∧ Lettered v ∧ (t = v ++ "Type".toList ∨ t = v ++ "Choice".toList)
  N _ := True
  T := Global root uri
  C _ := True
  F _ := True
  J _ := True
  L _ := True
  W t ss := Global root uri t ∨ ∃ x ∈ ss, x.name = t ∧ TypeLike x
  A _ := True
  O := Lettered

theorem choice_content {root : Node} (hg : Grammatical root) {G H : Node → Prop} (hG : ∀ n, G n → PartOf root n)
    {c : Place} {k : Node × Res RsEntity} {e : REnum} (hc : Around G H c)
    (hk : c.lastKid isComplexContent = .ok (some k)) (hne : (k.1.children.filter Node.isElement).length ≠ 0)
    (he : k.2 = .ok (.enum e)) : ChoiceContent c.node ∧ e.subtypes = [] := by
  obtain ⟨U, p, above, hp⟩ := hc.place
  have hn := hG _ hc.node
  generalize hcn : c.node = n at *
  subst hp
  obtain ⟨-, ho⟩ := lastKid_ok.1 hk
  rw [contentTags_eq] at ho
  obtain ⟨d, hd, rfl⟩ := Option.map_eq_some_iff.1 ho.symm
  obtain ⟨hdm, hdt⟩ := mem_contentTags hd
  rcases content_kind hg (.child hn hdm) hdt he with ⟨ht, cs, hx⟩ | ⟨-, s, hx⟩
  · cases hx
    exact ⟨⟨d, hd, ht, fun h0 => hne (by rw [show d.children.filter Node.isElement = [] from h0]; rfl)⟩, rfl⟩
  · cases hx

theorem closed_texts {root : Node} {uri : Str} (hg : Grammatical root) (hs : SelfContained root uri) {G H : Node → Prop}
    (hG : ∀ n, G n → PartOf root n) (hH : ∀ n, H n → PartOf root n)
    (hch : ∀ {c : Place} {v : Str}, Around G H c → c.node.tag = "complexType".toList → ChoiceContent c.node →
      complexTypeName c = .ok v → Global root uri (v ++ "Choice".toList)) : Texts G H (closedPreds root uri) where
  owner h1 h2 := hs.names _ _ (hH _ h1) h2
  name h1 h2 := hs.names _ _ (hG _ h1) h2
  plain _ := trivial
  owners v hv := by
    simp only [List.map_cons, List.map_nil, List.mem_cons, List.not_mem_nil, or_false] at hv
    rcases hv with rfl | rfl | rfl
    · exact ⟨⟨'U', rfl, .inl rfl⟩, by decide⟩
    · exact ⟨⟨'S', rfl, .inl rfl⟩, by decide⟩
    · exact ⟨⟨'U', rfl, .inl rfl⟩, by decide⟩
  ref _ _ := trivial
  refType h1 h2 h3 := .inr (.inl (hs.refs _ _ (hG _ h1) h2 h3))
  type h1 h2 := .inr (.inl (hs.types _ "type" _ (hG _ h1) (by decide) h2))
  base h1 h2 := .inr (.inl (hs.types _ "base" _ (hG _ h1) (by decide) h2))
  itemType h1 h2 := .inr (.inl (hs.types _ "itemType" _ (hG _ h1) (by decide) h2))
  memberTypes hn hv hw hne := ⟨trivial, .inr (.inl (hs.memberTypes _ _ _ _ (hG _ hn) hv (spaceSeparated_iff.2 rfl)
    (List.mem_filter.2 ⟨hw, decide_eq_true hne⟩)))⟩
  facet _ _ := trivial
  enumeration _ _ := trivial
  namespace' _ := trivial
  location _ := trivial
  string := .inl rfl
  typeAlias _ := trivial
  nameAlias _ := trivial
  name_case _ := trivial
  name_import _ := trivial
  suffix _ := ⟨trivial, trivial, trivial⟩
  constants _ _ := trivial
  field _ h := .inl ⟨rfl, h⟩
  marker h1 h2 := .inl ⟨rfl, .inr (.inl (hs.types _ "base" _ (hG _ h1) (by decide) h2))⟩
  rename _ h := h
  retype h hss := by
    rcases h with ⟨rfl, h⟩ | ⟨x, v, rfl, h1, h2, h3⟩
    · cases hss
      exact .inl ⟨rfl, h⟩
    · cases hss with
      | cons h4 h5 =>
        cases h5
        refine .inr ⟨_, v, rfl, ?_, ?_, h3⟩
        · cases h4 with
          | refl => exact h1
          | struct h4 => exact h4.symm.trans h1
        · cases h4 with
          | refl => exact h2
          | struct h4 => trivial
  inlineField h1 h2 := by
    obtain ⟨U, k, p, above, hk, ht, h⟩ := h2
    exact .inr ⟨_, _, rfl, setName_name _ _,
      typeLike_setName (inline_typeLike hg (fun s hs => hs) ⟨U, k, p, above, hG _ hk, ht, h⟩) _, h1, .inl rfl⟩
  enumField h := .inr ⟨_, _, rfl, rfl, trivial, h, .inr rfl⟩
  choice hc ht hn hk hne _ he := by
    obtain ⟨h1, h2⟩ := choice_content hg hG hc hk hne he
    refine ⟨.inl ⟨rfl, hch hc ht h1 hn⟩, fun t ss h => ?_⟩
    rw [h2] at h
    rcases h with h | ⟨x, hx, -⟩
    · exact .inl h
    · cases hx
  wrap h := .inl h
  wrapMore h := by
    rcases h with h | ⟨x, hx, -⟩
    · exact .inl h
    · cases hx
  wrapInner h1 _ h2 := by
    obtain ⟨U, k, p, above, hk, ht, h⟩ := h1
    exact .inr ⟨_, h2, setName_name _ _, typeLike_setName
      (inline_typeLike hg (fun s hs => by simpa using .inl (by simpa using hs)) ⟨U, k, p, above, hG _ hk, ht, h⟩) _⟩
  kinds _ := ⟨trivial, trivial⟩
  union _ _ _ := trivial
  lone _ := fun _ h => absurd h List.not_mem_nil
  items _ _ _ := fun _ h => List.mem_singleton.1 h
  inlineEnum _ _ _ _ _ := fun _ h => List.mem_singleton.1 h
  inlineItems _ _ _ _ _ h := by
    intro m hm
    rcases List.mem_append.1 hm with hm | hm
    · exact h m hm
    · exact List.mem_singleton.1 hm
  numbered _ := ⟨trivial, trivial⟩

theorem partOf_trans {a b c : Node} (h1 : PartOf a b) (h2 : PartOf b c) : PartOf a c := by
  induction h2 with
  | root => exact h1
  | child _ hc ih => exact .child ih hc

/-- The entities of a file refer to what is there. -/
theorem parseFile_closed {U : UnicodeTable} {root : Node} {uri : Str} {g : RsFile} (hg : Grammatical root)
    (hs : SelfContained root uri) (h : parseFile U root = .ok g) :
    ∀ e ∈ g.types, Deep (closedPreds root uri).entity e := by
  let G : Node → Prop := fun n => ∃ c ∈ members root, ∃ m ∈ members c, PartOf m n
  have hGp : ∀ n, G n → PartOf root n := by
    rintro n ⟨c, hc, m, hm, h⟩
    exact partOf_trans (.child (.child .root hc) hm) h
  have inner : Texts G (PartOf root) (closedPreds root uri) := by
    refine closed_texts hg hs hGp (fun _ h => h) ?_
    rintro c v hc ht hcc -
    obtain ⟨c', hc', m, hm, hp⟩ := hc.node
    exact absurd hcc (hs.choices c' hc' m hm _ hp ht)
  have hher : Hereditary G := by
    rintro n ⟨c, hc, m, hm, h⟩ d hd
    exact ⟨c, hc, m, hm, .child h hd⟩
  refine (parseFile_deep (fieldwise_texts _ inner.retype) ?_ h).1
  intro c hc e he
  have hroot : root.tag = "schema".toList := hg.schema
  have top : Texts (PartOf c) (· = root) (closedPreds root uri) := by
    refine closed_texts hg hs (fun n h => partOf_trans (.child .root hc) h) (fun n h => h ▸ .root) ?_
    intro d v hd ht hcc hv
    have : d.node = c ∨ ∃ m ∈ members c, PartOf m d.node := by
      have : ∀ n, PartOf c n → n = c ∨ ∃ m ∈ members c, PartOf m n := by
        intro n hn
        induction hn with
        | root => exact .inl rfl
        | child _ hx ih =>
          rcases ih with rfl | ⟨m, hm, ih⟩
          · exact .inr ⟨_, hx, .root⟩
          · exact .inr ⟨m, hm, .child ih hx⟩
      exact this _ hd.node
    rcases this with hdc | ⟨m, hm, hp⟩
    · obtain ⟨pt, hpt, hv⟩ := Res.bind_eq_ok.1 hv
      have hpt : xsdType (d.above.head?.map Node.tag) d.parent = .ok pt := hpt
      rw [hd.parent, (type_iff (s := "schema") (t := .schema) (by decide)).2 hroot] at hpt
      rw [if_pos (Res.ok.inj hpt).symm] at hv
      rw [hdc] at ht hcc hv
      refine .inr (.inr ⟨c, List.mem_filter.2 ⟨hc, ?_⟩, v, ht, unwrap_ok.1 hv, hcc, rfl⟩)
      rw [ht]
      decide
    · exact absurd hcc (hs.choices c hc m hm _ hp ht)
  exact parseNode_top inner top hher hGp .root rfl (fun a ha => by cases ha) (fun m hm => .child .root hm)
    (.child .root hc) .root (fun a ha => by cases ha) (fun m hm => ⟨c, hc, m, hm, .root⟩) he

/-! ## Items inside items -/

/-- `x` is inside something with the origins `os`, in the module `q`: so are its items, and what holds deeply of all of the
entities holds deeply of it. -/
def Embedded (mn : Str → Str) (doc : Option Str → Bool) (es : List RsEntity) (os : List (List Str × Origin)) (q : List Str)
    (x : RsEntity) : Prop :=
  (∀ P : RsEntity → Prop, (∀ e ∈ es, Deep P e) → Deep P x) ∧ ∀ y ∈ originsOf mn doc x, (q ++ y.1, y.2) ∈ os

theorem Embedded.mono {mn : Str → Str} {doc : Option Str → Bool} {es es' : List RsEntity} {os os' : List (List Str × Origin)}
    {q : List Str} {x : RsEntity} (h : Embedded mn doc es os q x)
    (h1 : ∀ P : RsEntity → Prop, (∀ e ∈ es', Deep P e) → ∀ e ∈ es, Deep P e) (h2 : ∀ o ∈ os, o ∈ os') :
    Embedded mn doc es' os' q x :=
  ⟨fun P hP => h.1 P (h1 P hP), fun y hy => h2 _ (h.2 y hy)⟩

theorem Embedded.self {mn : Str → Str} {doc : Option Str → Bool} {e : RsEntity} : Embedded mn doc [e] (originsOf mn doc e) [] e :=
  ⟨fun _ h => h e List.mem_cons_self, fun _ hy => hy⟩

mutual
theorem origins_embedded (mn : Str → Str) (doc : Option Str → Bool) : ∀ (e : RsEntity) (q : List Str) (x : RsEntity),
    (q, .entity x) ∈ originsOf mn doc e → Embedded mn doc [e] (originsOf mn doc e) q x
  | .struct (.mk n c fs ag ss), q, x, h => by
    have h0 := h
    rw [originsOf] at h
    rcases List.mem_cons.1 h with h | h
    · cases h; exact .self
    rcases List.mem_cons.1 h with h | h
    · cases h
    split at h
    · rename_i hi
      rcases List.mem_cons.1 h with h | h
      · cases h
      obtain ⟨⟨q', o⟩, hy, he⟩ := List.mem_map.1 h
      cases he
      have key : Embedded mn doc (ss ++ fs.flatMap StructField.subtypes)
          (originsList mn doc ss ++ originsFields mn doc fs) q' x := by
        rcases List.mem_append.1 hy with hy | hy
        · exact (origins_embeddedList mn doc ss q' x hy).mono (fun P h e he => h e (List.mem_append_left _ he))
            (fun o ho => List.mem_append_left _ ho)
        · exact (origins_embeddedFields mn doc fs q' x hy).mono (fun P h e he => h e (List.mem_append_right _ he))
            (fun o ho => List.mem_append_right _ ho)
      refine ⟨fun P hP => key.1 P fun e he => (hP _ List.mem_cons_self).inside e he, fun y hy => ?_⟩
      rw [originsOf, if_pos hi]
      exact List.mem_cons_of_mem _ (List.mem_cons_of_mem _ (List.mem_cons_of_mem _
        (List.mem_map.2 ⟨(q' ++ y.1, y.2), key.2 y hy, rfl⟩)))
    · cases h
  | .tupleStruct (.mk n c t ss ms fs), q, x, h => by
    rw [originsOf] at h
    rcases List.mem_cons.1 h with h | h
    · cases h; exact .self
    rcases List.mem_append.1 h with h | h
    · refine (origins_embeddedList mn doc ss q x h).mono (fun P hP e he => (hP _ List.mem_cons_self).inside e he) ?_
      intro o ho
      rw [originsOf]
      exact List.mem_cons_of_mem _ (List.mem_append_left _ ho)
    · cases List.mem_singleton.1 h
  | .enum (.mk n cs c t ss src), q, x, h => by
    rw [originsOf] at h
    rcases List.mem_cons.1 h with h | h
    · cases h; exact .self
    rcases List.mem_cons.1 h with h | h
    · cases h
    rcases List.mem_cons.1 h with h | h
    · cases h
    refine (origins_embeddedList mn doc ss q x h).mono (fun P hP e he => (hP _ List.mem_cons_self).inside e he) ?_
    intro o ho
    rw [originsOf]
    exact List.mem_cons_of_mem _ (List.mem_cons_of_mem _ (List.mem_cons_of_mem _ ho))
  | .alias (.mk n o c ss), q, x, h => by
    rw [originsOf] at h
    split at h
    · cases List.mem_singleton.1 h; exact .self
    · cases h
  | .structField f, q, x, h => by rw [originsOf] at h <;> cases h
  | .enumCase c, q, x, h => by rw [originsOf] at h <;> cases h
  | .import i, q, x, h => by rw [originsOf] at h <;> cases h
theorem origins_embeddedList (mn : Str → Str) (doc : Option Str → Bool) : ∀ (es : List RsEntity) (q : List Str) (x : RsEntity),
    (q, .entity x) ∈ originsList mn doc es → Embedded mn doc es (originsList mn doc es) q x
  | [], q, x, h => by rw [originsList] at h; cases h
  | e :: es, q, x, h => by
    rw [originsList] at h ⊢
    rcases List.mem_append.1 h with h | h
    · exact (origins_embedded mn doc e q x h).mono
        (fun P h e' he => by obtain rfl := List.mem_singleton.1 he; exact h _ List.mem_cons_self)
        (fun o ho => List.mem_append_left _ ho)
    · exact (origins_embeddedList mn doc es q x h).mono (fun P h e' he => h e' (List.mem_cons_of_mem _ he))
        (fun o ho => List.mem_append_right _ ho)
theorem origins_embeddedFields (mn : Str → Str) (doc : Option Str → Bool) : ∀ (fs : List StructField) (q : List Str)
    (x : RsEntity), (q, .entity x) ∈ originsFields mn doc fs →
    Embedded mn doc (fs.flatMap StructField.subtypes) (originsFields mn doc fs) q x
  | [], q, x, h => by rw [originsFields] at h; cases h
  | .mk a b c ss d e :: fs, q, x, h => by
    rw [originsFields] at h ⊢
    rcases List.mem_append.1 h with h | h
    · exact (origins_embeddedList mn doc ss q x h).mono
        (fun P h e' he => h e' (List.mem_flatMap.2 ⟨_, List.mem_cons_self, he⟩)) (fun o ho => List.mem_append_left _ ho)
    · exact (origins_embeddedFields mn doc fs q x h).mono (fun P h e' he => by
          obtain ⟨f, hf, he⟩ := List.mem_flatMap.1 he
          exact h e' (List.mem_flatMap.2 ⟨f, List.mem_cons_of_mem _ hf, he⟩)) (fun o ho => List.mem_append_right _ ho)
end

theorem origin_self {mn : Str → Str} {doc : Option Str → Bool} : ∀ {x : RsEntity}, TypeLike x →
    ([], .entity x) ∈ originsOf mn doc x
  | .struct (.mk ..), _ => by rw [originsOf]; exact List.mem_cons_self
  | .tupleStruct (.mk ..), _ => by rw [originsOf]; exact List.mem_cons_self
  | .enum (.mk ..), _ => by rw [originsOf]; exact List.mem_cons_self
  | .structField _, h => h.elim
  | .enumCase _, h => h.elim
  | .alias _, h => h.elim
  | .import _, h => h.elim

theorem mem_originsFields {mn : Str → Str} {doc : Option Str → Bool} {f : StructField} {e : RsEntity} :
    ∀ {fs : List StructField}, f ∈ fs → e ∈ f.subtypes → ∀ x ∈ originsOf mn doc e, x ∈ originsFields mn doc fs
  | .mk _ _ _ ss _ _ :: fs, h, he, x, hx => by
    rw [originsFields]
    rcases List.mem_cons.1 h with rfl | h
    · exact List.mem_append_left _ (mem_origins he x hx)
    · exact List.mem_append_right _ (mem_originsFields h he x hx)

/-- What has a name in the code. -/
def Named : RsEntity → Prop
  | .alias _ => True
  | e => TypeLike e

theorem named_of : ∀ {x : RsEntity}, TypeLike x → Named x
  | .struct _, h => h
  | .tupleStruct _, h => h
  | .enum _, h => h
  | .structField _, h => h
  | .enumCase _, h => h
  | .alias _, _ => trivial
  | .import _, h => h

mutual
theorem entTop_origin (mn : Str → Str) (doc : Option Str → Bool) : ∀ (e : RsEntity) (k : DefKind) (nm : Str),
    (k, nm) ∈ entTop doc e → ∃ x, ([], .entity x) ∈ originsOf mn doc e ∧ x.name = nm ∧ Named x
  | .struct (.mk n c fs ag ss), k, nm, h => by
    rw [entTop] at h
    cases List.mem_singleton.1 h
    exact ⟨_, origin_self trivial, rfl, trivial⟩
  | .tupleStruct (.mk n c t ss ms fs), k, nm, h => by
    rw [entTop] at h
    rcases List.mem_cons.1 h with h | h
    · cases h
      exact ⟨_, origin_self trivial, rfl, trivial⟩
    · obtain ⟨x, hx, h⟩ := entTops_origin mn doc ss k nm h
      exact ⟨x, by rw [originsOf]; exact List.mem_cons_of_mem _ (List.mem_append_left _ hx), h⟩
  | .enum (.mk n cs c t ss src), k, nm, h => by
    rw [entTop] at h
    rcases List.mem_cons.1 h with h | h
    · cases h
      exact ⟨_, origin_self trivial, rfl, trivial⟩
    · obtain ⟨x, hx, h⟩ := entTops_origin mn doc ss k nm h
      exact ⟨x, by rw [originsOf]; exact List.mem_cons_of_mem _ (List.mem_cons_of_mem _ (List.mem_cons_of_mem _ hx)), h⟩
  | .alias (.mk n o c ss), k, nm, h => by
    rw [entTop] at h
    split at h
    · rename_i hd
      cases List.mem_singleton.1 h
      exact ⟨.alias (.mk n o c ss), by rw [originsOf, if_pos hd]; exact List.mem_cons_self, rfl, trivial⟩
    · cases h
  | .structField f, k, nm, h => by rw [entTop] at h <;> cases h
  | .enumCase c, k, nm, h => by rw [entTop] at h <;> cases h
  | .import i, k, nm, h => by rw [entTop] at h <;> cases h
theorem entTops_origin (mn : Str → Str) (doc : Option Str → Bool) : ∀ (es : List RsEntity) (k : DefKind) (nm : Str),
    (k, nm) ∈ entTops doc es → ∃ x, ([], .entity x) ∈ originsList mn doc es ∧ x.name = nm ∧ Named x
  | [], k, nm, h => by rw [entTops] at h; cases h
  | e :: es, k, nm, h => by
    rw [entTops] at h
    rw [originsList]
    rcases List.mem_append.1 h with h | h
    · obtain ⟨x, hx, h⟩ := entTop_origin mn doc e k nm h
      exact ⟨x, List.mem_append_left _ hx, h⟩
    · obtain ⟨x, hx, h⟩ := entTops_origin mn doc es k nm h
      exact ⟨x, List.mem_append_right _ hx, h⟩
end

end Verif.Lemmas.Parse
