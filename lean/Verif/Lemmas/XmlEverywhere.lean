import Verif.Lemmas.XmlMembers
import Verif.Lemmas.Denote
import Verif.Lemmas.ExtendInv

/-! # Where the fields of all structs come from -/

namespace Verif.Lemmas.Xml

open Verif Verif.Model Verif.Spec Verif.RoXml Verif.Lemmas.Parse

theorem is_two {e : Node} {a b : String} : Is e [a, b] ↔ e.tag = a.toList ∨ e.tag = b.toList := by
  simp [Is]

/-- All fields and variants come from the schema. -/
def Sprung (root : Node) : RsEntity → Prop
  | .struct s => s.subtypes = [] ∧ ∀ f ∈ s.fields, ∃ e, PartOf root e ∧ FieldFrom root f e
  | .structField f => ∃ e, PartOf root e ∧ FieldFrom root f e
  | .enum (.mk _ cs _ _ _ src) => src ≠ .union → ∀ c ∈ cs, ∃ e, PartOf root e ∧ CaseFrom src c e
  | .alias a => a.subtypes = []
  | _ => True

theorem sprung_fieldwise (root : Node) : Fieldwise (Sprung root) where
  noSub h := h.1
  field h f hf := h.2 f hf
  struct h hf := ⟨rfl, hf⟩
  retype h hs := by
    obtain ⟨e, he, h⟩ := h
    refine ⟨e, he, ?_⟩
    cases h with
    | element h0 h1 h2 h3 => exact .element h0 h1 h2 h3
    | choice h0 h1 h2 h3 h4 => exact .choice h0 h1 h2 h3 h4
    | «attribute» h1 h2 h3 => exact .attribute h1 h2 h3
    | content h1 h2 => exact .content h1 h2
    | marker h1 h2 => exact .marker h1 h2
    | hidden h1 => exact .hidden h1

/-- All that is said about an entity of the parser. -/
structure Good (root : Node) (e : RsEntity) : Prop where
  deep : Deep (Sprung root) e
  hidden : ∀ f, e = .structField f → .empty ∈ f.typeModifiers

theorem good_hidden {root : Node} {f f' : StructField} (h : Good root (.structField f)) (hm : f'.typeModifiers = f.typeModifiers)
    (hs : f'.subtypes = f.subtypes) : Good root (.structField f') := by
  have := h.hidden _ rfl
  refine ⟨.mk ⟨root, .root, .hidden (hm ▸ this)⟩ fun x hx => h.deep.inside x ?_, fun g hg => ?_⟩
  · show x ∈ f.subtypes
    rw [← hs]
    exact hx
  · cases hg; exact hm ▸ this

theorem good_renamed {root : Node} {nm : Str} {x e : RsEntity} (hx : Renamed nm x e) (h : Good root x) : Good root e := by
  cases hx with
  | struct => exact ⟨.mk h.deep.here h.deep.inside, fun _ k => nomatch k⟩
  | tupleStruct => exact ⟨.mk trivial h.deep.inside, fun _ k => nomatch k⟩
  | enum => exact ⟨.mk h.deep.here h.deep.inside, fun _ k => nomatch k⟩
  | enumCase => exact ⟨.mk trivial h.deep.inside, fun _ k => nomatch k⟩
  | «alias» => exact ⟨.mk h.deep.here h.deep.inside, fun _ k => nomatch k⟩
  | structField => exact good_hidden h rfl rfl
  | «import» => exact ⟨.mk trivial h.deep.inside, fun _ k => nomatch k⟩

theorem good_redocumented {root : Node} {d : Option Str} {x e : RsEntity} (hx : Redocumented d x e) (h : Good root x) :
    Good root e := by
  cases hx with
  | struct => exact ⟨.mk h.deep.here h.deep.inside, fun _ k => nomatch k⟩
  | tupleStruct => exact ⟨.mk trivial h.deep.inside, fun _ k => nomatch k⟩
  | enum => exact ⟨.mk h.deep.here h.deep.inside, fun _ k => nomatch k⟩
  | enumCase => exact ⟨.mk trivial h.deep.inside, fun _ k => nomatch k⟩
  | «alias» => exact ⟨.mk h.deep.here h.deep.inside, fun _ k => nomatch k⟩
  | structField => exact good_hidden h rfl rfl
  | «import» => exact ⟨.mk trivial h.deep.inside, fun _ k => nomatch k⟩

theorem owner_in {root : Node} : ∀ {as : List Node} {o : Str}, OwnerName as o → (∀ a ∈ as, PartOf root a) → OwnerIn root o
  | _, _, .root, _ => .inr (by decide)
  | _, _, .schema _, _ => .inr (by decide)
  | _, _, .named _ h, hp => .inl ⟨_, hp _ List.mem_cons_self, h⟩
  | _, _, .up _ _ h, hp => owner_in h fun a ha => hp a (List.mem_cons_of_mem _ ha)

theorem part_withTags {root n c : Node} {l : List String} (hn : PartOf root n)
    (hl : ∀ s ∈ l, s.toList ≠ [] ∧ s.toList ≠ "annotation".toList) (hc : c ∈ withTags n l) : PartOf root c := by
  obtain ⟨h1, h2⟩ := List.mem_filter.1 hc
  obtain ⟨s, hs, ht⟩ := List.any_eq_true.1 h2
  exact .child hn (member_of_tag h1 (of_decide_eq_true ht) (hl s hs).1 (hl s hs).2)

theorem attr_from {root n : Node} {fs : List StructField} (hn : PartOf root n) (h : AttrFields n fs) :
    ∀ f ∈ fs, f.subtypes = [] ∧ ∃ e, PartOf root e ∧ FieldFrom root f e := by
  intro f hf
  obtain ⟨c, hc, hm⟩ := forall₂_left h f hf
  have hcp := part_withTags hn (by decide) hc
  cases hm with
  | «attribute» ht h =>
    cases h with
    | named h => exact ⟨rfl, c, hcp, .attribute (is_one.2 ht) rfl (.inl h)⟩
    | ref h1 h2 => exact ⟨rfl, c, hcp, .attribute (is_one.2 ht) rfl (.inr ⟨h1, h2⟩)⟩
  | any ht => exact ⟨rfl, c, hcp, .hidden List.mem_cons_self⟩

theorem boxed_mem {o t : Str} {ms ms' : List TypeModifier} {x : TypeModifier} (h : Boxed o t ms ms') (hx : x ∈ ms) : x ∈ ms' := by
  cases h with
  | yes => exact List.mem_append_left _ hx
  | no => exact hx

/-- The fields are fine. -/
def FieldsOk (root : Node) (fs : List StructField) : Prop :=
  ∀ f ∈ fs, (∃ e, PartOf root e ∧ FieldFrom root f e) ∧ ∀ x ∈ f.subtypes, Deep (Sprung root) x

theorem attrs_ok {root n : Node} {fs : List StructField} (hn : PartOf root n) (h : AttrFields n fs) : FieldsOk root fs :=
  fun f hf => ⟨(attr_from hn h f hf).2, fun x hx => by rw [(attr_from hn h f hf).1] at hx; cases hx⟩

theorem FieldsOk.append {root : Node} {a b : List StructField} (h1 : FieldsOk root a) (h2 : FieldsOk root b) : FieldsOk root (a ++ b) :=
  fun f hf => (List.mem_append.1 hf).elim (h1 f) (h2 f)

theorem marker_ok {root n : Node} {base : Str} (hn : PartOf root n) (ht : Is n ["extension", "restriction"]) :
    FieldsOk root [baseMarker n base] := by
  intro f hf
  obtain rfl := List.mem_singleton.1 hf
  exact ⟨⟨n, hn, .marker ht rfl⟩, fun x hx => nomatch hx⟩

theorem FieldsOk.struct {root : Node} {fs : List StructField} (h : FieldsOk root fs) {n : Str} {c : Option Str} {ag : List RAlias} :
    Deep (Sprung root) (.struct (.mk n c fs ag [])) := by
  refine .mk ⟨rfl, fun f hf => (h f hf).1⟩ fun x hx => ?_
  obtain ⟨f, hf, hx⟩ := List.mem_flatMap.1 (show x ∈ fs.flatMap StructField.subtypes from hx)
  exact (h f hf).2 x hx

theorem struct_ok {root : Node} {n : Str} {c : Option Str} {fs : List StructField} {ag : List RAlias} {sub : List RsEntity}
    (h : Deep (Sprung root) (.struct (.mk n c fs ag sub))) : sub = [] ∧ FieldsOk root fs :=
  ⟨h.here.1, fun f hf => ⟨h.here.2 f hf, fun x hx => h.inside x (List.mem_append_right _ (List.mem_flatMap.2 ⟨f, hf, hx⟩))⟩⟩

theorem cases_ok {root c : Node} {cs : List EnumCase} (hc : PartOf root c)
    (h : List.Forall₂ ChoiceCase (withTags c ["element"]) cs) : ∀ k ∈ cs, ∃ e, PartOf root e ∧ CaseFrom .choice k e := by
  intro k hk
  obtain ⟨e, he, hm⟩ := forall₂_left h k hk
  exact ⟨e, part_withTags hc (by decide) he, .element rfl (is_one.2 (mem_withTags1.1 he).2) hm⟩

theorem members_ok {root n : Node} {o : Str} {fs : List StructField} {R : Node → Node → RsEntity → Prop} (hn : PartOf root n)
    (hs : Is n ["sequence", "all"]) (ho : OwnerIn root o)
    (h : List.Forall₂ (fun c f => MemberField (fun t e => R c t e) o c f) (members n) fs)
    (hR : ∀ c t e, PartOf root c → PartOf root t → R c t e → Good root e) : FieldsOk root fs := by
  intro f hf
  obtain ⟨c, hc, hm⟩ := forall₂_left h f hf
  have hcp : PartOf root c := .child hn hc
  have hq : InSequence root c := ⟨n, hn, hs, hc⟩
  cases hm with
  | typed h1 h2 => exact ⟨⟨c, hcp, .element hq (is_one.2 h1) rfl (.inl h2)⟩, fun x hx => nomatch hx⟩
  | ref h1 h2 h3 => exact ⟨⟨c, hcp, .element hq (is_one.2 h1) rfl (.inr ⟨h2, h3⟩)⟩, fun x hx => nomatch hx⟩
  | any h1 h2 => exact ⟨⟨c, hcp, .hidden (boxed_mem h2 List.mem_cons_self)⟩, fun x hx => nomatch hx⟩
  | choice h1 h2 h3 =>
    refine ⟨⟨c, hcp, .choice hq (is_one.2 h1) rfl ho rfl⟩, fun x hx => ?_⟩
    obtain rfl := List.mem_singleton.1 hx
    exact .mk (fun _ => cases_ok hcp h3) fun y hy => nomatch hy
  | inline h1 _ h3 _ h5 h6 h7 =>
    refine ⟨⟨c, hcp, .element hq (is_one.2 h1) rfl (.inl h3)⟩, fun x hx => ?_⟩
    obtain rfl := List.mem_singleton.1 hx
    have ht := List.mem_of_getLast? h5
    exact (good_renamed h7 (hR c _ _ hcp (part_withTags hcp (by decide) ht) h6)).deep

theorem values_ok {root n : Node} {p : Str} {cs : List Node} {fs : List Facet} (hn : PartOf root n) (hc : ∀ c ∈ cs, c ∈ n.children)
    (h : FacetsOf p cs fs) : ∀ v ∈ enumValues fs, ∃ e, PartOf root e ∧ Is e ["enumeration"] ∧ e.attr "value".toList = some v.1 := by
  induction h with
  | nil => exact fun v hv => nomatch hv
  | @facet c cs f fs h1 _ ih =>
    intro v hv
    have hv : v ∈ (match f with | .enumeration v => some (v, docOf c) | _ => none).toList ++ enumValues fs := by
      simp only [enumValues, List.filterMap_cons] at hv
      cases f with
      | enumeration => exact hv
      | _ => exact hv
    rcases List.mem_append.1 hv with hv | hv
    · cases f with
      | enumeration w =>
        obtain rfl := List.mem_singleton.1 hv
        have key : ∀ t, KindOf (some p) c t → t = .facet (.enumeration w) →
            c.tag = "enumeration".toList ∧ c.attr "value".toList = some w := by
          intro t ht e
          cases ht with
          | facet h1 h2 h3 =>
            have e := ElementType.facet.inj e
            simp only [facetTags, List.mem_cons, List.not_mem_nil, or_false, Prod.mk.injEq] at h1
            rcases h1 with ⟨rfl, rfl⟩ | ⟨rfl, rfl⟩ | ⟨rfl, rfl⟩ | ⟨rfl, rfl⟩ | ⟨rfl, rfl⟩ | ⟨rfl, rfl⟩ | ⟨rfl, rfl⟩ | ⟨rfl, rfl⟩ |
              ⟨rfl, rfl⟩ | ⟨rfl, rfl⟩ | ⟨rfl, rfl⟩
            · obtain rfl := FacetType.enumeration.inj e
              exact ⟨h2, h3⟩
            all_goals exact nomatch e
          | plain h =>
            subst e
            have : ∀ x ∈ plainTags, ∀ f, x.2 ≠ .facet f := by simp [plainTags]
            exact absurd rfl (this _ h _)
          | _ => exact nomatch e
        obtain ⟨k1, k2⟩ := key _ h1 rfl
        exact ⟨c, .child hn (member_of_tag (hc c List.mem_cons_self) k1 (by decide) (by decide)), is_one.2 k1, k2⟩
      | _ => exact nomatch hv
    · exact ih (fun c hc' => hc c (List.mem_cons_of_mem _ hc')) v hv
  | skip _ _ _ ih => exact ih fun c hc' => hc c (List.mem_cons_of_mem _ hc')

theorem fields_good {root : Node} {fs : List StructField} (h : FieldsOk root fs) {n : Str} {c : Option Str} {ag : List RAlias} :
    Good root (.struct (.mk n c fs ag [])) := ⟨h.struct, fun _ k => nomatch k⟩

theorem reads_good (U : UnicodeTable) {root : Node} : ∀ (k : Nat) {n p : Node} {above : List Node} {e : RsEntity},
    PartOf root n → (∀ a ∈ p :: above, PartOf root a) → ReadsIn U k n p above e → Good root e
  | 0, _, _, _, _, _, _, h => h.elim
  | k + 1, n, p, above, e, hn, ha, h => by
    have ha' : ∀ a ∈ n :: p :: above, PartOf root a := fun a h => by
      rcases List.mem_cons.1 h with rfl | h
      · exact hn
      · exact ha a h
    have ih : ∀ {c e}, PartOf root c → ReadsIn U k c n (p :: above) e → Good root e := fun hc h => reads_good U k hc ha' h
    have glob : ∀ {types doc e}, (∀ s ∈ types, s.toList ≠ [] ∧ s.toList ≠ "annotation".toList) →
        Global (fun c x => ReadsIn U k c n (p :: above) x) types n doc e → Good root e := by
      intro types doc e ht h
      cases h with
      | typed => exact ⟨.mk rfl fun _ k => absurd k List.not_mem_nil, fun _ k => nomatch k⟩
      | inline _ _ _ h4 h5 h6 => exact good_renamed h6 (ih (part_withTags hn ht (List.mem_of_getLast? h4)) h5)
      | empty => exact fields_good fun _ k => absurd k List.not_mem_nil
    cases h with
    | «import» => exact ⟨.mk trivial fun _ k => absurd k List.not_mem_nil, fun _ k => nomatch k⟩
    | element _ _ h => exact glob (by decide) h
    | «attribute» _ _ h => exact glob (by decide) h
    | attributeGroup _ _ _ _ h => exact fields_good (attrs_ok hn h)
    | groupRef _ _ h =>
      obtain ⟨r, -, rfl⟩ := h
      exact ⟨.mk rfl fun _ k => absurd k List.not_mem_nil, fun _ k => nomatch k⟩
    | anyAttribute =>
      refine ⟨.mk ⟨n, hn, .hidden List.mem_cons_self⟩ fun _ k => (nomatch k), fun f hf => ?_⟩
      cases hf
      exact List.mem_cons_self
    | complexType h0 h =>
      cases h with
      | plain _ _ h3 => exact fields_good (attrs_ok hn h3)
      | content h1 _ h3 h4 _ h6 h7 =>
        have hx := ih (.child hn (mem_contentTags h4).1) h6
        cases h7 with
        | struct =>
          obtain ⟨rfl, hfs⟩ := struct_ok hx.deep
          exact fields_good (hfs.append (attrs_ok hn h3))
        | enum =>
          refine ⟨.mk hx.deep.here fun x hx => ?_, fun _ k => nomatch k⟩
          obtain rfl := List.mem_singleton.1 hx
          refine FieldsOk.struct ((attrs_ok hn h3).append fun f hf => ?_)
          obtain rfl := List.mem_singleton.1 hf
          exact ⟨⟨n, hn, .content h0 rfl⟩, fun _ k => nomatch k⟩
        | other => exact hx
    | sequence h1 h2 _ h4 =>
      exact fields_good (members_ok hn h1 (owner_in h2 ha) h4 fun c t e hc ht h => reads_good U k ht (fun a h => by
        rcases List.mem_cons.1 h with rfl | h
        · exact hc
        · exact ha' a h) h)
    | choice _ _ h3 => exact ⟨.mk (fun _ => cases_ok hn h3) fun _ k => absurd k List.not_mem_nil, fun _ k => nomatch k⟩
    | content _ _ h3 h4 => exact ih (.child hn (List.mem_of_getLast? h3)) h4
    | derived h1 _ _ h =>
      cases h with
      | without _ h2 => exact fields_good ((attrs_ok hn h2).append (marker_ok hn h1))
      | struct _ h2 h3 h4 =>
        have hx := ih (part_withTags hn (by unfold derivedTags; split <;> decide) (List.mem_of_getLast? h3)) h4
        obtain ⟨rfl, hfs⟩ := struct_ok hx.deep
        exact fields_good (hfs.append ((attrs_ok hn h2).append (marker_ok hn h1)))
      | lost _ h2 => exact fields_good ((attrs_ok hn h2).append (marker_ok hn h1))
    | simpleExtension h1 _ _ _ h5 =>
      exact fields_good ((attrs_ok hn h5).append (marker_ok hn (is_two.2 (.inl (is_one.1 h1)))))
    | simpleType _ _ _ h4 h5 h6 h7 =>
      refine good_redocumented h7 ?_
      have hx := ih (.child hn (List.mem_of_getLast? h4)) h5
      generalize n.attr "name".toList = o at h6
      cases h6 with
      | none => exact hx
      | some h => exact good_renamed h hx
    | restriction _ _ _ h4 h5 =>
      cases h5 with
      | enum =>
        refine ⟨.mk (fun _ c hc => ?_) fun _ k => absurd k List.not_mem_nil, fun _ k => nomatch k⟩
        obtain ⟨v, hv, rfl⟩ := List.mem_map.1 hc
        obtain ⟨e, k1, k2, k3⟩ := values_ok hn (fun _ h => h) h4 v hv
        exact ⟨e, k1, .value rfl k2 k3⟩
      | wrapper => exact ⟨.mk trivial fun _ k => absurd k List.not_mem_nil, fun _ k => nomatch k⟩
    | list => exact ⟨.mk trivial fun _ k => absurd k List.not_mem_nil, fun _ k => nomatch k⟩
    | listOf _ _ h3 h4 h5 =>
      have hx := ih (part_withTags hn (by decide) (List.mem_of_mem_head? h3)) h4
      cases h5 with
      | enum =>
        refine ⟨.mk trivial fun x hm => ?_, fun _ k => nomatch k⟩
        obtain rfl := List.mem_singleton.1 hm
        exact hx.deep
      | wrapper => exact ⟨.mk trivial hx.deep.inside, fun _ k => nomatch k⟩
    | union _ _ _ h4 =>
      refine ⟨.mk (fun h => absurd rfl h) fun x hx => ?_, fun _ k => nomatch k⟩
      obtain ⟨c, hc, y, h5, h6⟩ := forall₂_left h4 x hx
      have hc' : c.1 ∈ withTags n ["simpleType"] := (List.mem_zipIdx' hc).2 ▸ List.getElem_mem _
      exact (good_renamed h6 (ih (part_withTags hn (by decide) hc') h5)).deep

end Verif.Lemmas.Xml
