import Verif.Lemmas.DistinctDoc
import Verif.Lemmas.DefsUnique
import Verif.Lemmas.FieldsUnique

/-! # The definitions of a parsed file -/

namespace Verif.Lemmas.Dis

open Verif Verif.Model Verif.RoXml Verif.Spec Verif.Spec.Syn Verif.Lemmas.Parse Verif.Lemmas.Syn

theorem plain_owner {v : Str} (h : PlainName v) : Owner ⟨PlainName, fun _ => True, fun _ => True, fun _ => True⟩ v :=
  ⟨h, PlainName.append h (by decide) (by decide) (by decide), PlainName.append h (by decide) (by decide) (by decide),
    PlainName.append h (by decide) (by decide) (by decide)⟩

theorem supplies_plain {U : UnicodeTable} {root : Node} (hg : Grammatical root) (hn : PlainNames U root) :
    Supplies U (PartOf root) ⟨PlainName, fun _ => True, fun _ => True, fun _ => True⟩ where
  hered := fun n h c hc => .child h hc
  fields := fun _ => trivial
  types := fun _ => trivial
  variants := fun _ => trivial
  name := fun h1 h2 => plain_owner (hn.names _ _ h1 h2)
  ref := fun _ _ => ⟨trivial, trivial, trivial⟩
  type := fun _ _ => trivial
  base := fun _ _ => trivial
  item := fun _ _ => trivial
  members := fun _ _ _ _ => ⟨trivial, fun _ _ => trivial⟩
  value := fun _ _ _ _ => trivial
  unsupported := plain_owner (plainName_of (by decide +kernel))
  schema := plain_owner (plainName_of (by decide +kernel))
  element := plain_owner (plainName_of (by decide +kernel))
  other := trivial
  marker := trivial
  any := trivial
  anyAttribute := trivial
  string := trivial
  numbered := fun i => ⟨PlainName.number (plainName_of (by decide +kernel)) (by decide) i, trivial⟩
  simple := fun h1 h2 h3 => hg.rows ("simpleType", ["restriction", "list", "union"]) (by decide) _ _ h1 h2 h3
  list := fun h1 h2 h3 h4 h5 h6 => hn.lists _ _ _ h1 h2 h3 h4 h5 h6

/-- The definitions of a parsed file have different names. -/
theorem parseFile_nodup {U : UnicodeTable} {root : Node} {g : RsFile} (hg : Grammatical root) (hf : ProperForms root)
    (hr : RegularSchema root) (hn : PlainNames U root) (hs : Separate U root) (h : parseFile U root = .ok g) (tns : Option Namespace) :
    ((defsList (formatTypeName U tns (xsdNamespace root)) (defaultFormatName U) Gen.hasDoc [] g.types).map key).Nodup := by
  have hk := keys_list (doc := Gen.hasDoc) (sep_plain (U := U) (tns := tns) (xsd_prefix hn.xsd)) g.types []
    (parseFile_scoped (Q := fun _ => True) hg hf hr hs ⟨fun _ _ _ _ _ _ _ _ _ _ _ _ _ => trivial, fun _ _ _ _ _ _ _ _ _ => trivial⟩
      trivial (fun _ _ _ _ _ _ => trivial) h).1
    (fun x hx => (parseFile_names hg (supplies_plain hg hn)
      (fun c r hc ht hr => by rw [hn.attributes c hc ht] at hr; cases hr) h x hx).2)
  refine hk.2.2 ?_
  rw [entTops_flatten]
  exact hs.top _ (parseFile_top hg h)

/-! ## Which schemas are separate -/

theorem sames_inner {fs gs : List StructField} (h : List.Forall₂ SameField fs gs) : innerTypes fs = innerTypes gs := by
  induction h with
  | nil => rfl
  | @cons f g fs gs h _ ih =>
    obtain ⟨-, h1, -, -, -, h2⟩ := h
    unfold innerTypes at ih ⊢
    rw [List.filter_cons, List.filter_cons, h2]
    split
    · rw [List.map_cons, List.map_cons, h1, ih]
    · exact ih

/-- The inline types of the members of a sequence without choices. -/
def inlineNames (q : Node) : List Str :=
  ((members q).filter fun c => decide (Is c ["element"]) && (c.attr "type".toList).isNone).filterMap fun c =>
    (c.attr "name".toList).map (· ++ "Type".toList)

theorem sequence_inner {I : Node → RsEntity → Prop} {owner : Str} {cs : List Node} {fs : List StructField} (h : List.Forall₂ (MemberField I owner) cs fs)
    (hc : ∀ c ∈ cs, ¬ Is c ["choice"]) :
    innerTypes fs = (cs.filter fun c => decide (Is c ["element"]) && (c.attr "type".toList).isNone).filterMap fun c =>
      (c.attr "name".toList).map (· ++ "Type".toList) := by
  have is : ∀ {c : Node} {s : String}, c.tag = s.toList → Is c [s] := fun h => by simp [Is, h]
  induction h with
  | nil => rfl
  | @cons c f cs fs h _ ih =>
    have ih := ih fun x hx => hc x (List.mem_cons_of_mem _ hx)
    have hc := hc c List.mem_cons_self
    unfold innerTypes at ih ⊢
    rw [List.filter_cons (x := c)]
    have e0 : ∀ {n t d s ms}, (StructField.mk n t d [] s ms :: fs).filter (fun f => !f.subtypes.isEmpty) =
      fs.filter fun f => !f.subtypes.isEmpty := rfl
    cases h with
    | typed h1 h2 h3 => rw [e0, if_neg (by rw [h3, Option.isNone_some, Bool.and_false]; decide)]; exact ih
    | ref h1 h2 h3 =>
      rw [e0, ih]
      split
      · rw [List.filterMap_cons, h2]; rfl
      · rfl
    | inline h1 h2 h3 h4 =>
      rw [if_pos (by rw [h4, Option.isNone_none, Bool.and_true]; exact decide_eq_true (is h1))]
      rw [List.filterMap_cons, h3]
      exact congrArg _ ih
    | any h1 => rw [e0, if_neg (by simp [Is, h1])]; exact ih
    | choice h1 => exact absurd (is h1) hc

theorem attrs_inner {n : Node} {fs gs : List StructField} (h : AttrFields n gs) : innerTypes (fs ++ gs) = innerTypes fs := by
  have : gs.filter (fun f => !f.subtypes.isEmpty) = [] := List.filter_eq_nil_iff.2 fun f hf => by rw [attrs_bare h f hf]; decide
  unfold innerTypes
  rw [List.filter_append, this, List.append_nil]

/-- The inline types in a complex type whose content is a sequence without choices. -/
theorem own_inner {owner : Str} {t q : Node} {fs : List StructField} {gs : List Str} (h : OwnFields owner t fs gs)
    (h1 : (withTags t contentTags).getLast? = some q) (h2 : Is q ["sequence", "all"]) (h3 : q.children.filter Node.isElement ≠ [])
    (h4 : ∀ c ∈ members q, ¬ Is c ["choice"])
    (h5 : ∀ c ∈ members q ++ t.children, ∀ a ∈ ["name", "ref"], c.attr a.toList ≠ some "__base__".toList) :
    innerTypes fs = inlineNames q ∧ ∀ f ∈ fs, f.name ≠ "__base__".toList := by
  have no : ∀ {s : Node} {l : List String} {P : Prop}, (withTags t contentTags).getLast? = some s → Is s l →
      (∀ x ∈ l, x ∉ ["sequence", "all"]) → P := by
    intro s l P k1 k2 k3
    obtain rfl := Option.some.inj (h1.symm.trans k1)
    unfold Is at h2 k2
    obtain ⟨x, hx, hx'⟩ := List.mem_map.1 k2
    obtain ⟨y, hy, hy'⟩ := List.mem_map.1 h2
    rw [← hy', String.toList_inj] at hx'
    exact absurd (hx' ▸ hy) (k3 x hx)
  cases h with
  | plain k1 => exact absurd (k1 _ h1) h3
  | sequence k1 _ _ k4 k5 =>
    obtain rfl := Option.some.inj (h1.symm.trans k1)
    refine ⟨by rw [attrs_inner k5]; exact sequence_inner k4 h4, fun f hf => ?_⟩
    rcases List.mem_append.1 hf with hf | hf
    · obtain ⟨c, hc, hcf⟩ := forall₂_left k4 f hf
      have h5 := h5 c (List.mem_append_left _ hc)
      cases hcf with
      | typed m1 m2 => exact fun e => h5 "name" (by decide) (by rw [m2]; exact congrArg some e)
      | ref m1 m2 m3 => exact fun e => h5 "ref" (by decide) (by rw [m3]; exact congrArg some e)
      | inline m1 m2 m3 => exact fun e => h5 "name" (by decide) (by rw [m3]; exact congrArg some e)
      | any => exact fun e => absurd (show "any".toList = _ from e) (by decide)
      | choice m1 => exact absurd (by simp [Is, m1]) (h4 c hc)
    · obtain ⟨c, hc, hcf⟩ := forall₂_left k5 f hf
      have h5 := h5 c (List.mem_append_right _ (List.mem_filter.1 hc).1)
      cases hcf with
      | «attribute» _ m =>
        cases m with
        | named m1 => exact fun e => h5 "name" (by decide) (by rw [m1]; exact congrArg some e)
        | ref m1 m2 => exact fun e => h5 "ref" (by decide) (by rw [m2]; exact congrArg some e)
      | any => exact fun e => absurd (show "any_attribute".toList = _ from e) (by decide)
  | simple k1 k2 => exact no k1 k2 (by decide)
  | derived k1 k2 => exact no k1 k2 (by decide)
  | derivedSequence k1 k2 => exact no k1 k2 (by decide)

end Verif.Lemmas.Dis
