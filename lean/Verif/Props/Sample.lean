import Verif.Lemmas.DocDefs
import Verif.Lemmas.Pipeline
import Verif.Lemmas.TotalExt
import Verif.Props.Generator
import Verif.Props.Parser

/-! # Schemas for examples -/

namespace Verif.Props.Sample

open Verif Verif.Model Verif.Spec Verif.RoXml Verif.Lemmas Verif.Lemmas.Parse

abbrev A := UnicodeTable.ascii

mutual
/-- An element and the elements inside. -/
def elements : Node → List Node
  | .element u t a ns cs => .element u t a ns cs :: elementsList cs
  | n => [n]
def elementsList : List Node → List Node
  | [] => []
  | n :: ns => elements n ++ elementsList ns
end

theorem elements_self : ∀ n, n ∈ elements n
  | .element .. => List.mem_cons_self
  | .text _ => List.mem_cons_self
  | .other => List.mem_cons_self

theorem elementsList_of {c : Node} : ∀ {cs : List Node}, c ∈ cs → ∀ x ∈ elements c, x ∈ elementsList cs
  | [], h => absurd h List.not_mem_nil
  | d :: cs, h => fun x hx => by
    rw [elementsList]
    rcases List.mem_cons.1 h with rfl | h
    · exact List.mem_append_left _ hx
    · exact List.mem_append_right _ (elementsList_of h x hx)

mutual
theorem elements_child : ∀ (n : Node), ∀ x ∈ elements n, ∀ c ∈ x.children, c ∈ elements n
  | .element u t a ns cs => by
    intro x hx c hc
    rw [elements] at hx ⊢
    rcases List.mem_cons.1 hx with rfl | hx
    · exact List.mem_cons_of_mem _ (elementsList_of hc c (elements_self c))
    · exact List.mem_cons_of_mem _ (elementsList_child cs x hx c hc)
  | .text _ => by
    intro x hx c hc
    obtain rfl := List.mem_singleton.1 hx
    cases hc
  | .other => by
    intro x hx c hc
    obtain rfl := List.mem_singleton.1 hx
    cases hc
theorem elementsList_child : ∀ (cs : List Node), ∀ x ∈ elementsList cs, ∀ c ∈ x.children, c ∈ elementsList cs
  | [] => by intro x hx; cases hx
  | d :: cs => by
    intro x hx c hc
    rw [elementsList] at hx ⊢
    rcases List.mem_append.1 hx with hx | hx
    · exact List.mem_append_left _ (elements_child d x hx c hc)
    · exact List.mem_append_right _ (elementsList_child cs x hx c hc)
end

theorem partOf_elements {root n : Node} (h : PartOf root n) : n ∈ elements root := by
  induction h with
  | root => exact elements_self root
  | child _ hc ih => exact elements_child root _ ih _ (mem_members.1 hc).1

theorem grammatical_of {root : Node} (h1 : root.tag = "schema".toList)
    (h2 : ∀ n ∈ elements root, ∀ r ∈ grammarRows, n.tag = r.1.toList → ∀ c ∈ members n, c.tag ∈ r.2.map String.toList) :
    Grammatical root :=
  ⟨h1, fun r hr n c hn ht hc => h2 n (partOf_elements hn) r hr ht c hc⟩

theorem prefixSafe_of {v : Str} (h : ∀ c ∈ v, c ∉ codeUnsafe) : PrefixSafe v := by
  intro p n hr c hc
  cases hr with
  | prefixed => exact h c (List.mem_append_left _ hc)

theorem quoteSafe_of {v : Str} (h : ∀ c ∈ v, c ∉ codeUnsafe) : QuoteSafe v := fun c hc =>
  ⟨fun e => h c hc (by rw [e]; decide), fun e => h c hc (by rw [e]; decide), fun e => h c hc (by rw [e]; decide)⟩

theorem word_chars {v : Str} {ws : List Str} (h : SpaceSeparated v ws) : ∀ w ∈ ws, ∀ c ∈ w, c ∈ v ∧ c ≠ ' ' := by
  induction h with
  | nil => intro w hw; cases hw
  | space _ ih => exact fun w hw c hc => ⟨List.mem_cons_of_mem _ (ih w hw c hc).1, (ih w hw c hc).2⟩
  | last _ hs =>
    intro w hw c hc
    obtain rfl := List.mem_singleton.1 hw
    exact ⟨hc, fun e => hs (e ▸ hc)⟩
  | word _ hs _ ih =>
    intro w hw c hc
    rcases List.mem_cons.1 hw with rfl | hw
    · exact ⟨List.mem_append_left _ hc, fun e => hs (e ▸ hc)⟩
    · exact ⟨List.mem_append_right _ (List.mem_cons_of_mem _ (ih w hw c hc).1), (ih w hw c hc).2⟩

theorem copySafe_of {root : Node}
    (h1 : ∀ n ∈ elements root, ∀ a ∈ ["name", "ref", "type", "base", "itemType"],
      ∀ v ∈ (n.attr a.toList).toList, ∀ c ∈ v, c ∉ codeUnsafe)
    (h5 : ∀ n ∈ elements root, ∀ v ∈ (n.attr "value".toList).toList,
      n.tag ∈ ["minInclusive", "minExclusive", "maxInclusive", "maxExclusive"].map String.toList →
      ∀ c ∈ v, c ∉ codeUnsafe)
    (h2 : ∀ n ∈ elements root, ∀ v ∈ (n.attr "memberTypes".toList).toList, ∀ c ∈ v, c ≠ ' ' → c ∉ codeUnsafe)
    (h3 : ∀ n ∈ elements root, ∀ a ∈ ["namespace", "schemaLocation"], ∀ v ∈ (n.attr a.toList).toList, '\n' ∉ v)
    (h4 : ∀ ns ∈ root.namespaces, QuoteSafe ns.uri ∧ ∀ p ∈ ns.name.toList, QuoteSafe p) : CopySafe root where
  names n a v hn ha hv := by
    have := h1 n (partOf_elements hn) a ((by decide : ∀ a ∈ ["name", "ref"], a ∈
      ["name", "ref", "type", "base", "itemType"]) a ha) v (Option.mem_toList.2 hv)
    exact ⟨quoteSafe_of this, prefixSafe_of this⟩
  types n a v hn ha hv := prefixSafe_of (h1 n (partOf_elements hn) a ((by decide : ∀ a ∈ ["type", "base", "itemType"],
    a ∈ ["name", "ref", "type", "base", "itemType"]) a ha) v (Option.mem_toList.2 hv))
  memberTypes n v ws w hn hv hs hw := by
    have : ∀ c ∈ w, c ∉ codeUnsafe := fun c hc =>
      h2 n (partOf_elements hn) v (Option.mem_toList.2 hv) c (word_chars hs w hw c hc).1 (word_chars hs w hw c hc).2
    exact ⟨quoteSafe_of this, prefixSafe_of this⟩
  bounds n v hn ht hv := quoteSafe_of (h5 n (partOf_elements hn) v (Option.mem_toList.2 hv) ht)
  imports n a v hn ha hv := h3 n (partOf_elements hn) a ha v (Option.mem_toList.2 hv)
  namespaces ns hns := ⟨(h4 ns hns).1, fun p hp => (h4 ns hns).2 p (Option.mem_toList.2 hp)⟩

/-- A schema element for examples: the target namespace has the prefix `tns`. -/
abbrev doc (cs : List Node) : Node :=
  .element (some xsdUri) "schema".toList [⟨none, "targetNamespace".toList, "http://example.com/a".toList⟩]
    [⟨some "xs".toList, xsdUri⟩, ⟨some "tns".toList, "http://example.com/a".toList⟩] cs

/-- A schema with a bit of everything. -/
def sample : Node := doc
  [el "complexType" [("name", "Animal")]
     [el "sequence" [] [el "element" [("name", "kind"), ("type", "xs:string")] [],
        el "element" [("name", "size"), ("minOccurs", "0")] [el "simpleType" [] [el "restriction" [("base", "xs:string")]
          [el "enumeration" [("value", "big")] [], el "enumeration" [("value", "small")] []]]]],
      el "attribute" [("name", "id"), ("type", "xs:int")] []],
   el "complexType" [("name", "Dog")] [el "complexContent" [] [el "extension" [("base", "tns:Animal")]
     [el "sequence" [] [el "element" [("name", "owner"), ("type", "tns:Person")] []]]]],
   el "complexType" [("name", "Person")] [el "choice" [] [el "element" [("name", "first"), ("type", "xs:string")] [],
     el "element" [("name", "last"), ("type", "xs:string")] []]],
   el "simpleType" [("name", "Ids")] [el "list" [("itemType", "xs:int")] []],
   el "simpleType" [("name", "Either")] [el "union" [("memberTypes", "xs:int tns:Ids")]
     [el "simpleType" [] [el "restriction" [("base", "xs:string")] [el "maxLength" [("value", "5")] []]]]],
   el "simpleType" [("name", "Quote")] [el "restriction" [("base", "xs:string")] [el "enumeration" [("value", "\"")] []]],
   el "element" [("name", "root"), ("type", "tns:Dog")] [],
   el "element" [("name", "note"), ("type", "xs:string")]
     [el "annotation" [] [el "documentation" [] [.text "A note".toList]]],
   el "attributeGroup" [("name", "g")] [el "attribute" [("name", "lang"), ("type", "xs:string")] []]]

theorem sample_grammatical : Grammatical sample := grammatical_of rfl (by decide +kernel)

theorem sample_copySafe : CopySafe sample :=
  copySafe_of (by decide +kernel) (by decide +kernel) (by decide +kernel) (by decide +kernel) (by decide +kernel)

def okText : Res Str → Str
  | .ok r => r
  | _ => []

theorem okText_eq {r : Res Str} (h : r ≠ .panic ∧ r ≠ .err) : r = .ok (okText r) := by
  cases r with
  | ok t => rfl
  | panic => exact absurd rfl h.1
  | err => exact absurd rfl h.2

theorem ok_of {r : Res Str} (h : r ≠ .panic ∧ r ≠ .err) : ∃ t, r = .ok t := ⟨_, okText_eq h⟩
/-- What the parser makes of the document, for examples. -/
def okFile : Res RsFile → RsFile
  | .ok r => r
  | _ => ⟨[], none, [], [], none, none⟩

/-- The definitions of the code for a document, for examples. -/
def defsFor (root : Node) : List (List Str × DefKind × Str) :=
  defsList (formatTypeName A (okFile (parseFile A root)).targetNs (okFile (parseFile A root)).xsdNs)
    (defaultFormatName A) (fun c => decide (defaultFormatComment c 80 0 ≠ [])) [] (okFile (parseFile A root)).types

theorem defsFor_has {root : Node} (hg : Grammatical root) (hs : CopySafe root)
    (h : convertXsd A root ≠ .panic ∧ convertXsd A root ≠ .err) :
    ∃ t, convertXsd A root = .ok t ∧ HasDefs t (defsFor root) := by
  obtain ⟨t, ht⟩ := ok_of h
  refine ⟨t, ht, ?_⟩
  obtain ⟨g, hp, h⟩ := Res.bind_eq_ok.1 ht
  obtain ⟨h1, h2⟩ := parseFile_safe hs hp
  have := C36_definitions A g t h1 (fun x hx => ⟨h2 x hx, parseFile_items hg hp x hx⟩) h
  unfold defsFor
  rw [hp]
  exact this

theorem hasDefs_congr {t : Str} {ds es : List (List Str × DefKind × Str)} (h : HasDefs t ds)
    (e : ds = es) : HasDefs t es := e ▸ h

theorem local_elements {c e : Node} (h : LocalElement c e) : ∃ k ∈ members c, e ∈ elements k := by
  obtain ⟨-, p, hp, he⟩ := h
  induction hp generalizing e with
  | root => exact ⟨e, he, elements_self e⟩
  | child hn hc ih =>
    obtain ⟨k, hk, hp⟩ := ih hc
    exact ⟨k, hk, elements_child k _ hp _ (mem_members.1 he).1⟩

instance (n : Node) (tags : List String) : Decidable (Is n tags) := by unfold Is; infer_instance

theorem supported_of {root : Node}
    (h1 : ∀ n ∈ elements root, ∀ r ∈ supportedRows, Is n [r.1] → ∀ c ∈ members n, Is c r.2)
    (h2 : Is root ["schema"] ∧
      (∀ n ∈ elements root, ∀ c ∈ members n, (Is n ["schema"] →
        Is c ["simpleType", "complexType", "attributeGroup", "element", "attribute"] → (c.attr "name".toList).isSome) ∧
        (¬ Is n ["schema"] → Is c ["simpleType"] → ¬ (c.attr "name".toList).isSome) ∧
        (Is n ["sequence", "all"] → Is c ["element"] → (c.attr "type".toList).isSome ∨ (c.attr "ref".toList).isSome ∨
          (withTags c ["simpleType", "complexType"]).length ≠ 0) ∧
        (¬ Is n ["schema"] → Is c ["attributeGroup"] → (c.attr "ref".toList).isSome)) ∧
      (∀ n ∈ elements root,
        (Is n ["attribute"] → ((n.attr "name".toList).isSome ∨ (n.attr "ref".toList).isSome) ∧
          ∀ v ∈ (n.attr "use".toList).toList, v ∈ ["optional", "prohibited", "required"].map String.toList) ∧
        (Is n ["extension", "restriction"] → (n.attr "base".toList).isSome) ∧
        (Is n ["list"] → (n.attr "itemType".toList).isSome ∨ (withTags n ["simpleType"]).length ≠ 0) ∧
        (Is n ["simpleType", "simpleContent", "complexContent"] → (members n).length ≠ 0)))
    (h3 : ∀ n ∈ elements root,
        (Is n (facetTags.map (·.1)) → (n.attr "value".toList).isSome) ∧
        (Is n ["whiteSpace"] → ∃ v ∈ ["preserve", "replace", "collapse"], n.attr "value".toList = some v.toList) ∧
        (∀ v ∈ (n.attr "value".toList).toList, Is n ["length", "minLength", "maxLength"] →
          (Str.parseUnsigned u32Max v).isSome) ∧
        (∀ a ∈ ["name", "ref"], n.attr a.toList ≠ some "__base__".toList))
    (h4 : ∀ c ∈ members root, ∀ nm ∈ (c.attr "name".toList).toList, ∀ k ∈ members c, ∀ e ∈ elements k,
      ∀ x ∈ elements e, ∀ b ∈ (x.attr "base".toList).toList, lastSegment b ≠ nm) : Supported root := by
  have has : ∀ {n : Node} {a : String}, (n.attr a.toList).isSome = true ↔ Has n a := fun {n a} => Option.isSome_iff_exists
  obtain ⟨h2, h2', h2''⟩ := h2
  constructor
  case schema => exact h2
  case rows => exact fun r hr n c hn hnt hc => h1 n (partOf_elements hn) r hr hnt c hc
  case named => exact fun n c hn hs hc hm => has.1 ((h2' n (partOf_elements hn) c hc).1 hs hm)
  case anonymous => exact fun n c hn hs hc hm hh => (h2' n (partOf_elements hn) c hc).2.1 hs hm (has.2 hh)
  case typed =>
    intro n c hn hs hc hm
    rcases (h2' n (partOf_elements hn) c hc).2.2.1 hs hm with h | h | h
    · exact .inl (has.1 h)
    · exact .inr (.inl (has.1 h))
    · exact .inr (.inr fun e => h (by rw [e]; rfl))
  case groups => exact fun n c hn hs hc hm => has.1 ((h2' n (partOf_elements hn) c hc).2.2.2 hs hm)
  case attributes =>
    intro n hn hm
    obtain ⟨h, hu⟩ := (h2'' n (partOf_elements hn)).1 hm
    exact ⟨h.imp has.1 has.1, fun v hv => hu v (Option.mem_toList.2 hv)⟩
  case derived => exact fun n hn hm => has.1 ((h2'' n (partOf_elements hn)).2.1 hm)
  case lists => exact fun n hn hm => ((h2'' n (partOf_elements hn)).2.2.1 hm).imp has.1 fun h e => h (by rw [e]; rfl)
  case full => exact fun n hn hm e => (h2'' n (partOf_elements hn)).2.2.2 hm (by rw [e]; rfl)
  case facets => exact fun n hn hm => has.1 ((h3 n (partOf_elements hn)).1 hm)
  case whiteSpace => exact fun n hn hm => (h3 n (partOf_elements hn)).2.1 hm
  case lengths =>
    intro n v hn hm hv
    obtain ⟨k, hk⟩ := Option.isSome_iff_exists.1 ((h3 n (partOf_elements hn)).2.2.1 v (Option.mem_toList.2 hv) hm)
    exact ⟨k, Gen.parseUnsigned_u32.1 hk⟩
  case reserved => exact fun n a hn ha => (h3 n (partOf_elements hn)).2.2.2 a ha
  case acyclic =>
    intro c nm e x b hc hn he hx hb h
    obtain ⟨k, hk, hke⟩ := local_elements he
    refine h4 c hc nm (Option.mem_toList.2 hn) k hk e hke x (partOf_elements hx) b (Option.mem_toList.2 hb) ?_
    exact Gen.lastSegment_iff.2 h

end Verif.Props.Sample
