import Verif.Lemmas.Extend
import Verif.Props.Parser

/-! # C44, C45: derived types and attribute groups -/

namespace Verif.Props

open Verif Verif.Model Verif.Spec Verif.RoXml Verif.Lemmas Verif.Lemmas.Ext

private abbrev A := UnicodeTable.ascii

/-! ## C44 -/

/-- **C44** What becomes of the entities of a file. -/
theorem C44_extended (f g : RsFile) : extendFile f = .ok g ↔ ExtendedFile f g := extendFile_iff

/-- **C44** `parse` reads the schema and then does this. -/
theorem C44_parse (U : UnicodeTable) (root : Node) (g : RsFile) :
    parseFile U root = .ok g ↔ ∃ f, parseSchema U root [] = .ok f ∧ ExtendedFile f g := by
  unfold parseFile
  rw [Res.bind_eq_ok]
  exact ⟨fun ⟨f, h1, h2⟩ => ⟨f, h1, extendFile_iff.1 h2⟩, fun ⟨f, h1, h2⟩ => ⟨f, h1, extendFile_iff.2 h2⟩⟩

/-- A type with one element and, perhaps, a base. -/
private abbrev ty (nm : String) (base : Option String) (field : String) : Node :=
  el "complexType" [("name", nm)]
    [match base with
      | none => el "sequence" [] [el "element" [("name", field), ("type", "xs:int")] []]
      | some b => el "complexContent" [] [el "extension" [("base", b)]
          [el "sequence" [] [el "element" [("name", field), ("type", "xs:int")] []]]]]

/-- The names of the fields of the types. -/
private abbrev shape (r : Res RsFile) : Option (List (List Char × List (List Char))) :=
  r.toOption.map fun f => f.types.map fun e => (e.name, match e with
    | .struct s => s.fields.map StructField.name
    | _ => [])

example : shape (parseFile A (el "schema" [] [ty "A" none "a", ty "B" (some "t:A") "b", ty "C" (some "t:B") "c"])) =
    some [(['A'], [['a']]), (['B'], [['b'], ['a']]), (['C'], [['c'], ['b'], ['a']])] := by decide +kernel

/-- **C44** If types come after those they are derived from (and attribute groups anywhere), the names of the fields of
a type are those it has of its own, by derivation in any number of steps, or by attribute groups. -/
theorem C44_names_partial {f g : RsFile} (h : extendFile f = .ok g)
    (ho : Ordered (f.types ++ f.attributeGroups) f.types.length) {nm : Str} (hn : nm ≠ "__base__".toList) (i : Nat)
    {s : RStruct} (hs : StructAt (g.types ++ g.attributeGroups) i s) :
    nm ∈ s.fields.map StructField.name ↔ HasField (f.types ++ f.attributeGroups) f.types.length i nm :=
  hasField_iff (extendFile_iff.1 h) ho hn i hs

/-- **C44** (violated) If a type comes before its base and that has a base, too, it does not get the fields of the
latter. -/
theorem C44_order_violated :
    shape (parseFile A (el "schema" [] [ty "C" (some "t:B") "c", ty "B" (some "t:A") "b", ty "A" none "a"])) =
      some [(['C'], [['c'], ['b']]), (['B'], [['b'], ['a']]), (['A'], [['a']])] := by decide +kernel

/-- **C44** The own fields come first, in their order. -/
theorem C44_own_first {before after : List RsEntity} {i : Nat} {s s' : RStruct} (h : Extended before after i s s') :
    s'.name = s.name ∧ (s.fields.filter fun f => ¬ Marker f).map StructField.name <+: s'.fields.map StructField.name := by
  cases h with
  | @mk n c fs ag sub own inh gs sub' h1 h2 h3 h4 =>
    refine ⟨rfl, ?_⟩
    have key : ∀ {R : Str → List StructField → Prop} {fs own : List StructField}, FlatFields R fs own →
        (own.filter fun f => ¬ Marker f).map StructField.name = (fs.filter fun f => ¬ Marker f).map StructField.name := by
      intro R fs
      induction fs with
      | nil => intro own h; cases h; rfl
      | cons f fs ih =>
        intro own h
        cases h with
        | @cons n t c sub sub' src ms _ fs' ha hb =>
          have e := ih hb
          have hp : ∀ (f : StructField) (l : List StructField), f.name = "__base__".toList →
              (f :: l).filter (fun f => ¬ Marker f) = l.filter (fun f => ¬ Marker f) := fun f l hm =>
            List.filter_cons_of_neg fun h => (of_decide_eq_true h : ¬ Marker f) hm
          have hq : ∀ (f : StructField) (l : List StructField), f.name ≠ "__base__".toList →
              (f :: l).filter (fun f => ¬ Marker f) = f :: l.filter (fun f => ¬ Marker f) := fun f l hm =>
            List.filter_cons_of_pos (decide_eq_true (p := ¬ Marker f) hm)
          by_cases hm : n = "__base__".toList
          · rw [hp (.mk n t c sub' src ms) _ hm, hp (.mk n t c sub src ms) _ hm]
            exact e
          · rw [hq (.mk n t c sub' src ms) _ hm, hq (.mk n t c sub src ms) _ hm, List.map_cons, List.map_cons, e]
            rfl
    show _ <+: (inherit own inh ++ gs).map StructField.name
    unfold inherit
    rw [List.map_append, List.map_append, key h1, List.append_assoc]
    exact List.prefix_append _ _

/-- **C44** No marker is left, if there are no attribute groups with one. -/
theorem C44_no_marker {before after : List RsEntity} {i : Nat} {s s' : RStruct} (h : Extended before after i s s')
    (hg : s.attributeGroups = []) : ∀ f ∈ s'.fields, ¬ Marker f := by
  cases h with
  | @mk n c fs ag sub own inh gs sub' h1 h2 h3 h4 =>
    obtain rfl : ag = [] := hg
    obtain ⟨ls, hl, rfl⟩ := h4
    cases hl
    show ∀ f ∈ inherit own inh ++ [], ¬ Marker f
    rw [List.append_nil]
    intro f hf
    rcases List.mem_append.1 hf with h | h
    · exact of_decide_eq_true (List.mem_filter.1 h).2
    · exact (of_decide_eq_true (List.mem_filter.1 h).2).1

/-- **C44** Deriving never gives a type two fields of one name, if it and each of its bases have none. -/
theorem C44_no_duplicates {own inh : List StructField} (h1 : (own.map StructField.name).Nodup)
    (h2 : (inh.map StructField.name).Nodup) : ((inherit own inh).map StructField.name).Nodup := by
  unfold inherit
  rw [List.map_append]
  refine List.nodup_append.2 ⟨h1.sublist (List.filter_sublist.map _), h2.sublist (List.filter_sublist.map _), ?_⟩
  intro a ha b hb hab
  obtain ⟨f, hf, rfl⟩ := List.mem_map.1 ha
  obtain ⟨g, hg, rfl⟩ := List.mem_map.1 hb
  exact (of_decide_eq_true (List.mem_filter.1 hg).2).2 f (List.mem_filter.1 hf).1 hab

/-- **C44** Reading a schema fails in this step exactly if an inline type is derived from the type it is in. -/
theorem C44_panic (f : RsFile) : extendFile f ≠ .err ∧ (extendFile f = .panic ↔
    ∃ i s t key, f.types[i]? = some (.struct s) ∧ t ∈ nestedBases s.fields ∧ AfterLastColon t key ∧
      Resolves (f.types ++ f.attributeGroups) key i) := extendFile_panic

/-- **C44** (violated) There are such schemas. -/
theorem C44_panic_violated :
    parseFile A (el "schema" [] [el "complexType" [("name", "T")] [el "sequence" []
      [el "element" [("name", "a"), ("minOccurs", "0")] [el "complexType" [] [el "complexContent" []
        [el "extension" [("base", "t:T")] [el "attribute" [("name", "b")] []]]]]]]]) = .panic := rfl

/-- **C44** (violated) A type derived from one with a choice inherits nothing. -/
theorem C44_choice_base_violated :
    shape (parseFile A (el "schema" [] [el "complexType" [("name", "A")] [el "choice" []
      [el "element" [("name", "a"), ("type", "xs:int")] []]], ty "B" (some "A") "b"])) =
      some [("AChoice".toList, []), (['B'], [['b']])] := by decide +kernel

/-- **C44** (violated) The sequence of an extension is lost if an attribute group follows it. -/
theorem C44_sequence_lost_violated :
    shape (parseFile A (el "schema" [] [el "complexType" [("name", "T")] [el "complexContent" []
      [el "extension" [("base", "B")] [el "sequence" [] [el "element" [("name", "a"), ("type", "xs:int")] []],
        el "attributeGroup" [("ref", "G")] []]]],
      el "attributeGroup" [("name", "G")] [el "attribute" [("name", "g")] []]])) =
      some [(['T'], [['g']])] := by decide +kernel

/-- **C44** (violated) So is the choice of an extension. -/
theorem C44_choice_lost_violated :
    shape (parseFile A (el "schema" [] [el "complexType" [("name", "T")] [el "complexContent" []
      [el "extension" [("base", "B")] [el "choice" [] [el "element" [("name", "a"), ("type", "xs:int")] []]]]]])) =
      some [(['T'], [])] := by decide +kernel

/-- **C44** (violated) The text of a type with simple content is lost, and restrictions of simple content panic. -/
theorem C44_simple_content_violated :
    shape (parseFile A (el "schema" [] [el "complexType" [("name", "T")] [el "simpleContent" []
      [el "extension" [("base", "xs:string")] [el "attribute" [("name", "a")] []]]]])) = some [(['T'], [['a']])] ∧
    parseFile A (el "schema" [] [el "complexType" [("name", "T")] [el "simpleContent" []
      [el "restriction" [("base", "B")] [el "attribute" [("name", "a")] []]]]]) = .panic :=
  ⟨by decide +kernel, rfl⟩

/-! ## C45 -/

/-- **C45** The fields of the attribute groups are appended, in the order of the references; a reference to an unknown
group adds nothing. -/
theorem C45_groups {before after : List RsEntity} {i : Nat} {s s' : RStruct} (h : Extended before after i s s') :
    ∃ fs gs, s'.fields = fs ++ gs ∧
      Gathered (Seen before after i (some fs)) (s.attributeGroups.map RAlias.original) gs ∧
      s'.attributeGroups = s.attributeGroups := by
  cases h with
  | mk h1 h2 h3 h4 => exact ⟨_, _, rfl, h4, rfl⟩

/-- **C45** What is seen of a group: its fields as they were parsed. -/
theorem C45_group_fields {f g : RsFile} {i j : Nat} {key : Str} {s : RStruct}
    {own : Option (List StructField)} {l : List StructField} (hi : i < f.types.length)
    (hj : f.attributeGroups[j]? = some (.struct s)) (hk : s.name = key)
    (hlast : ∀ k t, j < k → f.attributeGroups[k]? = some (.struct t) → t.name ≠ key) :
    Seen (f.types ++ f.attributeGroups) (g.types ++ g.attributeGroups) i own key l ↔ l = s.fields := by
  have hs : StructAt (f.types ++ f.attributeGroups) (f.types.length + j) s := by
    rw [StructAt, List.getElem?_append_right (by omega), Nat.add_sub_cancel_left]
    exact hj
  have hr : Resolves (f.types ++ f.attributeGroups) key (f.types.length + j) := by
    refine ⟨⟨s, hs, hk⟩, fun k t hlt ht => ?_⟩
    rw [StructAt, List.getElem?_append_right (by omega)] at ht
    exact hlast _ t (by omega) ht
  have hseen : Seen (f.types ++ f.attributeGroups) (g.types ++ g.attributeGroups) i own key s.fields :=
    .later hr (by omega) hs
  exact ⟨fun h => seen_unique h hseen, fun e => e ▸ hseen⟩

example : shape (parseFile A (el "schema" [] [el "complexType" [("name", "T")] [el "attribute" [("name", "a")] [],
      el "attributeGroup" [("ref", "H")] [], el "attributeGroup" [("ref", "x:G")] [], el "attributeGroup" [("ref", "?")] []],
    el "attributeGroup" [("name", "G")] [el "attribute" [("name", "g")] []],
    el "attributeGroup" [("name", "H")] [el "attribute" [("name", "h")] []]])) =
    some [(['T'], [['a'], ['h'], ['g']])] := by decide +kernel

/-- **C45** (violated) Groups referenced in groups are not expanded. -/
theorem C45_nested_violated :
    shape (parseFile A (el "schema" [] [el "complexType" [("name", "T")] [el "attributeGroup" [("ref", "G")] []],
      el "attributeGroup" [("name", "G")] [el "attribute" [("name", "g")] [], el "attributeGroup" [("ref", "H")] []],
      el "attributeGroup" [("name", "H")] [el "attribute" [("name", "h")] []]])) =
      some [(['T'], [['g']])] := by decide +kernel

/-- **C45** (violated) Groups of a type with a sequence are lost. -/
theorem C45_sequence_violated :
    shape (parseFile A (el "schema" [] [el "complexType" [("name", "T")]
        [el "sequence" [] [el "element" [("name", "a"), ("type", "xs:int")] []], el "attributeGroup" [("ref", "G")] []],
      el "attributeGroup" [("name", "G")] [el "attribute" [("name", "g")] []]])) =
      some [(['T'], [['a']])] := by decide +kernel

/-- **C45** (violated) A field which is there already is appended again. -/
theorem C45_duplicate_violated :
    shape (parseFile A (el "schema" [] [el "complexType" [("name", "T")]
        [el "attributeGroup" [("ref", "G")] [], el "attributeGroup" [("ref", "H")] []],
      el "attributeGroup" [("name", "G")] [el "attribute" [("name", "a")] []],
      el "attributeGroup" [("name", "H")] [el "attribute" [("name", "a")] []]])) =
      some [(['T'], [['a'], ['a']])] := by decide +kernel

/-- **C45** (violated) Types and attribute groups share their names: a type derived from `T` gets the attributes of the
group `T` instead of the fields of the type. -/
theorem C45_name_clash_violated :
    shape (parseFile A (el "schema" [] [ty "T" none "a", ty "U" (some "T") "b",
      el "attributeGroup" [("name", "T")] [el "attribute" [("name", "g")] []]])) =
      some [(['T'], [['a']]), (['U'], [['b'], ['g']])] := by decide +kernel

/-- **C45** (violated) An element named like the marker vanishes. -/
theorem C45_marker_violated :
    shape (parseFile A (el "schema" [] [ty "T" none "__base__"])) = some [(['T'], [])] := by decide +kernel

end Verif.Props
