import Verif.Props.Items
import Verif.Lemmas.DocSimple

/-! # C72: simple types in the generated code -/

namespace Verif.Props

open Verif Verif.Model Verif.Spec Verif.RoXml Verif.Lemmas Verif.Lemmas.Parse

open Verif.Props.Sample

/-- The items for what the parser returns. -/
theorem items_for {U : UnicodeTable} {root : Node} {t : Str} (hg : Grammatical root) (hs : CopySafe root)
    (h : convertXsd U root = .ok t) {is : List Item} (hi : HasItems t is) :
    ∃ f, parseFile U root = .ok f ∧ ∀ e ∈ f.types, ∀ x ∈ originsOf (defaultFormatName U) documented e,
      ∃ i ∈ is, ItemFor (naming U root) (targetNamespace root) x i := by
  obtain ⟨f, hf, is', h1, h2⟩ := C69_document U root t hg hs h
  obtain rfl := C69_determined t is is' hi h1
  exact ⟨f, hf, fun e he x hx => forall₂_right h2 x (mem_origins he x hx)⟩

/-- **C72** A simple type with a restriction, other than an enumeration of names, becomes a wrapper of the base type whose
`Validate` implementation does what the facets ask for. -/
theorem C72_restriction_partial (U : UnicodeTable) (root : Node) (t : Str) (hg : Grammatical root) (hs : CopySafe root)
    (h : convertXsd U root = .ok t) (is : List Item) (hi : HasItems t is) (c r : Node) (nm base : Str) (fs : List Facet)
    (hc : SimpleDecl root c nm r) (hrt : r.tag = "restriction".toList) (hb : r.attr "base".toList = some base)
    (hf : FacetsOf r.tag r.children fs) (he : enumValues fs = [] ∨ ∃ v ∈ enumValues fs, ¬ SimpleValue U v.1) :
    (∃ i ∈ is, i.path = [] ∧ i.attrs = ["#[derive(Default, Clone, PartialEq, Debug, UtilsTupleIo, UtilsDefaultSerde)]".toList] ∧
      i.head = "pub struct ".toList ++ ((naming U root).type nm ++ (" (pub ".toList ++
      ((naming U root).type base ++ ");".toList)))) ∧
    ∃ j ∈ is, j.path = [] ∧ ∃ cs, Enforces fs cs ∧ ValidateItem ((naming U root).type nm) cs j ∧
      (∀ x ∈ cs, ∀ op l ty, x = .value op l ty → ty = (naming U root).type base) ∧ CheckedBy fs cs := by
  obtain ⟨f, hp, hit⟩ := items_for hg hs h hi
  rcases global_restriction hg hp hc.1 hc.2.1 hc.2.2.1 hc.2.2.2 hrt hb hf with ⟨k1, k2, -⟩ | ⟨-, hm⟩
  · rcases he with he | ⟨v, hv, hn⟩
    · exact absurd he k1
    · exact absurd (k2 v hv) hn
  · constructor
    · obtain ⟨i, him, k1, k2⟩ := hit _ hm ([], .entity (.tupleStruct (.mk nm (docOf c) base [] [] fs))) (by rw [originsOf]; exact List.mem_cons_self)
      refine ⟨i, him, k1, k2.1, ?_⟩
      have := k2.2.1
      exact this
    · obtain ⟨j, hj, k1, cs, k2, k3, k4⟩ := hit _ hm ([], .validate nm base [] fs) (by
        rw [originsOf]
        exact List.mem_cons_of_mem _ (List.mem_append_right _ List.mem_cons_self))
      exact ⟨j, hj, k1, cs, k2, k3, k4⟩

/-- **C72** An enumeration of names becomes an enum with a variant for each value, in order, and the unknown one. -/
theorem C72_enumeration_partial (U : UnicodeTable) (root : Node) (t : Str) (hg : Grammatical root) (hs : CopySafe root)
    (h : convertXsd U root = .ok t) (is : List Item) (hi : HasItems t is) (c r : Node) (nm base : Str) (fs : List Facet)
    (hc : SimpleDecl root c nm r) (hrt : r.tag = "restriction".toList) (hb : r.attr "base".toList = some base)
    (hf : FacetsOf r.tag r.children fs) (he : enumValues fs ≠ []) (hv : ∀ v ∈ enumValues fs, SimpleValue U v.1) :
    ∃ i ∈ is, i.path = [] ∧ i.head = "pub enum ".toList ++ ((naming U root).type nm ++ " {".toList) ∧
      ∃ ms, List.Forall₂ (fun v m => m.name = (naming U root).case v ∧ m.type = none ∧
          m.attr = if v = (naming U root).case v then none else some (nameAttr [] none none v))
        ((enumValues fs).map (·.1)) ms ∧
        readCaseLines none i.body = ms ++ [⟨none, "__Unknown__".toList, some ((naming U root).type base)⟩] := by
  obtain ⟨f, hp, hit⟩ := items_for hg hs h hi
  rcases global_restriction hg hp hc.1 hc.2.1 hc.2.2.1 hc.2.2.2 hrt hb hf with ⟨-, -, hm⟩ | ⟨k, -⟩
  · obtain ⟨i, him, k1, -, k3, ms, k4, k5⟩ := hit _ hm ([], .entity (.enum (.mk nm _ (docOf c) base [] .restriction)))
      (by rw [originsOf]; exact List.mem_cons_self)
    refine ⟨i, him, k1, k3, ms, ?_, k5⟩
    rw [List.forall₂_map_left_iff] at k4 ⊢
    refine List.Forall₂.imp (fun v m hvm => ?_)
      ((List.forall₂_and_left (p := fun v : Str × Option Str => SimpleValue U v.1) _ _).2 ⟨hv, k4⟩)
    obtain ⟨hsv, q1, q2, o, n, q3, q4⟩ := hvm
    refine ⟨q1, q2, ?_⟩
    have hcolon : ':' ∉ v.1 := by
      intro hc
      rcases hsv.2 _ hc with h | h
      · rw [U.alnum_ascii ':' (by decide)] at h; exact absurd h (by decide)
      · exact absurd h (by decide)
    have : o = none ∧ n = v.1 := by
      have q3 : Ref o n v.1 := q3
      revert q3 hcolon
      generalize v.1 = w
      intro hw q3
      cases q3 with
      | bare _ => exact ⟨rfl, rfl⟩
      | prefixed _ => exact absurd (List.mem_append_right _ List.mem_cons_self) hw
    obtain ⟨rfl, rfl⟩ := this
    rw [q4]
    simp
  · rcases k with k | ⟨v, hvm, hn⟩
    · exact absurd k he
    · exact absurd (hv v hvm) hn

/-- **C72** A list with a given item type becomes a wrapper of a vector, without checks. -/
theorem C72_list_partial (U : UnicodeTable) (root : Node) (t : Str) (hg : Grammatical root) (hs : CopySafe root)
    (h : convertXsd U root = .ok t) (is : List Item) (hi : HasItems t is) (c r : Node) (nm it : Str)
    (hc : SimpleDecl root c nm r) (hrt : r.tag = "list".toList) (hit : r.attr "itemType".toList = some it) :
    (∃ i ∈ is, i.path = [] ∧ i.attrs = ["#[derive(Default, Clone, PartialEq, Debug, UtilsTupleIo, UtilsDefaultSerde)]".toList] ∧
      i.head = "pub struct ".toList ++ ((naming U root).type nm ++ (" (pub Vec<".toList ++
      ((naming U root).type it ++ ">);".toList)))) ∧
    ∃ j ∈ is, j.path = [] ∧ ∃ cs, Enforces [] cs ∧ ValidateItem ((naming U root).type nm) cs j := by
  obtain ⟨f, hp, hits⟩ := items_for hg hs h hi
  have hm := global_list hg hp hc.1 hc.2.1 hc.2.2.1 hc.2.2.2 hrt hit
  constructor
  · obtain ⟨i, him, k1, k0, k2, -⟩ := hits _ hm ([], .entity (.tupleStruct (.mk nm (docOf c) it [] [.array] [])))
      (by rw [originsOf]; exact List.mem_cons_self)
    refine ⟨i, him, k1, k0, k2.trans ?_⟩
    have : ∀ x : Str, (naming U root).wrap x [.array] = "Vec<".toList ++ x ++ ">".toList := fun x => rfl
    rw [this]
    simp
  · obtain ⟨j, hj, k1, cs, k2, k3, -⟩ := hits _ hm ([], .validate nm it [.array] []) (by
        rw [originsOf]
        exact List.mem_cons_of_mem _ (List.mem_append_right _ List.mem_cons_self))
    exact ⟨j, hj, k1, cs, k2, k3⟩

/-- **C72** A union becomes an enum with a variant for each member type, first those which are named, then the inline ones,
and the unknown one. -/
theorem C72_union_partial (U : UnicodeTable) (root : Node) (t : Str) (hg : Grammatical root) (hs : CopySafe root)
    (h : convertXsd U root = .ok t) (is : List Item) (hi : HasItems t is) (c r : Node) (nm : Str)
    (hc : SimpleDecl root c nm r) (hrt : r.tag = "union".toList) :
    ∃ i ∈ is, i.path = [] ∧ i.attrs = ["#[derive(PartialEq, Debug, UtilsUnionSerDe)]".toList] ∧
      i.head = "pub enum ".toList ++ ((naming U root).type nm ++ " {".toList) ∧
      ∃ ws ms, MemberTypes r ws ∧
        List.Forall₂ (fun w m => m.name = (naming U root).case w.1 ∧ m.type = some ((naming U root).type w.2) ∧ m.attr = none)
          (ws.map (fun w => (w, w)) ++ (List.range (withTags r ["simpleType"]).length).map (fun k =>
            ("EnumCase_".toList ++ numeral k, "EnumCaseType_".toList ++ numeral k))) ms ∧
        readCaseLines none i.body = ms ++ [⟨none, "__Unknown__".toList, some ((naming U root).type "String".toList)⟩] := by
  obtain ⟨f, hp, hits⟩ := items_for hg hs h hi
  obtain ⟨ws, subs, h1, h2, hm⟩ := global_union hg hp hc.1 hc.2.1 hc.2.2.1 hc.2.2.2 hrt
  obtain ⟨i, him, k1, k0, k3, ms, k4, k5⟩ := hits _ hm ([], .entity (.enum (.mk nm _ (docOf c) "String".toList subs .union)))
    (by rw [originsOf]; exact List.mem_cons_self)
  refine ⟨i, him, k1, k0, k3, ws, ms, h1, ?_, k5⟩
  rw [← h2]
  have e : unionCasesOf ws subs.length = (ws.map (fun w => (w, w)) ++ (List.range subs.length).map (fun k =>
            ("EnumCase_".toList ++ numeral k, "EnumCaseType_".toList ++ numeral k))).map
      (fun w => ⟨w.1, none, [], some w.2, [], .union⟩) := by
    rw [unionCasesOf, List.map_append, List.map_map, List.map_map]
    rfl
  rw [e, List.forall₂_map_left_iff] at k4
  refine k4.imp fun w m hm => ?_
  obtain ⟨q1, q2, o, n, q3, q4⟩ := hm
  refine ⟨q1, q2, q4.trans (if_pos (.inl rfl))⟩

/-! Four simple types. -/

private def limit : Node := el "restriction" [("base", "xs:int")] [el "minInclusive" [("value", "1")] [], el "maxExclusive" [("value", "9")] []]
private def tones : Node := el "restriction" [("base", "xs:string")] [el "enumeration" [("value", "dark-red")] [], el "enumeration" [("value", "Blue")] []]
private def several : Node := el "list" [("itemType", "tns:Tone")] []
private def either : Node := el "union" [("memberTypes", "tns:Tone xs:int")] [el "simpleType" [] [el "restriction" [("base", "xs:string")] []]]
private def simple (n : String) (r : Node) : Node := el "simpleType" [("name", n)] [r]
private def simples : Node := doc [simple "Limit" limit, simple "Tone" tones, simple "Tones" several, simple "Either" either]

private instance (U : UnicodeTable) (v : Str) : Decidable (SimpleValue U v) := by unfold SimpleValue; infer_instance

private theorem simples_grammatical : Grammatical simples := grammatical_of rfl (by decide +kernel)
private theorem simples_copySafe : CopySafe simples :=
  copySafe_of (by decide +kernel) (by decide +kernel) (by decide +kernel) (by decide +kernel) (by decide +kernel)

private def bounds : List Facet := [⟨.minInclusive "1".toList, none⟩, ⟨.maxExclusive "9".toList, none⟩]
private def values : List Facet := [⟨.enumeration "dark-red".toList, none⟩, ⟨.enumeration "Blue".toList, none⟩]

private theorem limit_facets : FacetsOf limit.tag limit.children bounds :=
  .facet (.facet (s := "minInclusive") (by simp [facetTags]) (by decide +kernel) (by decide +kernel))
    (.facet (.facet (s := "maxExclusive") (by simp [facetTags]) (by decide +kernel) (by decide +kernel)) .nil)

private theorem tones_facets : FacetsOf tones.tag tones.children values :=
  .facet (.facet (s := "enumeration") (by simp [facetTags]) (by decide +kernel) (by decide +kernel))
    (.facet (.facet (s := "enumeration") (by simp [facetTags]) (by decide +kernel) (by decide +kernel)) .nil)

/-- All hypotheses are met by it. -/
example : Grammatical simples ∧ CopySafe simples ∧ (∃ t, convertXsd A simples = .ok t) ∧
    (SimpleDecl simples (simple "Limit" limit) "Limit".toList limit ∧ limit.tag = "restriction".toList ∧
      limit.attr "base".toList = some "xs:int".toList ∧ FacetsOf limit.tag limit.children bounds ∧ enumValues bounds = []) ∧
    (SimpleDecl simples (simple "Tone" tones) "Tone".toList tones ∧ tones.tag = "restriction".toList ∧
      tones.attr "base".toList = some "xs:string".toList ∧ FacetsOf tones.tag tones.children values ∧
      enumValues values ≠ [] ∧ ∀ v ∈ enumValues values, SimpleValue A v.1) ∧
    (SimpleDecl simples (simple "Tones" several) "Tones".toList several ∧ several.tag = "list".toList ∧
      several.attr "itemType".toList = some "tns:Tone".toList) ∧
    SimpleDecl simples (simple "Either" either) "Either".toList either ∧ either.tag = "union".toList := by
  refine ⟨simples_grammatical, simples_copySafe, ok_of (by decide +kernel),
    ⟨⟨?_, by decide +kernel, by decide +kernel, by rfl⟩, by decide +kernel, by decide +kernel, limit_facets, rfl⟩,
    ⟨⟨?_, by decide +kernel, by decide +kernel, by rfl⟩, by decide +kernel, by decide +kernel, tones_facets, by decide, by decide +kernel⟩,
    ⟨⟨?_, by decide +kernel, by decide +kernel, by rfl⟩, by decide +kernel, by decide +kernel⟩,
    ⟨?_, by decide +kernel, by decide +kernel, by rfl⟩, by decide +kernel⟩
  · show simple "Limit" limit ∈ [_, _, _, _]; simp
  · show simple "Tone" tones ∈ [_, _, _, _]; simp
  · show simple "Tones" several ∈ [_, _, _, _]; simp
  · show simple "Either" either ∈ [_, _, _, _]; simp

private def heads (t : Str) : List Str := (readItems [] [] (Gen.lns t)).map (·.head)

/-- The heads of the items. -/
example : ["pub struct Limit (pub i32);", "pub enum Tone {", "pub struct Tones (pub Vec<Tone>);", "pub enum Either {"].all
    (fun s => s.toList ∈ heads (okText (convertXsd A simples))) = true := by decide +kernel

/-- The variants of the enumeration and of the union. -/
example : ((readItems [] [] (Gen.lns (okText (convertXsd A simples)))).filter fun i =>
      i.head = "pub enum Tone {".toList ∨ i.head = "pub enum Either {".toList).map (fun i => readCaseLines none i.body) =
    [[⟨some (nameAttr [] none none "dark-red".toList), "DarkRed".toList, none⟩, ⟨none, "Blue".toList, none⟩,
      ⟨none, "__Unknown__".toList, some "String".toList⟩],
     [⟨none, "Tone".toList, some "Tone".toList⟩, ⟨none, "Int".toList, some "i32".toList⟩,
      ⟨none, "EnumCase0".toList, some "EnumCaseType0".toList⟩, ⟨none, "__Unknown__".toList, some "String".toList⟩]] := by
  decide +kernel

end Verif.Props
