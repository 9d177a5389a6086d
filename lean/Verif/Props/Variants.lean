import Verif.Props.Distinct
import Verif.Props.Simple
import Verif.Props.Generator
import Verif.Props.XmlEverywhere
import Verif.Lemmas.Variants

/-! # C99: the variants of an enum have different names -/

namespace Verif.Props

open Verif Verif.Model Verif.Spec Verif.RoXml Verif.Lemmas Verif.Lemmas.Parse Verif.Lemmas.Gen Inflector

open Verif.Props.Sample

/-- **C99** A variant has the letters and digits of the local name for which it stands. -/
theorem C99_letters (g : GenCtx) (c : EnumCase) (o : Option Str) (n : Str) (hr : Ref o n c.name) :
    skeleton asciiAlnum (caseName g c) = skeleton asciiAlnum n := by
  obtain ⟨h1, h2⟩ := caseName_eq (g := g) hr
  have hT : skeleton asciiAlnum (filterTypeName g.U (toPascalCase g.U n)) = skeleton asciiAlnum n := by
    rw [← typeName_skeleton g.U n, skeleton, List.filter_eq_self.2]
    intro c hc; rw [typeName_eq] at hc; exact (List.mem_filter.1 hc).2
  by_cases ho : o = none ∨ o = g.targetNs.bind (·.name)
  · rw [h1 ho]
    rcases sanitize_or g.U (filterTypeName g.U (toPascalCase g.U n)) with e | e
    · rw [e, hT]
    · rw [e, ← hT, skeleton, List.filter_cons_of_neg (by decide), ← skeleton]
  · rw [h2 ho, hT]

private theorem variants_nodup {g : GenCtx} {vs : List Str} (h : UnlikeNames vs) (ms : List Verif.Spec.Member) (t : Option Str)
    (hm : ms.map (·.name) = vs.map fun v => caseName g { name := v }) :
    ((ms ++ [(⟨none, "__Unknown__".toList, t⟩ : Verif.Spec.Member)]).map (·.name)).Nodup := by
  rw [List.map_append, hm, List.map_singleton]
  refine List.nodup_append.2 ⟨?_, List.nodup_singleton _, ?_⟩
  · refine (List.pairwise_map.2 (h.imp fun {a b} k e => ?_))
    refine k _ _ _ _ (splitName_iff.1 rfl) (splitName_iff.1 rfl) ?_
    rw [← C99_letters g { name := a } _ _ (splitName_iff.1 rfl), ← C99_letters g { name := b } _ _ (splitName_iff.1 rfl), e]
  · intro x hx y hy e
    obtain ⟨v, -, rfl⟩ := List.mem_map.1 hx
    obtain rfl := List.mem_singleton.1 hy
    exact C38_unknown_distinct g _ e

private theorem forall₂_map_eq {α β γ : Type _} {f : α → γ} {k : β → γ} {R : α → β → Prop} {as : List α} {bs : List β}
    (h : List.Forall₂ R as bs) (hr : ∀ a b, R a b → k b = f a) : bs.map k = as.map f := by
  induction h with
  | nil => rfl
  | cons h1 _ ih => rw [List.map_cons, List.map_cons, hr _ _ h1, ih]

/-- **C99** The variants of an enum, with that for unknown values, have different names if the local names of its cases differ in
more than case and punctuation. -/
theorem C99_cases_partial (g : GenCtx) (n : Str) (cs : List EnumCase) (c : Option Str) (t : Str) (ss : List RsEntity)
    (src : EnumSource) (r : Str) (ls : List Str) (hn : SafeTexts (.enum (.mk n cs c t ss src)))
    (ht : SafeNamespace g.targetNs) (h : generate g (.enum (.mk n cs c t ss src)) = .ok r) (hl : Lines r ls)
    (hu : UnlikeNames (cs.map (·.name))) :
    ((readCaseLines none (bodyOf ("pub enum ".toList ++ (g.typeName n ++ " {".toList)) ls)).map (·.name)).Nodup := by
  obtain ⟨ms, h1, h2⟩ := C38_cases g n cs c t ss src r ls hn ht h hl
  rw [h2]
  refine variants_nodup (g := g) hu ms _ ?_
  rw [List.map_map]
  exact forall₂_map_eq h1 fun a b hab => hab.1

/-- **C99** The variants for the values of an enumeration have different names, if the values differ in more than case and
hyphens. -/
theorem C99_enumeration_partial (U : UnicodeTable) (root : Node) (t : Str) (hg : Grammatical root) (hs : CopySafe root)
    (h : convertXsd U root = .ok t) (is : List Item) (hi : HasItems t is) (c r : Node) (nm base : Str) (fs : List Facet)
    (hc : SimpleDecl root c nm r) (hrt : r.tag = "restriction".toList) (hb : r.attr "base".toList = some base)
    (hf : FacetsOf r.tag r.children fs) (he : enumValues fs ≠ []) (hv : ∀ v ∈ enumValues fs, SimpleValue U v.1)
    (hu : Unlike ((enumValues fs).map (·.1))) :
    ∃ i ∈ is, i.path = [] ∧ i.head = "pub enum ".toList ++ ((naming U root).type nm ++ " {".toList) ∧
      ((readCaseLines none i.body).map (·.name)).Nodup := by
  obtain ⟨i, h1, h2, h3, ms, h4, h5⟩ := C72_enumeration_partial U root t hg hs h is hi c r nm base fs hc hrt hb hf he hv
  refine ⟨i, h1, h2, h3, ?_⟩
  rw [h5]
  refine variants_nodup (g := ⟨U, targetNamespace root, xsdNamespace root⟩) (vs := (enumValues fs).map (·.1)) ?_ ms _
    (forall₂_map_eq h4 fun a b hab => hab.1)
  refine Dis.values_unlike (U := U) (fun v hm => ?_) hu
  obtain ⟨w, hw, rfl⟩ := List.mem_map.1 hm
  exact hv w hw

/-- **C99** The variants of a union have different names, if the local names of its member types differ in more than case and
punctuation, and none of them is called like the numbered variants for inline types. -/
theorem C99_union_partial (U : UnicodeTable) (root : Node) (t : Str) (hg : Grammatical root) (hs : CopySafe root)
    (h : convertXsd U root = .ok t) (is : List Item) (hi : HasItems t is) (c r : Node) (nm : Str)
    (hc : SimpleDecl root c nm r) (hrt : r.tag = "union".toList)
    (hu : ∀ ws, MemberTypes r ws → UnlikeNames ws ∧ ∀ w ∈ ws, ∀ o n k, Ref o n w → k < (withTags r ["simpleType"]).length →
      skeleton asciiAlnum n ≠ skeleton asciiAlnum ("EnumCase_".toList ++ numeral k)) :
    ∃ i ∈ is, i.path = [] ∧ i.head = "pub enum ".toList ++ ((naming U root).type nm ++ " {".toList) ∧
      ((readCaseLines none i.body).map (·.name)).Nodup := by
  obtain ⟨i, h1, h2, -, h3, ws, ms, h4, h5, h6⟩ := C72_union_partial U root t hg hs h is hi c r nm hc hrt
  refine ⟨i, h1, h2, h3, ?_⟩
  obtain ⟨u1, u2⟩ := hu ws h4
  rw [h6]
  refine variants_nodup (g := ⟨U, targetNamespace root, xsdNamespace root⟩)
    (vs := ws ++ (List.range (withTags r ["simpleType"]).length).map fun k => "EnumCase_".toList ++ numeral k) ?_ ms _ ?_
  · exact Dis.union_unlike u1 u2
  · rw [forall₂_map_eq h5 (f := fun w => caseName ⟨U, targetNamespace root, xsdNamespace root⟩ { name := w.1 }) fun a b hab => hab.1]
    rw [List.map_append, List.map_append, List.map_map, List.map_map, List.map_map]
    rfl

/-- **C99** The variants of every enum in the code, at any depth, have different names, if the elements of each choice, the
values of each enumeration and the member types of each union differ in more than case and punctuation. -/
theorem C99_everywhere_partial (U : UnicodeTable) (root : Node) (t : Str) (hg : Grammatical root) (hf : ProperForms root)
    (hs : CopySafe root) (hu : SeparateVariants U root) (h : convertXsd U root = .ok t) (is : List Item) (hi : HasItems t is) :
    ∀ i ∈ is, "pub enum ".toList <+: i.head → ((readCaseLines none i.body).map (·.name)).Nodup := by
  intro i hii hst
  obtain ⟨f, hpf, is', h1, h2⟩ := C69_document U root t hg hs h
  obtain rfl := C69_determined t is is' hi h1
  have hd := (parseFile_deep Dis.varied_fieldwise (fun c hc e he => by
    obtain ⟨k, hk⟩ := (reads_iff hg hf (global_located hg hc)).1 he
    refine Dis.reads_varied U hu k (.child .root hc) (fun a ha => ?_) hk
    obtain rfl := List.mem_singleton.1 ha
    exact .root) hpf).1
  obtain ⟨⟨q, o⟩, hx, -, hxi⟩ := forall₂_left h2 i hii
  have clash : ∀ {p r : Str}, i.head = p ++ r → 5 ≤ p.length → p.take 5 ≠ "pub e".toList → False := by
    intro p r e hl hne
    obtain ⟨r', hr'⟩ := hst
    have := congrArg (List.take 5) (hr'.trans e)
    rw [List.take_append_of_le_length hl] at this
    exact hne this.symm
  cases o with
  | inner n => exact (clash hxi.2.1 (by decide) (by decide)).elim
  | default n => exact (clash hxi.2.1 (by decide) (by decide)).elim
  | validate n t ms fs =>
    obtain ⟨cs, -, ⟨-, ⟨-, h, -⟩ | ⟨-, h, -⟩⟩, -⟩ := hxi
    · exact (clash h (by decide) (by decide)).elim
    · exact (clash h (by decide) (by decide)).elim
  | entity e =>
    have hv := ((origins_embeddedList _ _ _ q e hx).1 _ hd).here
    have hxi : EntityItem _ _ e i := hxi
    cases e with
    | struct s =>
      obtain ⟨n, c, fs, ag, sub⟩ := s
      exact (clash hxi.2.2 (by decide) (by decide)).elim
    | tupleStruct s =>
      obtain ⟨n, c, t, sub, ms, fs⟩ := s
      exact (clash hxi.2.1 (by decide) (by decide)).elim
    | enum s =>
      obtain ⟨n, cs, c, t, sub, src⟩ := s
      obtain ⟨-, -, ms, p2, p3⟩ := hxi
      have hv : UnlikeNames (cs.map (·.name)) := hv
      rw [p3]
      refine variants_nodup (g := ⟨U, targetNamespace root, xsdNamespace root⟩) hv ms _ ?_
      rw [List.map_map]
      exact forall₂_map_eq p2 fun a b hab => hab.1
    | «alias» s =>
      obtain ⟨n, o, c, sub⟩ := s
      exact (clash hxi.2.1 (by decide) (by decide)).elim
    | _ => exact hxi.elim

/-! ## Examples -/

private def marks : Node := el "restriction" [("base", "xs:string")]
  [el "enumeration" [("value", "dark-red")] [], el "enumeration" [("value", "Blue")] [], el "enumeration" [("value", "2")] []]
private def either : Node := el "union" [("memberTypes", "tns:Mark xs:int")] [el "simpleType" [] [el "restriction" [("base", "xs:string")] []],
  el "simpleType" [] [el "restriction" [("base", "xs:date")] []]]
private def simple (n : String) (r : Node) : Node := el "simpleType" [("name", n)] [r]
private def simples : Node := doc [simple "Mark" marks, simple "Either" either]
private def values : List Facet := [⟨.enumeration "dark-red".toList, none⟩, ⟨.enumeration "Blue".toList, none⟩, ⟨.enumeration "2".toList, none⟩]

private theorem marks_facets : FacetsOf marks.tag marks.children values :=
  .facet (.facet (s := "enumeration") (by simp [facetTags]) (by decide +kernel) (by decide +kernel))
    (.facet (.facet (s := "enumeration") (by simp [facetTags]) (by decide +kernel) (by decide +kernel))
      (.facet (.facet (s := "enumeration") (by simp [facetTags]) (by decide +kernel) (by decide +kernel)) .nil))

private instance (U : UnicodeTable) (v : Str) : Decidable (SimpleValue U v) := by unfold SimpleValue; infer_instance

private theorem unlikeNames_of {vs : List Str}
    (h : vs.Pairwise fun a b => skeleton asciiAlnum (splitName a).2 ≠ skeleton asciiAlnum (splitName b).2) : UnlikeNames vs :=
  h.imp fun k o n p m ra rb => by
    have e1 := splitName_iff.2 ra
    have e2 := splitName_iff.2 rb
    rwa [e1, e2] at k

/-- An enumeration and a union with inline types meet the hypotheses. -/
example : ∃ t, convertXsd A simples = .ok t ∧ ∀ is, HasItems t is →
    (∃ i ∈ is, i.path = [] ∧ i.head = "pub enum Mark {".toList ∧ ((readCaseLines none i.body).map (·.name)).Nodup) ∧
    ∃ i ∈ is, i.path = [] ∧ i.head = "pub enum Either {".toList ∧ ((readCaseLines none i.body).map (·.name)).Nodup := by
  have hg : Grammatical simples := grammatical_of rfl (by decide +kernel)
  have hs : CopySafe simples :=
    copySafe_of (by decide +kernel) (by decide +kernel) (by decide +kernel) (by decide +kernel) (by decide +kernel)
  obtain ⟨t, ht⟩ := ok_of (r := convertXsd A simples) (by decide +kernel)
  refine ⟨t, ht, fun is hi => ⟨?_, ?_⟩⟩
  · have := C99_enumeration_partial A simples t hg hs ht is hi (simple "Mark" marks) marks "Mark".toList "xs:string".toList values
      ⟨by show simple "Mark" marks ∈ [_, _]; simp, by decide +kernel, by decide +kernel, by rfl⟩ (by decide +kernel) (by decide +kernel)
      marks_facets (by decide) (by decide +kernel) (by decide +kernel)
    have e : (naming A simples).type "Mark".toList = "Mark".toList := by decide +kernel
    rw [e] at this
    exact this
  · have := C99_union_partial A simples t hg hs ht is hi (simple "Either" either) either "Either".toList
      ⟨by show simple "Either" either ∈ [_, _]; simp, by decide +kernel, by decide +kernel, by rfl⟩ (by decide +kernel) (by
        intro ws hws
        have e : ws = ["tns:Mark".toList, "xs:int".toList] := by
          cases hws with
          | none h => exact absurd h (by decide +kernel)
          | some h h' =>
            have : "tns:Mark xs:int".toList = _ := Option.some.inj h
            subst this
            rw [spaceSeparated_iff.1 h']
            decide +kernel
        subst e
        refine ⟨unlikeNames_of (by decide +kernel), fun w hw o n k hr hk => ?_⟩
        have e := splitName_iff.2 hr
        have key : ∀ w ∈ ["tns:Mark".toList, "xs:int".toList], ∀ k < 2,
            skeleton asciiAlnum (splitName w).2 ≠ skeleton asciiAlnum ("EnumCase_".toList ++ numeral k) := by decide +kernel
        have := key w hw k hk
        rwa [e] at this)
    have e : (naming A simples).type "Either".toList = "Either".toList := by decide +kernel
    rw [e] at this
    exact this

/-- The values which are enumerated. -/
def valuesOf (cs : List Node) : List Str :=
  (cs.filter fun c => decide (c.tag = "enumeration".toList)).filterMap fun c => c.attr "value".toList

private theorem values_sublist {p : Str} {cs : List Node} {fs : List Facet} (h : FacetsOf p cs fs) :
    ((enumValues fs).map (·.1)).Sublist (valuesOf cs) := by
  have weak : ∀ c cs, (valuesOf cs).Sublist (valuesOf (c :: cs)) := fun c cs =>
    ((List.sublist_cons_self c cs).filter _).filterMap _
  induction h with
  | nil => exact .slnil
  | @facet c cs f fs h1 _ ih =>
    cases f with
    | enumeration v =>
      have key : ∀ t, KindOf (some p) c t → t = .facet (.enumeration v) →
          c.tag = "enumeration".toList ∧ c.attr "value".toList = some v := by
        intro t ht e
        cases ht with
        | facet h1 h2 h3 =>
          have e := ElementType.facet.inj e
          simp only [facetTags, List.mem_cons, List.not_mem_nil, or_false, Prod.mk.injEq] at h1
          rcases h1 with ⟨rfl, rfl⟩ | ⟨rfl, rfl⟩ | ⟨rfl, rfl⟩ | ⟨rfl, rfl⟩ | ⟨rfl, rfl⟩ | ⟨rfl, rfl⟩ | ⟨rfl, rfl⟩ | ⟨rfl, rfl⟩ |
            ⟨rfl, rfl⟩ | ⟨rfl, rfl⟩ | ⟨rfl, rfl⟩
          · obtain rfl := FacetType.enumeration.inj e
            exact ⟨h2, h3⟩
          all_goals exact nomatch e
        | plain h =>
          subst e
          have : ∀ x ∈ plainTags, ∀ f, x.2 ≠ .facet f := by simp [plainTags]
          exact absurd rfl (this _ h _)
        | _ => exact nomatch e
      obtain ⟨k1, k2⟩ := key _ h1 rfl
      rw [valuesOf, List.filter_cons_of_pos (by exact decide_eq_true k1), List.filterMap_cons, k2]
      exact ih.cons_cons _
    | _ => exact ih.trans (weak _ _)
  | skip _ _ _ ih => exact ih.trans (weak _ _)

/-- What the variant for an element of a choice is called. -/
def variantOf (e : Node) : Option Str := e.attr "ref".toList <|> e.attr "name".toList

/-- What separates the names of variants, as a computation. -/
def LocallyUnlike (vs : List Str) : Prop :=
  vs.Pairwise fun a b => skeleton asciiAlnum (splitName a).2 ≠ skeleton asciiAlnum (splitName b).2

instance (vs : List Str) : Decidable (LocallyUnlike vs) := by unfold LocallyUnlike; infer_instance

/-- The member types differ from each other and from the numbered variants. -/
def SeparateMembers (ws : List Str) (l : Nat) : Prop := LocallyUnlike ws ∧
  ∀ w ∈ ws, ∀ k < l, skeleton asciiAlnum (splitName w).2 ≠ skeleton asciiAlnum ("EnumCase_".toList ++ numeral k)

instance (ws : List Str) (l : Nat) : Decidable (SeparateMembers ws l) := by unfold SeparateMembers; infer_instance

/-- The variants for a schema are separate if this can be computed. -/
theorem separateVariants_of {U : UnicodeTable} {root : Node}
    (h1 : ∀ c ∈ elements root, Is c ["choice"] → LocallyUnlike ((withTags c ["element"]).filterMap variantOf))
    (h2 : ∀ r ∈ elements root, Is r ["restriction"] → Unlike (valuesOf r.children))
    (h3 : ∀ u ∈ elements root, Is u ["union"] →
      SeparateMembers ((Str.splitOn ' ' ((u.attr "memberTypes".toList).getD [])).filter (· ≠ [])) (withTags u ["simpleType"]).length) :
    SeparateVariants U root where
  choices := by
    intro c vs hc ht hv
    have := unlikeNames_of (h1 c (partOf_elements hc) ht)
    suffices e : (withTags c ["element"]).filterMap variantOf = vs by rwa [e] at this
    clear this
    generalize withTags c ["element"] = es at hv
    induction hv with
    | nil => rfl
    | cons h _ ih =>
      rcases h with h | ⟨h, h'⟩
      · rw [List.filterMap_cons, variantOf, h, ih]; rfl
      · rw [List.filterMap_cons, variantOf, h, h', ih]; rfl
  values := fun r fs hr ht hf _ => (h2 r (partOf_elements hr) ht).sublist (values_sublist hf)
  unions := by
    intro u ws hu ht hw
    have k := h3 u (partOf_elements hu) ht
    suffices e : (Str.splitOn ' ' ((u.attr "memberTypes".toList).getD [])).filter (· ≠ []) = ws by
      rw [e] at k
      refine ⟨unlikeNames_of k.1, fun w hw o n i hr hi => ?_⟩
      have := k.2 w hw i hi
      rwa [splitName_iff.2 hr] at this
    cases hw with
    | none h => rw [h]; rfl
    | some h h' => rw [h]; exact (spaceSeparated_iff.1 h').symm

private def house : Node := doc
  [el "complexType" [("name", "House")] [el "sequence" []
      [el "element" [("name", "door")] [el "complexType" [] [el "sequence" []
        [el "element" [("name", "color")] [el "simpleType" [] [marks]],
         el "element" [("name", "width")] [el "simpleType" [] [either]]]]],
       el "choice" [] [el "element" [("name", "stairs"), ("type", "xs:int")] [], el "element" [("ref", "tns:lift")] [],
         el "element" [("name", "unknown"), ("type", "xs:int")] []]]],
   el "complexType" [("name", "Way")] [el "choice" [] [el "element" [("name", "by_car"), ("type", "xs:int")] [],
     el "element" [("name", "by_train"), ("type", "xs:int")] []]],
   el "element" [("name", "lift"), ("type", "tns:House")] []]

/-- Choices, also with references and with an element called `unknown`, and inline enumerations and unions of inline types. -/
example : ∃ t is, convertXsd A house = .ok t ∧ HasItems t is ∧
    (is.filter fun i => "pub enum ".toList.isPrefixOf i.head).map (fun i => (readCaseLines none i.body).map fun m => String.ofList m.name) =
      [["DarkRed", "Blue", "_2", "__Unknown__"], ["Mark", "Int", "EnumCase0", "EnumCase1", "__Unknown__"],
       ["Stairs", "Lift", "Unknown", "__Unknown__"], ["ByCar", "ByTrain", "__Unknown__"]] ∧
    ∀ i ∈ is, "pub enum ".toList <+: i.head → ((readCaseLines none i.body).map (·.name)).Nodup := by
  refine ⟨_, _, okText_eq (by decide +kernel), ⟨_, Gen.lines_lns _, rfl⟩, by decide +kernel, ?_⟩
  exact C99_everywhere_partial A house _ (grammatical_of rfl (by decide +kernel))
    (properForms_of (by decide +kernel) (by decide +kernel) (by decide +kernel))
    (copySafe_of (by decide +kernel) (by decide +kernel) (by decide +kernel) (by decide +kernel) (by decide +kernel))
    (separateVariants_of (by decide +kernel) (by decide +kernel) (by decide +kernel)) (okText_eq (by decide +kernel)) _
    ⟨_, Gen.lines_lns _, rfl⟩

/-! ## Violations -/

private def twice (r : Node) : Node := doc [simple "Foo" r]
private def letters : Node := twice (el "restriction" [("base", "xs:string")]
  [el "enumeration" [("value", "a")] [], el "enumeration" [("value", "A")] []])
private def hyphens : Node := twice (el "restriction" [("base", "xs:string")]
  [el "enumeration" [("value", "1-0")] [], el "enumeration" [("value", "10")] []])
private def likeBuiltIn : Node := doc [simple "int" (el "restriction" [("base", "xs:string")] []),
  simple "Foo" (el "union" [("memberTypes", "xs:int tns:int")] [])]
private def likeNumbered : Node := doc [simple "enum-case-0" (el "restriction" [("base", "xs:string")] []),
  simple "Foo" (el "union" [("memberTypes", "tns:enum-case-0")] [el "simpleType" [] [el "restriction" [("base", "xs:int")] []]])]

private def likeElements : Node := doc [el "complexType" [("name", "Foo")] [el "choice" []
  [el "element" [("name", "by_car"), ("type", "xs:int")] [], el "element" [("name", "byCar"), ("type", "xs:int")] []]]]

/-- **C99** (violated) Otherwise there are two variants of the same name: for values which differ in case or hyphens only, for
elements of a choice which differ in case or underscores only, for types of the same name in different namespaces, for a type called
like the variant of an inline type. -/
theorem C99_variants_violated :
    ∀ root ∈ [letters, hyphens, likeElements, likeBuiltIn, likeNumbered], Grammatical root ∧ CopySafe root ∧
      ∃ t is, convertXsd A root = .ok t ∧ HasItems t is ∧
      ∃ i ∈ is, "pub enum ".toList <+: i.head ∧ ¬ ((readCaseLines none i.body).map (·.name)).Nodup := by
  intro root hr
  simp only [List.mem_cons, List.not_mem_nil, or_false] at hr
  rcases hr with rfl | rfl | rfl | rfl | rfl <;>
  exact ⟨grammatical_of rfl (by decide +kernel),
    copySafe_of (by decide +kernel) (by decide +kernel) (by decide +kernel) (by decide +kernel) (by decide +kernel),
    _, _, okText_eq (by decide +kernel), ⟨_, Gen.lines_lns _, rfl⟩, by decide +kernel⟩

end Verif.Props
