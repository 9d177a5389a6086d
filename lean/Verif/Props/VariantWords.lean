import Verif.Props.Variants
import Verif.Props.Words

/-! # C99: cases whose names are made of words -/

namespace Verif.Props

open Verif Verif.Model Verif.Spec Verif.RoXml Verif.Lemmas Verif.Lemmas.Parse Verif.Lemmas.Gen Inflector

open Verif.Props.Sample

private theorem case_words {g : GenCtx} {c : EnumCase} {ws : List Str} (h : Worded c.name ws) :
    caseName g c = defaultFormatType g.U c.name none := by
  have hb := worded_bare h
  rw [(caseName_eq (g := g) (c := c) (.bare hb)).1 (.inl rfl), defaultFormatType, splitName_none.2 ⟨hb, rfl⟩]

private theorem mem_words {g : GenCtx} {cs : List EnumCase} {wss : List (List Str)} (h : List.Forall₂ (fun c ws => Worded c.name ws) cs wss)
    {c : EnumCase} {ws : List Str} (hc : Worded c.name ws) : caseName g c ∈ cs.map (caseName g) ↔ ws ∈ wss := by
  induction h with
  | nil => simp
  | cons a _ ih =>
    rw [List.map_cons, List.mem_cons, List.mem_cons, ih, case_words hc, case_words a, C31_type_styles g.U _ _ _ _ hc a]

private theorem variants_iff {g : GenCtx} {cs : List EnumCase} {wss : List (List Str)} (h : List.Forall₂ (fun c ws => Worded c.name ws) cs wss)
    (ms : List Verif.Spec.Member) (t : Option Str) (hm : ms.map (·.name) = cs.map (caseName g)) :
    ((ms ++ [(⟨none, "__Unknown__".toList, t⟩ : Verif.Spec.Member)]).map (·.name)).Nodup ↔ wss.Nodup := by
  have key : (cs.map (caseName g)).Nodup ↔ wss.Nodup := by
    clear hm
    induction h with
    | nil => simp
    | cons a hk ih =>
      rw [List.map_cons, List.nodup_cons, List.nodup_cons]
      exact and_congr (not_congr (mem_words hk a)) ih
  rw [List.map_append, hm, List.map_singleton, ← key]
  refine ⟨fun k => (List.nodup_append.1 k).1, fun k => List.nodup_append.2 ⟨k, List.nodup_singleton _, ?_⟩⟩
  intro x hx y hy e
  obtain ⟨v, -, rfl⟩ := List.mem_map.1 hx
  obtain rfl := List.mem_singleton.1 hy
  exact C38_unknown_distinct g _ e

private theorem forall₂_map_eq {α β γ : Type _} {f : α → γ} {k : β → γ} {R : α → β → Prop} {as : List α} {bs : List β}
    (h : List.Forall₂ R as bs) (hr : ∀ a b, R a b → k b = f a) : bs.map k = as.map f := by
  induction h with
  | nil => rfl
  | cons h1 _ ih => rw [List.map_cons, List.map_cons, hr _ _ h1, ih]

/-- **C99** If the names of the cases are made of words, in any style, then the variants have different names exactly if no two cases have
the same words. -/
theorem C99_cases_iff (g : GenCtx) (n : Str) (cs : List EnumCase) (c : Option Str) (t : Str) (ss : List RsEntity)
    (src : EnumSource) (r : Str) (ls : List Str) (hn : SafeTexts (.enum (.mk n cs c t ss src)))
    (ht : SafeNamespace g.targetNs) (h : generate g (.enum (.mk n cs c t ss src)) = .ok r) (hl : Lines r ls)
    (wss : List (List Str)) (hw : List.Forall₂ (fun c ws => Worded c.name ws) cs wss) :
    ((readCaseLines none (bodyOf ("pub enum ".toList ++ (g.typeName n ++ " {".toList)) ls)).map (·.name)).Nodup ↔ wss.Nodup := by
  obtain ⟨ms, h1, h2⟩ := C38_cases g n cs c t ss src r ls hn ht h hl
  rw [h2]
  exact variants_iff hw ms _ (forall₂_map_eq h1 fun a b hab => hab.1)

/-- **C99** Likewise for the values of an enumeration in a schema. -/
theorem C99_enumeration_iff (U : UnicodeTable) (root : Node) (t : Str) (hg : Grammatical root) (hs : CopySafe root)
    (h : convertXsd U root = .ok t) (is : List Item) (hi : HasItems t is) (c r : Node) (nm base : Str) (fs : List Facet)
    (hc : SimpleDecl root c nm r) (hrt : r.tag = "restriction".toList) (hb : r.attr "base".toList = some base)
    (hf : FacetsOf r.tag r.children fs) (he : enumValues fs ≠ []) (hv : ∀ v ∈ enumValues fs, SimpleValue U v.1)
    (wss : List (List Str)) (hw : List.Forall₂ (fun v ws => Worded v ws) ((enumValues fs).map (·.1)) wss) :
    ∃ i ∈ is, i.path = [] ∧ i.head = "pub enum ".toList ++ ((naming U root).type nm ++ " {".toList) ∧
      (((readCaseLines none i.body).map (·.name)).Nodup ↔ wss.Nodup) := by
  obtain ⟨i, h1, h2, h3, ms, h4, h5⟩ := C72_enumeration_partial U root t hg hs h is hi c r nm base fs hc hrt hb hf he hv
  refine ⟨i, h1, h2, h3, ?_⟩
  rw [h5]
  refine variants_iff (g := ⟨U, targetNamespace root, xsdNamespace root⟩) (cs := ((enumValues fs).map (·.1)).map fun v => { name := v })
    (List.forall₂_map_left_iff.2 hw) ms _ ?_
  rw [List.map_map]
  exact forall₂_map_eq h4 fun a b hab => hab.1

private abbrev A := UnicodeTable.ascii
private def marks (v : String) : Node := el "restriction" [("base", "xs:string")]
  [el "enumeration" [("value", "darkRed")] [], el "enumeration" [("value", v)] []]
private def simples (v : String) : Node := doc [el "simpleType" [("name", "Mark")] [marks v]]
private def values (v : String) : List Facet := [⟨.enumeration "darkRed".toList, none⟩, ⟨.enumeration v.toList, none⟩]
private instance (U : UnicodeTable) (v : Str) : Decidable (SimpleValue U v) := by unfold SimpleValue; infer_instance
private theorem short : ∀ w ∈ ["dark".toList, "light".toList, "red".toList], LowerWord w ∧ 2 ≤ w.length := by unfold LowerWord; decide
private theorem darkRed : Worded "darkRed".toList ["dark".toList, "red".toList] :=
  .inr (.mk (v := "dark".toList) (vs := ["Red".toList]) (.inl rfl) (.cons (.mk (by decide)) .nil) (fun x hx => short x (by revert x; decide)))

/-- Values of the same words, and of different ones. -/
example : ∀ v ∈ [("dark-red", "dark"), ("light-red", "light")], ∃ t, convertXsd A (simples v.1) = .ok t ∧ ∀ is, HasItems t is →
    ∃ i ∈ is, i.path = [] ∧ i.head = "pub enum ".toList ++ ("Mark".toList ++ " {".toList) ∧
      (((readCaseLines none i.body).map (·.name)).Nodup ↔ [["dark".toList, "red".toList], [v.2.toList, "red".toList]].Nodup) := by
  intro v hv
  have hw : Worded v.1.toList [v.2.toList, "red".toList] := by
    simp only [List.mem_cons, List.not_mem_nil, or_false] at hv
    rcases hv with rfl | rfl
    · exact .inl (.more (s := ['-']) (short "dark".toList (by decide)).1 (by decide) (by decide) (.one (short "red".toList (by decide)).1))
    · exact .inl (.more (s := ['-']) (short "light".toList (by decide)).1 (by decide) (by decide) (.one (short "red".toList (by decide)).1))
  have hfacets : FacetsOf (marks v.1).tag (marks v.1).children (values v.1) := by
    simp only [List.mem_cons, List.not_mem_nil, or_false] at hv
    rcases hv with rfl | rfl <;>
    exact .facet (.facet (s := "enumeration") (by simp [facetTags]) (by decide +kernel) (by decide +kernel))
      (.facet (.facet (s := "enumeration") (by simp [facetTags]) (by decide +kernel) (by decide +kernel)) .nil)
  have all : Grammatical (simples v.1) ∧ CopySafe (simples v.1) ∧ (∃ t, convertXsd A (simples v.1) = .ok t) ∧
      (∀ w ∈ enumValues (values v.1), SimpleValue A w.1) ∧ (naming A (simples v.1)).type "Mark".toList = "Mark".toList := by
    simp only [List.mem_cons, List.not_mem_nil, or_false] at hv
    rcases hv with rfl | rfl <;>
    exact ⟨grammatical_of rfl (by decide +kernel),
      copySafe_of (by decide +kernel) (by decide +kernel) (by decide +kernel) (by decide +kernel) (by decide +kernel),
      ok_of (by decide +kernel), by decide +kernel, by decide +kernel⟩
  obtain ⟨hg, hs, ⟨t, ht⟩, hsv, e⟩ := all
  refine ⟨t, ht, fun is hi => ?_⟩
  rw [← e]
  exact C99_enumeration_iff A (simples v.1) t hg hs ht is hi (el "simpleType" [("name", "Mark")] [marks v.1]) (marks v.1) "Mark".toList
    "xs:string".toList (values v.1) ⟨by show _ ∈ [_]; simp, by rfl, by rfl, by rfl⟩ (by rfl) (by rfl)
    hfacets (by simp [values, enumValues]) hsv _ (.cons darkRed (.cons hw .nil))

end Verif.Props
