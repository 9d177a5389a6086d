import Verif.Props.Items
import Verif.Props.Generator
import Verif.Lemmas.Denote

/-! # C73: from schema documents to the generated code -/

namespace Verif.Props

open Verif Verif.Model Verif.Spec Verif.RoXml Verif.Lemmas Verif.Lemmas.Parse

open Verif.Props.Sample

/-- **C73** The parser returns for a part of a schema exactly the entity which it is. -/
theorem C73_part (U : UnicodeTable) (root c : Node) (e : RsEntity) (hg : Grammatical root) (hf : ProperForms root)
    (hc : c ∈ members root) : parseNode U c root [] = .ok e ↔ ReadsAs U c root [] e :=
  reads_iff hg hf (global_located hg hc)

/-- **C73** The parser returns for a schema exactly the file which it is, with the fields of bases and attribute groups
copied into the types that refer to them. -/
theorem C73_file (U : UnicodeTable) (root : Node) (g : RsFile) (hg : Grammatical root) (hf : ProperForms root) :
    parseFile U root = .ok g ↔ ∃ f, ReadsFile U root f ∧ ExtendedFile f g := by
  unfold parseFile
  constructor
  · intro h
    obtain ⟨f, h1, h2⟩ := Res.bind_eq_ok.1 h
    exact ⟨f, (readsFile_iff hg hf).1 h1, Ext.extendFile_iff.1 h2⟩
  · rintro ⟨f, h1, h2⟩
    exact Res.bind_eq_ok.2 ⟨f, (readsFile_iff hg hf).2 h1, Ext.extendFile_iff.2 h2⟩

/-- **C73** A schema is at most one file. -/
theorem C73_determined (U : UnicodeTable) (root : Node) (f f' g g' : RsFile) (hg : Grammatical root) (hf : ProperForms root)
    (h1 : ReadsFile U root f) (h2 : ReadsFile U root f') (h3 : ExtendedFile f g) (h4 : ExtendedFile f' g') : f = f' ∧ g = g' :=
  ⟨Res.ok.inj (((readsFile_iff hg hf).2 h1).symm.trans ((readsFile_iff hg hf).2 h2)),
    Res.ok.inj (((C73_file U root g hg hf).2 ⟨f, h1, h3⟩).symm.trans ((C73_file U root g' hg hf).2 ⟨f', h2, h4⟩))⟩

/-- **C73** A schema is converted exactly if it is some file whose length facets are numbers of 32 bits. -/
theorem C73_converted (U : UnicodeTable) (root : Node) (hg : Grammatical root) (hf : ProperForms root) :
    (∃ t, convertXsd U root = .ok t) ↔ ∃ f g, ReadsFile U root f ∧ ExtendedFile f g ∧
      ∀ ts, .tupleStruct ts ∈ generatedList g.types → ∀ fc ∈ ts.facets, ∀ v,
        fc.facetType = .length v ∨ fc.facetType = .maxLength v ∨ fc.facetType = .minLength v → ∃ n, U32Text v n := by
  have key : ∀ g, (∃ t, (generateRsFile U g).1 = .ok t) ↔ ∀ ts, .tupleStruct ts ∈ generatedList g.types → ∀ fc ∈ ts.facets,
      ∀ v, fc.facetType = .length v ∨ fc.facetType = .maxLength v ∨ fc.facetType = .minLength v → ∃ n, U32Text v n := by
    intro g
    have hp := C55_panic_iff U g
    constructor
    · rintro ⟨t, ht⟩ ts h1 fc h2 v h3
      by_contra h4
      rw [hp.2 ⟨ts, h1, fc, h2, v, h3, h4⟩] at ht
      exact nomatch ht
    · intro h
      rcases C55_total U g with k | k
      · obtain ⟨ts, h1, fc, h2, v, h3, h4⟩ := hp.1 k
        exact absurd (h ts h1 fc h2 v h3) h4
      · exact k
  constructor
  · rintro ⟨t, h⟩
    obtain ⟨g, h1, h2⟩ := Res.bind_eq_ok.1 h
    obtain ⟨f, k1, k2⟩ := (C73_file U root g hg hf).1 h1
    exact ⟨f, g, k1, k2, (key g).1 ⟨t, h2⟩⟩
  · rintro ⟨f, g, k1, k2, k3⟩
    obtain ⟨t, ht⟩ := (key g).2 k3
    exact ⟨t, Res.bind_eq_ok.2 ⟨g, (C73_file U root g hg hf).2 ⟨f, k1, k2⟩, ht⟩⟩

/-- **C73** The code for a schema has the items for the entities in the file which the schema is, in order, and no others. -/
theorem C73_code (U : UnicodeTable) (root : Node) (t : Str) (hg : Grammatical root) (hf : ProperForms root)
    (hs : CopySafe root) (h : convertXsd U root = .ok t) :
    ∃ f g, ReadsFile U root f ∧ ExtendedFile f g ∧ ∃ is, HasItems t is ∧
      List.Forall₂ (ItemFor (naming U root) g.targetNs) (originsList (defaultFormatName U) documented g.types) is := by
  obtain ⟨g, hp, is, h1, h2⟩ := C69_document U root t hg hs h
  obtain ⟨f, k1, k2⟩ := (C73_file U root g hg hf).1 hp
  refine ⟨f, g, k1, k2, is, h1, ?_⟩
  rw [(parseFile_namespaces hp).1]
  exact h2

/-- **C73** Conversely, the file which the schema is and the items of the code belong together. -/
theorem C73_items (U : UnicodeTable) (root : Node) (t : Str) (hg : Grammatical root) (hf : ProperForms root)
    (hs : CopySafe root) (h : convertXsd U root = .ok t) (f g : RsFile) (h1 : ReadsFile U root f) (h2 : ExtendedFile f g)
    (is : List Item) (h3 : HasItems t is) :
    List.Forall₂ (ItemFor (naming U root) g.targetNs) (originsList (defaultFormatName U) documented g.types) is := by
  obtain ⟨f', g', k1, k2, is', k3, k4⟩ := C73_code U root t hg hf hs h
  obtain ⟨rfl, rfl⟩ := C73_determined U root f f' g g' hg hf h1 k1 h2 k2
  obtain rfl := C69_determined t is is' h3 k3
  exact k4

theorem properForms_of {root : Node}
    (h1 : ∀ n ∈ elements root, Is n ["sequence", "all"] → ∀ c ∈ members n, Is c ["group", "sequence", "any"] ∨
      (Is c ["element"] ∧ ElementForm c) ∨ (Is c ["choice"] ∧ ∀ x ∈ withTags c ["element"], ElementForm x))
    (h2 : ∀ n ∈ elements root, Is n ["choice"] → ∀ c ∈ withTags n ["element"], ElementForm c)
    (h3 : ∀ c ∈ globals root, Is c ["attribute"] → ¬ (c.attr "ref".toList).isSome) : ProperForms root where
  sequences n c hn hs hc := by
    rcases h1 n (partOf_elements hn) hs c hc with h | h | h
    · exact .inl h
    · exact .inr (.inl ⟨by simpa [Is] using h.1, h.2⟩)
    · exact .inr (.inr ⟨by simpa [Is] using h.1, h.2⟩)
  choices n c hn ht hc := h2 n (partOf_elements hn) ht c hc
  attributes c hc ht := fun h => h3 c hc ht (has_iff.1 h)

theorem sample_forms : ProperForms sample := properForms_of (by decide +kernel) (by decide +kernel) (by decide +kernel)

private def fieldNames : RsEntity → List Str
  | .struct s => s.fields.map (·.name)
  | _ => []

private theorem okFile_eq {r : Res RsFile} (h : (match r with | .ok _ => true | _ => false) = true) : r = .ok (okFile r) := by
  cases r with
  | ok t => rfl
  | panic => exact nomatch h
  | err => exact nomatch h

/-- In the sample, the derived type gets the fields of its base. -/
example : ∃ f g, ReadsFile A sample f ∧ ExtendedFile f g ∧
    f.types.map fieldNames = [["kind", "size", "id"], ["owner", "__base__"], [], [], [], [], [], []].map (·.map String.toList) ∧
    g.types.map fieldNames = [["kind", "size", "id"], ["owner", "kind", "size", "id"], [], [], [], [], [], []].map (·.map String.toList) := by
  have h1 : parseSchema A sample [] = .ok (okFile (parseSchema A sample [])) := okFile_eq (by decide +kernel)
  have h2 : extendFile (okFile (parseSchema A sample [])) = .ok (okFile (extendFile (okFile (parseSchema A sample [])))) :=
    okFile_eq (by decide +kernel)
  exact ⟨_, _, (readsFile_iff sample_grammatical sample_forms).1 h1, Ext.extendFile_iff.1 h2, by decide +kernel, by decide +kernel⟩

/-- A part read without the parser. -/
example : ReadsAs A (el "element" [("name", "root"), ("type", "tns:Dog")] []) (doc []) []
    (.alias ⟨"root".toList, "tns:Dog".toList, none, []⟩) :=
  ⟨1, .element (by decide) (by decide) (.typed rfl rfl)⟩

end Verif.Props
