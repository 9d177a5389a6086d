import Verif.Props.Hidden
import Verif.Lemmas.DistinctFile

/-! # C104: names are not hidden in the modules inside -/

namespace Verif.Props

open Verif Verif.Model Verif.Spec Verif.RoXml Verif.Lemmas Verif.Lemmas.Parse

open Verif.Props.Sample

/-! ## The types of fields -/

private def fieldPreds : Preds where
  R _ t ss := ss = [] ∨ ∃ v, ¬ "anySimple".toList <:+ v ∧ (t = v ++ "Type".toList ∨ t = v ++ "Choice".toList)
  N _ := True
  T _ := True
  C _ := True
  F _ := True
  J _ := True
  L _ := True
  W _ _ := True
  M _ _ := True
  A _ := True
  O v := ¬ "anySimple".toList <:+ v

private theorem field_texts {root : Node} (hn : ∀ n v, PartOf root n → n.attr "name".toList = some v → ¬ "anySimple".toList <:+ v) :
    Texts (PartOf root) (PartOf root) fieldPreds where
  owner h1 h2 := hn _ _ h1 h2
  name h1 h2 := hn _ _ h1 h2
  plain _ := trivial
  owners := by
    show ∀ v ∈ _, ¬ "anySimple".toList <:+ v
    decide
  ref _ _ := trivial
  refType _ _ _ := trivial
  type _ _ := trivial
  base _ _ := trivial
  itemType _ _ := trivial
  memberTypes _ _ _ _ := ⟨trivial, trivial⟩
  facet _ _ := trivial
  enumeration _ _ := trivial
  namespace' _ := trivial
  location _ := trivial
  string := trivial
  typeAlias _ := trivial
  nameAlias _ := trivial
  name_case _ := trivial
  name_import _ := trivial
  suffix _ := ⟨trivial, trivial, trivial⟩
  constants _ _ := trivial
  field _ _ := .inl rfl
  marker _ _ := .inl rfl
  rename _ h := h
  retype h hss := by
    rcases h with rfl | h
    · cases hss
      exact .inl rfl
    · exact .inr h
  inlineField h _ := .inr ⟨_, h, .inl rfl⟩
  enumField h := .inr ⟨_, h, .inr rfl⟩
  choice _ _ _ _ _ _ _ := ⟨.inl rfl, fun _ _ _ => trivial⟩
  wrap _ := trivial
  wrapMore _ := trivial
  wrapInner _ _ _ := trivial
  kinds _ := ⟨trivial, trivial⟩
  union _ _ _ := trivial
  lone _ := trivial
  items _ _ _ := trivial
  inlineEnum _ _ _ _ _ := trivial
  inlineItems _ _ _ _ _ _ := trivial
  numbered _ := ⟨trivial, trivial⟩

private theorem field_types {U : UnicodeTable} {root : Node} {g : RsFile}
    (hn : ∀ n v, PartOf root n → n.attr "name".toList = some v → ¬ "anySimple".toList <:+ v) (h : parseFile U root = .ok g) :
    ∀ s, .struct s ∈ generatedList g.types → ∀ v ∈ innerTypes s.fields,
      ∃ o, ¬ "anySimple".toList <:+ o ∧ (v = o ++ "Type".toList ∨ v = o ++ "Choice".toList) := by
  have hd := (parseFile_deep (fieldwise_texts fieldPreds (field_texts hn).retype)
    (fun c hc e he => parseNode_deep (field_texts hn) (fun _ h _ hc => .child h hc)
      (fun _ h => h) (.child .root hc) .root (fun _ h => absurd h List.not_mem_nil) he) h).1
  intro s hs v hv
  obtain ⟨-, -, hf, -⟩ := Deep.generatedList hd _ hs
  obtain ⟨f, hm, rfl⟩ := List.mem_map.1 hv
  obtain ⟨hm, hne⟩ := List.mem_filter.1 hm
  rcases hf f hm with h | h
  · rw [h] at hne; cases hne
  · exact h

/-! ## The definitions in a module -/

section
variable {tn mn : Str → Str} {doc : Option Str → Bool}

mutual
private theorem defs_of : ∀ (e : RsEntity) (p : List Str) (d : List Str × DefKind × Str), d ∈ defsOf tn mn doc p e → d.2.1 ≠ .mod →
    (d.1 = p ∧ ∃ x ∈ entTop doc e, d.2.2 = tn x.2) ∨ ∃ s, .struct s ∈ generated e ∧ ∃ v ∈ Dis.innerTops doc s, d.2.2 = tn v
  | .struct (.mk n c fs ag ss), p, d, hd, hk => by
    rw [defsOf] at hd
    rcases List.mem_cons.1 hd with rfl | hd
    · exact .inl ⟨rfl, _, by rw [entTop]; exact List.mem_cons_self, rfl⟩
    split at hd
    · rcases List.mem_cons.1 hd with rfl | hd
      · exact absurd rfl hk
      have here : ∀ x ∈ entTops doc ss ++ fs.flatMap fun f => entTops doc f.subtypes, d.2.2 = tn x.2 →
          ∃ s, .struct s ∈ generated (.struct (.mk n c fs ag ss)) ∧ ∃ v ∈ Dis.innerTops doc s, d.2.2 = tn v := fun x hx e =>
        ⟨.mk n c fs ag ss, by rw [generated]; exact List.mem_cons_self, x.2, List.mem_map_of_mem hx, e⟩
      rcases List.mem_append.1 hd with hd | hd
      · rcases defs_list ss _ d hd hk with ⟨-, x, hx, e⟩ | ⟨s, hs, h⟩
        · exact .inr (here x (List.mem_append_left _ hx) e)
        · exact .inr ⟨s, by rw [generated]; exact List.mem_cons_of_mem _ (List.mem_append_left _ hs), h⟩
      · rcases defs_fields fs _ d hd hk with ⟨x, hx, e⟩ | ⟨s, hs, h⟩
        · exact .inr (here x (List.mem_append_right _ hx) e)
        · exact .inr ⟨s, by rw [generated]; exact List.mem_cons_of_mem _ (List.mem_append_right _ hs), h⟩
    · cases hd
  | .tupleStruct (.mk n c t ss m f), p, d, hd, hk => by
    rw [defsOf] at hd
    rcases List.mem_cons.1 hd with rfl | hd
    · exact .inl ⟨rfl, _, by rw [entTop]; exact List.mem_cons_self, rfl⟩
    rcases defs_list ss _ d hd hk with ⟨h1, x, hx, e⟩ | ⟨s, hs, h⟩
    · exact .inl ⟨h1, x, by rw [entTop]; exact List.mem_cons_of_mem _ hx, e⟩
    · exact .inr ⟨s, by rw [generated]; exact List.mem_cons_of_mem _ hs, h⟩
  | .enum (.mk n cs c t ss src), p, d, hd, hk => by
    rw [defsOf] at hd
    rcases List.mem_cons.1 hd with rfl | hd
    · exact .inl ⟨rfl, _, by rw [entTop]; exact List.mem_cons_self, rfl⟩
    rcases defs_list ss _ d hd hk with ⟨h1, x, hx, e⟩ | ⟨s, hs, h⟩
    · exact .inl ⟨h1, x, by rw [entTop]; exact List.mem_cons_of_mem _ hx, e⟩
    · exact .inr ⟨s, by rw [generated]; exact List.mem_cons_of_mem _ hs, h⟩
  | .alias (.mk n o c ss), p, d, hd, hk => by
    rw [defsOf] at hd
    split at hd
    · rename_i hdoc
      obtain rfl := List.mem_singleton.1 hd
      exact .inl ⟨rfl, _, by rw [entTop, if_pos hdoc]; exact List.mem_cons_self, rfl⟩
    · cases hd
  | .structField _, p, d, hd, hk => by rw [defsOf] at hd <;> cases hd
  | .enumCase _, p, d, hd, hk => by rw [defsOf] at hd <;> cases hd
  | .import _, p, d, hd, hk => by rw [defsOf] at hd <;> cases hd
private theorem defs_list : ∀ (es : List RsEntity) (p : List Str) (d : List Str × DefKind × Str), d ∈ defsList tn mn doc p es →
    d.2.1 ≠ .mod →
    (d.1 = p ∧ ∃ x ∈ entTops doc es, d.2.2 = tn x.2) ∨ ∃ s, .struct s ∈ generatedList es ∧ ∃ v ∈ Dis.innerTops doc s, d.2.2 = tn v
  | [], p, d, hd, hk => by rw [defsList] at hd; cases hd
  | e :: es, p, d, hd, hk => by
    rw [defsList] at hd
    rcases List.mem_append.1 hd with hd | hd
    · rcases defs_of e _ d hd hk with ⟨h1, x, hx, e'⟩ | ⟨s, hs, h⟩
      · exact .inl ⟨h1, x, by rw [entTops]; exact List.mem_append_left _ hx, e'⟩
      · exact .inr ⟨s, by rw [generatedList]; exact List.mem_append_left _ hs, h⟩
    · rcases defs_list es _ d hd hk with ⟨h1, x, hx, e'⟩ | ⟨s, hs, h⟩
      · exact .inl ⟨h1, x, by rw [entTops]; exact List.mem_append_right _ hx, e'⟩
      · exact .inr ⟨s, by rw [generatedList]; exact List.mem_append_right _ hs, h⟩
private theorem defs_fields : ∀ (fs : List StructField) (p : List Str) (d : List Str × DefKind × Str), d ∈ defsFields tn mn doc p fs →
    d.2.1 ≠ .mod →
    (∃ x ∈ fs.flatMap fun f => entTops doc f.subtypes, d.2.2 = tn x.2) ∨
      ∃ s, .struct s ∈ generatedFields fs ∧ ∃ v ∈ Dis.innerTops doc s, d.2.2 = tn v
  | [], p, d, hd, hk => by rw [defsFields] at hd; cases hd
  | .mk n t c ss src ms :: fs, p, d, hd, hk => by
    rw [defsFields] at hd
    rcases List.mem_append.1 hd with hd | hd
    · rcases defs_list ss _ d hd hk with ⟨-, x, hx, e'⟩ | ⟨s, hs, h⟩
      · exact .inl ⟨x, by rw [List.flatMap_cons]; exact List.mem_append_left _ hx, e'⟩
      · exact .inr ⟨s, by rw [generatedFields]; exact List.mem_append_left _ hs, h⟩
    · rcases defs_fields fs _ d hd hk with ⟨x, hx, e'⟩ | ⟨s, hs, h⟩
      · exact .inl ⟨x, by rw [List.flatMap_cons]; exact List.mem_append_right _ hx, e'⟩
      · exact .inr ⟨s, by rw [generatedFields]; exact List.mem_append_right _ hs, h⟩
end
end

private theorem made_other (U : UnicodeTable) (tns xsd : Option Namespace) {v : Str}
    (h : ∃ o, ¬ "anySimple".toList <:+ o ∧ (v = o ++ "Type".toList ∨ v = o ++ "Choice".toList)) {w : String} (hw : w ∈ codeNames) :
    formatTypeName U tns xsd v ≠ w.toList := by
  intro e
  obtain ⟨o, ho, rfl | rfl⟩ := h
  · have hb : matchBuiltInType (o ++ "Type".toList) xsd = none := by
      cases hm : matchBuiltInType (o ++ "Type".toList) xsd with
      | none => rfl
      | some r =>
        obtain ⟨row, h1, h2, -⟩ := (C28_builtin _ r xsd).1 hm
        have h3 := ref_ends (by decide) h2 (List.suffix_append o "Type".toList)
        have : ∀ row ∈ readmeTable ++ undocumentedTable, "Type".toList <:+ row.1.toList →
            row.1.toList = "anySimple".toList ++ "Type".toList := by decide +kernel
        have h4 : row.1.toList <:+ o ++ "Type".toList := by
          generalize xsd.bind (·.name) = q at h2
          generalize row.1.toList = n at h2
          generalize o ++ "Type".toList = v at h2
          cases h2 with
          | bare => exact List.suffix_refl _
          | @prefixed p n => exact (List.suffix_cons _ _).trans (List.suffix_append p _)
        rw [this row h1 h3] at h4
        obtain ⟨x, hx⟩ := h4
        rw [← List.append_assoc] at hx
        exact absurd ⟨x, List.append_cancel_right hx⟩ ho
    cases hsp : splitName (o ++ "Type".toList) with
    | mk q n =>
      have hr := Gen.splitName_iff.1 hsp
      have h1 := (skeleton_suffix (ref_ends (by decide) hr (List.suffix_append o "Type".toList))).trans (format_ends U tns xsd hr hb)
      rw [e] at h1
      have : ∀ w ∈ codeNames, ¬ skeleton asciiAlnum "Type".toList <:+ skeleton asciiAlnum w.toList := by decide +kernel
      exact this w hw h1
  · have h1 := format_suffix U tns xsd (s := "Choice".toList) (by decide) (List.suffix_append o _) (by decide +kernel)
    rw [e] at h1
    have : ∀ w ∈ codeNames, ¬ skeleton asciiAlnum "Choice".toList <:+ skeleton asciiAlnum w.toList := by decide +kernel
    exact this w hw h1

/-- **C104** In every module of the code, at any depth, a name which the code uses is hidden exactly if a global declaration has
a name which is written like it: inline types hide nothing. -/
theorem C104_everywhere_partial (U : UnicodeTable) (root : Node) (t : Str) (hg : Grammatical root) (hs : CopySafe root)
    (hf : ProperForms root) (hr : RegularSchema root) (hd : Separate U root)
    (hn : ∀ n v, PartOf root n → n.attr "name".toList = some v → ¬ "anySimple".toList <:+ v)
    (h : convertXsd U root = .ok t) (is : List Item) (hi : HasItems t is) (p : List Str) (w : String) (hw : w ∈ codeNames) :
    InScope is p w.toList ↔ ∃ c ∈ globals root, ∃ nm, NamesDef c nm ∧
      formatTypeName U (targetNamespace root) (xsdNamespace root) nm = w.toList := by
  rw [← C104_declared_iff U root t hg hs h is hi w hw]
  refine ⟨?_, fun ⟨i, h1, h2, h3⟩ => ⟨i, h1, h2.trans List.nil_prefix, h3⟩⟩
  rintro ⟨i, hii, -, hdt⟩
  by_cases hp : i.path = []
  · exact ⟨i, hii, by rw [hp], hdt⟩
  exfalso
  obtain ⟨g, hpf, h⟩ := Res.bind_eq_ok.1 h
  obtain ⟨h1, h2⟩ := parseFile_safe hs hpf
  obtain ⟨ls, k1, k2, -⟩ := C36_definitions U g t h1 (fun x hx => ⟨h2 x hx, parseFile_items hg hpf x hx⟩) h
  obtain ⟨ls', k3, rfl⟩ := hi
  rw [Gen.lines_unique k3, ← Gen.lines_unique k1] at hii
  have hk : ∃ k, k ≠ DefKind.mod ∧ readHead i.head = some (k, w.toList) := by
    rcases hdt with (hd | hd) | hd
    · exact ⟨_, by decide, hd⟩
    · exact ⟨_, by decide, hd⟩
    · exact ⟨_, by decide, hd⟩
  obtain ⟨k, hk, hrd⟩ := hk
  have hm := item_def_read ls [] [] i k w.toList hii hrd
  rw [k2] at hm
  rcases defs_list _ _ _ hm hk with ⟨h3, -⟩ | ⟨s, h3, v, h4, h5⟩
  · exact hp h3
  · exact made_other U _ _ (field_types hn hpf s h3 v (Dis.parseFile_inner hg hf hr hd hpf s h3 v h4)) hw h5.symm

/-! ## Examples -/

/-- Types inside types which are called like names of the prelude. -/
private def hiddenInside : Node := doc
  [el "complexType" [("name", "House")] [el "sequence" []
      [el "element" [("name", "string")] [el "complexType" [] [el "sequence" []
        [el "element" [("name", "vec")] [el "simpleType" [] [el "restriction" [("base", "xs:string")] []]],
         el "element" [("name", "width"), ("type", "xs:int")] []]]]]]]

/-- Elements called string and vec hide nothing in the modules for their types. -/
example : (∃ i ∈ itemsOf hiddenInside, i.path = ["house".toList, "string_type".toList] ∧ DefinesType i "VecType".toList) ∧
    ∀ p, ∀ w ∈ codeNames, ¬ InScope (itemsOf hiddenInside) p w.toList := by
  have hg : Grammatical hiddenInside := grammatical_of rfl (by decide +kernel)
  have hr : RegularSchema hiddenInside := regular_of (by decide +kernel) (by decide +kernel) (by decide +kernel)
  refine ⟨by decide +kernel, fun p w hw h => ?_⟩
  obtain ⟨c, hc, nm, h1, h2⟩ := (C104_everywhere_partial A hiddenInside _ hg
    (copySafe_of (by decide +kernel) (by decide +kernel) (by decide +kernel) (by decide +kernel) (by decide +kernel))
    (properForms_of (by decide +kernel) (by decide +kernel) (by decide +kernel)) hr
    (separate_of hg hr (by decide +kernel) (by decide +kernel) (by decide +kernel) (by decide +kernel) (by decide +kernel))
    (fun n v hn => (by decide +kernel : ∀ n ∈ elements hiddenInside, ∀ v, n.attr "name".toList = some v →
      ¬ "anySimple".toList <:+ v) n (partOf_elements hn) v)
    (okText_eq (by decide +kernel)) _ (itemsOf_ok _) p w hw).1 h
  have key : ∀ c ∈ globals hiddenInside, c.attr "ref".toList = none ∧ ∀ nm ∈ (c.attr "name".toList).toList,
      ∀ w ∈ codeNames, formatTypeName A (targetNamespace hiddenInside) (xsdNamespace hiddenInside) nm ≠ w.toList := by decide +kernel
  rcases h1 with ⟨-, h1⟩ | ⟨-, -, h1, -⟩ | ⟨-, h1, -⟩
  · exact (key c hc).2 nm (Option.mem_toList.2 h1) w hw h2
  · exact (key c hc).2 nm (Option.mem_toList.2 h1) w hw h2
  · rw [(key c hc).1] at h1; cases h1

/-- An element with a choice as its inline type. -/
private def choiceInside : Node := doc
  [el "complexType" [("name", "House")] [el "sequence" []
      [el "element" [("name", "string")] [el "complexType" [] [el "choice" []
        [el "element" [("name", "a"), ("type", "xs:int")] [], el "element" [("name", "b"), ("type", "xs:int")] []]]],
       el "element" [("name", "other")] [el "simpleType" [] [el "restriction" [("base", "xs:string")] []]]]]]

/-- XML Schema is the default namespace; an element called anySimple has an inline type. -/
private def anySimple : Node :=
  .element (some "http://www.w3.org/2001/XMLSchema".toList) "schema".toList [⟨none, "targetNamespace".toList, "urn:t".toList⟩]
    [⟨none, "http://www.w3.org/2001/XMLSchema".toList⟩, ⟨some "tns".toList, "urn:t".toList⟩]
  [el "complexType" [("name", "House")] [el "sequence" []
      [el "element" [("name", "anySimple")] [el "simpleType" [] [el "restriction" [("base", "int")] []]],
       el "element" [("name", "other")] [el "simpleType" [] [el "restriction" [("base", "string")] []]]]]]

/-- **C104** (violated) If the inline type of an element is a choice, there is a struct called like the element in the module, and
it hides the `String` which a type beside it is made of. Without such types, the type of an element called
anySimple is called `String` if XML Schema is the default namespace. -/
theorem C104_everywhere_violated :
    (∃ (root : Node) (t : Str) (is : List Item), Grammatical root ∧ CopySafe root ∧
      ProperForms root ∧ RegularSchema root ∧ convertXsd A root = .ok t ∧ HasItems t is ∧ ¬ InScope is [] "String".toList ∧
      InScope is ["house".toList] "String".toList ∧
      ∃ i ∈ is, i.path = ["house".toList] ∧ DefinesType i "OtherType".toList ∧ "String".toList ∈ memberTypes i) ∧
    ∃ (root : Node) (t : Str) (is : List Item), Grammatical root ∧ CopySafe root ∧
      ProperForms root ∧ RegularSchema root ∧ Separate A root ∧ convertXsd A root = .ok t ∧ HasItems t is ∧
      ¬ InScope is [] "String".toList ∧ InScope is ["house".toList] "String".toList ∧
      ∃ i ∈ is, i.path = ["house".toList] ∧ DefinesType i "OtherType".toList ∧ "String".toList ∈ memberTypes i := by
  have hg : Grammatical anySimple := grammatical_of rfl (by decide +kernel)
  have hr : RegularSchema anySimple := regular_of (by decide +kernel) (by decide +kernel) (by decide +kernel)
  refine ⟨⟨choiceInside, textOf choiceInside, itemsOf choiceInside, grammatical_of rfl (by decide +kernel),
    copySafe_of (by decide +kernel) (by decide +kernel) (by decide +kernel) (by decide +kernel) (by decide +kernel),
    properForms_of (by decide +kernel) (by decide +kernel) (by decide +kernel),
    regular_of (by decide +kernel) (by decide +kernel) (by decide +kernel), okText_eq (by decide +kernel), itemsOf_ok _, ?_, ?_,
    by decide +kernel⟩, anySimple, textOf anySimple, itemsOf anySimple, hg,
    copySafe_of (by decide +kernel) (by decide +kernel) (by decide +kernel) (by decide +kernel) (by decide +kernel),
    properForms_of (by decide +kernel) (by decide +kernel) (by decide +kernel), hr,
    separate_of hg hr (by decide +kernel) (by decide +kernel) (by decide +kernel) (by decide +kernel) (by decide +kernel),
    okText_eq (by decide +kernel), itemsOf_ok _, ?_, ?_, by decide +kernel⟩
  all_goals unfold InScope; decide +kernel

end Verif.Props
