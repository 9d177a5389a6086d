import Verif.Props.Closed
import Verif.Props.Distinct
import Verif.Lemmas.DefsUnique
import Verif.Spec.Hidden

/-! # C104: the names which the code uses are not hidden -/

namespace Verif.Props

open Verif Verif.Model Verif.Spec Verif.RoXml Verif.Lemmas Verif.Lemmas.Parse

open Verif.Props.Sample

/-! ## Definitions at the top level -/

theorem item_def_read : ∀ (ls : List Str) (stk : Blocks) (as : List Str) (i : Item) (k : DefKind) (n : Str),
    i ∈ readItems stk as ls → readHead i.head = some (k, n) → (i.path, k, n) ∈ readDefs stk ls
  | [], _, _, _, _, _, h, _ => by cases h
  | l :: ls, stk, as, i, k, n, h, hh => by
    rw [readItems] at h
    rw [readDefs]
    rcases List.mem_append.1 h with h | h
    · refine List.mem_append_left _ ?_
      unfold lineItem at h
      dsimp only at h
      split at h
      · cases h
      · rename_i hc
        have hc : isCommentLine (trimLine l) = false := by
          cases hx : isCommentLine (trimLine l) with
          | false => rfl
          | true => exact absurd (.inr (.inl hx)) hc
        unfold lineDef
        dsimp only
        rw [hc]
        split at h <;>
        · obtain rfl := List.mem_singleton.1 h
          have hh : readHead (trimLine l) = some (k, n) := hh
          rw [hh]
          exact List.mem_cons_self
    · exact List.mem_append_right _ (item_def_read ls _ _ i k n h hh)

/-- **C104** A name is defined at the top level of the code exactly if it is made of the name of something which a global
declaration defines. -/
theorem C104_hidden_iff (U : UnicodeTable) (root : Node) (t : Str) (hg : Grammatical root) (hs : CopySafe root)
    (h : convertXsd U root = .ok t) (is : List Item) (hi : HasItems t is) (w : Str) :
    InScope is [] w ↔ ∃ c ∈ globals root, ∃ ds, GlobalDefs U root c ds ∧ ∃ d ∈ ds,
      formatTypeName U (targetNamespace root) (xsdNamespace root) d.2 = w := by
  constructor
  · rintro ⟨i, hii, hp, hd⟩
    obtain ⟨ds, dss, ⟨ls, h1, rfl, -⟩, h2, h3⟩ := C65_definitions_partial U root t hg hs h
    obtain ⟨ls', h4, rfl⟩ := hi
    rw [Gen.lines_unique h4, ← Gen.lines_unique h1] at hii
    have hk : ∃ k, k ≠ DefKind.mod ∧ readHead i.head = some (k, w) := by
      rcases hd with (hd | hd) | hd
      · exact ⟨_, by decide, hd⟩
      · exact ⟨_, by decide, hd⟩
      · exact ⟨_, by decide, hd⟩
    obtain ⟨k, hk, hr⟩ := hk
    have hm := item_def_read ls [] [] i k w hii hr
    have hp : i.path = [] := List.prefix_nil.1 hp
    have : (k, w) ∈ topLevel (readDefs [] ls) := List.mem_filterMap.2 ⟨_, hm, by rw [if_pos ⟨hp, hk⟩]⟩
    rw [h3] at this
    obtain ⟨d, hd, he⟩ := List.mem_map.1 this
    obtain ⟨ds, hds, hd⟩ := List.mem_flatten.1 hd
    obtain ⟨c, hc, hgd⟩ := forall₂_left h2 ds hds
    exact ⟨c, hc, ds, hgd, d, hd, congrArg Prod.snd he⟩
  · rintro ⟨c, hc, ds, hgd, ⟨k, nm⟩, hd, rfl⟩
    obtain ⟨f, hp, is', h1, h2⟩ := C69_document U root t hg hs h
    obtain rfl := C69_determined t is is' hi h1
    obtain ⟨ds', hds, hgd'⟩ := forall₂_right (parseFile_top hg hp) c hc
    obtain rfl := globalDefs_unique hgd hgd'
    obtain ⟨e, he, rfl⟩ := List.mem_map.1 hds
    obtain ⟨x, hx, rfl, hn⟩ := entTop_origin (defaultFormatName U) Gen.hasDoc e k nm hd
    have hx := mem_origins he _ hx
    obtain ⟨i, hii, h3, h4⟩ := forall₂_right h2 _ hx
    have hsafe : SafeTexts x := ((origins_embeddedList _ _ _ _ _ hx).1 SafeTexts fun e he =>
      ((parseFile_texts (sources_copySafe hs) .root hp).1 e he).mono fun x => copy_safeTexts x).here
    exact ⟨i, hii, by rw [h3], (item_defines hsafe hn h4).2⟩

/-! ## Names of definitions for what is inside a declaration -/

private def Inside (v : Str) : Prop :=
  v = [] ∨ (∃ o, v = o ++ "Enum".toList) ∨ (∃ o, v = o ++ "Choice".toList) ∨ ∃ i, v = "EnumCaseType_".toList ++ numeral i

mutual
private theorem simple_inside {U : UnicodeTable} : ∀ {above : List Node} {n : Node} {k : DefKind} {own : Str} {ds : List Def},
    SimpleShape U above n k own ds → Inside own ∧ ∀ d ∈ ds, Inside d.2
  | _, _, _, _, _, .enumeration _ _ _ _ _ _ => ⟨.inr (.inl ⟨_, rfl⟩), fun _ h => absurd h List.not_mem_nil⟩
  | _, _, _, _, _, .wrapper _ _ _ _ => ⟨.inl rfl, fun _ h => absurd h List.not_mem_nil⟩
  | _, _, _, _, _, .list _ _ _ => ⟨.inl rfl, fun _ h => absurd h List.not_mem_nil⟩
  | _, _, _, _, _, .listOfEnum _ _ _ _ h => by
    obtain ⟨h1, h2⟩ := simple_inside h
    refine ⟨.inl rfl, fun d hd => ?_⟩
    rcases List.mem_cons.1 hd with rfl | hd
    · exact h1
    · exact h2 d hd
  | _, _, _, _, _, .listOfStruct _ _ _ _ h => ⟨.inl rfl, (simple_inside h).2⟩
  | _, _, _, _, _, .union _ _ h => ⟨.inl rfl, union_inside h⟩
private theorem union_inside {U : UnicodeTable} : ∀ {above : List Node} {i : Nat} {cs : List Node} {ds : List Def},
    UnionShape U above i cs ds → ∀ d ∈ ds, Inside d.2
  | _, _, _, _, .nil => fun _ h => absurd h List.not_mem_nil
  | _, i, _, _, .cons h1 h2 => by
    intro d hd
    rcases List.mem_cons.1 hd with rfl | hd
    · exact .inr (.inr (.inr ⟨i, rfl⟩))
    rcases List.mem_append.1 hd with hd | hd
    · exact (simple_inside h1).2 d hd
    · exact union_inside h2 d hd
end

private theorem global_names {U : UnicodeTable} {root c : Node} {ds : List Def} (h : GlobalDefs U root c ds) :
    ∀ d ∈ ds, NamesDef c d.2 ∨ Inside d.2 := by
  have one : ∀ {l : List String} {s : String}, c.tag = s.toList → s ∈ l → c.tag ∈ l.map String.toList :=
    fun h hs => List.mem_map.2 ⟨_, hs, h.symm⟩
  cases h with
  | complexType h1 h2 h3 =>
    intro d hd
    obtain rfl := List.mem_singleton.1 hd
    exact .inl (.inl ⟨one h1 (by simp), h2⟩)
  | choiceType h1 h2 h3 =>
    intro d hd
    rcases List.mem_cons.1 hd with rfl | hd
    · exact .inr (.inr (.inr (.inl ⟨_, rfl⟩)))
    · obtain rfl := List.mem_singleton.1 hd
      exact .inl (.inl ⟨one h1 (by simp), h2⟩)
  | simpleType h1 h2 h3 =>
    intro d hd
    rcases List.mem_cons.1 hd with rfl | hd
    · exact .inl (.inl ⟨one h1 (by simp), h2⟩)
    · exact .inr ((simple_inside h3).2 d hd)
  | typed h1 h2 h3 h4 h5 =>
    intro d hd
    obtain rfl := List.mem_singleton.1 hd
    exact .inl (.inr (.inl ⟨h1, h2, h3, .inr h5⟩))
  | typedSilent => exact fun _ h => absurd h List.not_mem_nil
  | inlineSimple h1 h2 h3 h4 h5 h6 h7 =>
    intro d hd
    rcases List.mem_cons.1 hd with rfl | hd
    · exact .inl (.inr (.inl ⟨h1, h2, h3, .inl h4⟩))
    · exact .inr ((simple_inside h7).2 d hd)
  | inlineComplex h1 h2 h3 =>
    intro d hd
    obtain rfl := List.mem_singleton.1 hd
    exact .inl (.inr (.inl ⟨one h1 (by simp), fun h => by rw [h1] at h; exact absurd h (by decide), h2, .inl h3⟩))
  | inlineChoice h1 h2 h3 =>
    intro d hd
    have : c.attr "name".toList = some d.2 := by
      rcases List.mem_cons.1 hd with rfl | hd
      · exact h2
      · obtain rfl := List.mem_singleton.1 hd
        exact h2
    exact .inl (.inr (.inl ⟨one h1 (by simp), fun h => by rw [h1] at h; exact absurd h (by decide), this, .inl h3⟩))
  | empty h1 h2 h3 h4 =>
    intro d hd
    obtain rfl := List.mem_singleton.1 hd
    exact .inl (.inr (.inl ⟨h1, h2, h3, .inl h4⟩))
  | reference h1 h2 h3 =>
    intro d hd
    obtain rfl := List.mem_singleton.1 hd
    exact .inl (.inr (.inr ⟨h1, h2, h3⟩))
  | referenceSilent => exact fun _ h => absurd h List.not_mem_nil
  | «import» => exact fun _ h => absurd h List.not_mem_nil

private theorem names_global {U : UnicodeTable} {root c : Node} {ds : List Def} (h : GlobalDefs U root c ds) {nm : Str}
    (hn : NamesDef c nm) : ∃ k, (k, nm) ∈ ds := by
  have tag : ∀ {s : String} {l : List String} {P : Prop}, c.tag = s.toList → s.toList ∉ l.map String.toList →
      c.tag ∈ l.map String.toList → P := fun h1 h2 h3 => absurd (h1 ▸ h3) h2
  have two : ∀ {s t : String} {P : Prop}, c.tag = s.toList → s.toList ≠ t.toList → c.tag = t.toList → P :=
    fun h1 h2 h3 => absurd (h1.symm.trans h3) h2
  rcases hn with ⟨h1, h2⟩ | ⟨h1, h2, h3, h4⟩ | ⟨h1, h2, h3⟩
  · cases h with
    | complexType k1 k2 k3 => rw [h2] at k2; cases k2; exact ⟨_, List.mem_cons_self⟩
    | choiceType k1 k2 k3 => rw [h2] at k2; cases k2; exact ⟨_, List.mem_cons_of_mem _ List.mem_cons_self⟩
    | simpleType k1 k2 k3 => rw [h2] at k2; cases k2; exact ⟨_, List.mem_cons_self⟩
    | typed k1 k2 k3 => rw [h2] at k3; cases k3; exact ⟨_, List.mem_cons_self⟩
    | typedSilent k1 =>
      rcases List.mem_map.1 h1 with ⟨s, hs, e⟩
      refine tag e.symm ?_ k1
      clear e
      revert s
      decide
    | inlineSimple k1 k2 k3 => rw [h2] at k3; cases k3; exact ⟨_, List.mem_cons_self⟩
    | inlineComplex k1 k2 => rw [h2] at k2; cases k2; exact ⟨_, List.mem_cons_self⟩
    | inlineChoice k1 k2 => rw [h2] at k2; cases k2; exact ⟨_, List.mem_cons_self⟩
    | empty k1 k2 k3 => rw [h2] at k3; cases k3; exact ⟨_, List.mem_cons_self⟩
    | reference k1 => exact tag k1 (by decide) h1
    | referenceSilent k1 => exact tag k1 (by decide) h1
    | «import» k1 =>
      rcases List.mem_map.1 h1 with ⟨s, hs, e⟩
      refine tag e.symm ?_ k1
      clear e
      revert s
      decide
  · cases h with
    | complexType k1 => exact tag k1 (by decide) h1
    | choiceType k1 => exact tag k1 (by decide) h1
    | simpleType k1 => exact tag k1 (by decide) h1
    | typed k1 k2 k3 => rw [h3] at k3; cases k3; exact ⟨_, List.mem_cons_self⟩
    | typedSilent k1 k2 k3 k4 k5 =>
      rcases h4 with h4 | h4
      · rw [h4] at k4; cases k4
      · exact absurd h4 k5
    | inlineSimple k1 k2 k3 => rw [h3] at k3; cases k3; exact ⟨_, List.mem_cons_self⟩
    | inlineComplex k1 k2 => rw [h3] at k2; cases k2; exact ⟨_, List.mem_cons_self⟩
    | inlineChoice k1 k2 => rw [h3] at k2; cases k2; exact ⟨_, List.mem_cons_self⟩
    | empty k1 k2 k3 => rw [h3] at k3; cases k3; exact ⟨_, List.mem_cons_self⟩
    | reference k1 k2 => rw [h2 k1] at k2; cases k2
    | referenceSilent k1 k2 => rw [h2 k1] at k2; cases k2
    | «import» k1 =>
      rcases List.mem_map.1 h1 with ⟨s, hs, e⟩
      refine tag e.symm ?_ k1
      clear e
      revert s
      decide
  · have no : ∀ {P : Prop}, (c.tag = "attribute".toList → c.attr "ref".toList = none) → P := fun k => by
      rw [k h1] at h2; cases h2
    cases h with
    | complexType k1 => exact two h1 (by decide) k1
    | choiceType k1 => exact two h1 (by decide) k1
    | simpleType k1 => exact two h1 (by decide) k1
    | typed k1 k2 => exact no k2
    | typedSilent k1 k2 => exact no k2
    | inlineSimple k1 k2 => exact no k2
    | inlineComplex k1 k2 => exact two h1 (by decide) k1
    | inlineChoice k1 k2 => exact two h1 (by decide) k1
    | empty k1 k2 k3 => exact no k2
    | reference k1 k2 => rw [h2] at k2; cases k2; exact ⟨_, List.mem_cons_self⟩
    | referenceSilent k1 k2 k3 => exact absurd h3 k3
    | «import» k1 => exact tag h1 (by decide) k1

/-! ## They are none of the names which the code uses -/

private theorem skeleton_append (a b : Str) : skeleton asciiAlnum (a ++ b) = skeleton asciiAlnum a ++ skeleton asciiAlnum b := by
  simp [skeleton]

theorem skeleton_suffix {a b : Str} (h : a <:+ b) : skeleton asciiAlnum a <:+ skeleton asciiAlnum b := by
  obtain ⟨c, rfl⟩ := h
  rw [skeleton_append]
  exact List.suffix_append _ _

private theorem skeleton_type (U : UnicodeTable) (n : Str) :
    skeleton asciiAlnum (filterTypeName U (Inflector.toPascalCase U n)) = skeleton asciiAlnum n := by
  rw [← Gen.typeName_skeleton U n, skeleton, List.filter_eq_self.2]
  intro c hc; rw [Gen.typeName_eq] at hc; exact (List.mem_filter.1 hc).2

private theorem skeleton_sanitize (U : UnicodeTable) (s : Str) : skeleton asciiAlnum (sanitize U s) = skeleton asciiAlnum s := by
  rcases Gen.sanitize_or U s with e | e
  · rw [e]
  · rw [e, skeleton, List.filter_cons_of_neg (by decide), ← skeleton]

/-- What is written has the letters and digits of the local name at its end, unless it is that of a built-in type. -/
theorem format_ends (U : UnicodeTable) (tns xsd : Option Namespace) {v n : Str} {o : Option Str} (hr : Ref o n v)
    (hb : matchBuiltInType v xsd = none) : skeleton asciiAlnum n <:+ skeleton asciiAlnum (formatTypeName U tns xsd v) := by
  obtain ⟨h1, h2, h3⟩ := C32_qualified U v n o tns xsd hr hb
  cases o with
  | none => rw [h1 rfl, skeleton_sanitize, skeleton_type]
  | some p =>
    by_cases h : tns.bind (·.name) = some p
    · rw [h2 p rfl h, skeleton_sanitize, skeleton_type]
    · rw [h3 p rfl h, skeleton_sanitize, skeleton_append, skeleton_type]
      exact List.suffix_append _ _

theorem ref_ends {v s n : Str} {o : Option Str} (hs : ':' ∉ s) (hr : Ref o n v) (h : s <:+ v) : s <:+ n := by
  cases hr with
  | bare => exact h
  | @prefixed p n =>
    rcases List.suffix_or_suffix_of_suffix h (List.suffix_append p (':' :: n)) with h | h
    · rcases List.suffix_cons_iff.1 h with rfl | h
      · exact absurd List.mem_cons_self hs
      · exact h
    · exact absurd (h.subset List.mem_cons_self) hs

theorem format_suffix (U : UnicodeTable) (tns xsd : Option Namespace) {v s : Str} (hs : ':' ∉ s) (h : s <:+ v)
    (hrow : ∀ row ∈ readmeTable ++ undocumentedTable, ¬ s <:+ row.1.toList) :
    skeleton asciiAlnum s <:+ skeleton asciiAlnum (formatTypeName U tns xsd v) := by
  have hb : matchBuiltInType v xsd = none := by
    cases hm : matchBuiltInType v xsd with
    | none => rfl
    | some r =>
      obtain ⟨row, h1, h2, -⟩ := (C28_builtin v r xsd).1 hm
      exact absurd (ref_ends hs h2 h) (hrow row h1)
  cases hsp : splitName v with
  | mk o n =>
    have hr := Gen.splitName_iff.1 hsp
    exact (skeleton_suffix (ref_ends hs hr h)).trans (format_ends U tns xsd hr hb)

private theorem inside_other (U : UnicodeTable) (tns xsd : Option Namespace) {v : Str} (h : Inside v) {w : String}
    (hw : w ∈ codeNames) : formatTypeName U tns xsd v ≠ w.toList := by
  intro e
  have bare : ':' ∉ v → (∀ row ∈ readmeTable ++ undocumentedTable, row.1.toList ≠ v) →
      skeleton asciiAlnum v = skeleton asciiAlnum w.toList := by
    intro hv hrow
    have hb : matchBuiltInType v xsd = none := by
      cases hm : matchBuiltInType v xsd with
      | none => rfl
      | some r =>
        obtain ⟨row, h1, h2, -⟩ := (C28_builtin v r xsd).1 hm
        generalize hx : xsd.bind (·.name) = o at h2
        generalize hn : row.1.toList = n at h2
        cases h2 with
        | bare => exact absurd hn (hrow row h1)
        | prefixed => exact absurd (List.mem_append_right _ List.mem_cons_self) hv
    rw [← e, (C32_qualified U v v none tns xsd (.bare hv) hb).1 rfl, skeleton_sanitize, skeleton_type]
  rcases h with rfl | ⟨o, rfl⟩ | ⟨o, rfl⟩ | ⟨i, rfl⟩
  · have h1 := bare List.not_mem_nil (by decide)
    have : ∀ w ∈ codeNames, skeleton asciiAlnum [] ≠ skeleton asciiAlnum w.toList := by decide +kernel
    exact this w hw h1
  · have h1 := format_suffix U tns xsd (s := "Enum".toList) (by decide) (List.suffix_append o _) (by decide +kernel)
    rw [e] at h1
    have : ∀ w ∈ codeNames, ¬ skeleton asciiAlnum "Enum".toList <:+ skeleton asciiAlnum w.toList := by decide +kernel
    exact this w hw h1
  · have h1 := format_suffix U tns xsd (s := "Choice".toList) (by decide) (List.suffix_append o _) (by decide +kernel)
    rw [e] at h1
    have : ∀ w ∈ codeNames, ¬ skeleton asciiAlnum "Choice".toList <:+ skeleton asciiAlnum w.toList := by decide +kernel
    exact this w hw h1
  · have hnum : ':' ∉ "EnumCaseType_".toList ++ numeral i := by
      rw [numeral_eq]
      intro h
      rcases List.mem_append.1 h with h | h
      · exact absurd h (by decide)
      · exact (quoteSafe_natStr i).2 h
    have h1 := bare hnum fun row hrow he => by
      have : ∀ row ∈ readmeTable ++ undocumentedTable, ¬ "EnumCaseType_".toList <+: row.1.toList := by decide +kernel
      exact this row hrow (he ▸ List.prefix_append _ _)
    rw [skeleton_append] at h1
    have : ∀ w ∈ codeNames, ¬ skeleton asciiAlnum "EnumCaseType_".toList <+: skeleton asciiAlnum w.toList := by decide +kernel
    exact this w hw (h1 ▸ List.prefix_append _ _)

/-- **C104** A name which the code uses is hidden at the top level exactly if a global declaration has a name which is written
like it; the names made for choices, enumerations and members of unions never hide one. -/
theorem C104_declared_iff (U : UnicodeTable) (root : Node) (t : Str) (hg : Grammatical root) (hs : CopySafe root)
    (h : convertXsd U root = .ok t) (is : List Item) (hi : HasItems t is) (w : String) (hw : w ∈ codeNames) :
    InScope is [] w.toList ↔ ∃ c ∈ globals root, ∃ nm, NamesDef c nm ∧
      formatTypeName U (targetNamespace root) (xsdNamespace root) nm = w.toList := by
  rw [C104_hidden_iff U root t hg hs h is hi]
  constructor
  · rintro ⟨c, hc, ds, h1, d, hd, h2⟩
    rcases global_names h1 d hd with h3 | h3
    · exact ⟨c, hc, d.2, h3, h2⟩
    · exact absurd h2 (inside_other U _ _ h3 hw)
  · rintro ⟨c, hc, nm, h1, h2⟩
    obtain ⟨-, dss, -, h3, -⟩ := C65_definitions_partial U root t hg hs h
    obtain ⟨ds, -, h4⟩ := forall₂_right h3 c hc
    obtain ⟨k, hk⟩ := names_global h4 h1
    exact ⟨c, hc, ds, h4, _, hk, h2⟩

/-- **C104** What the other theorems about reading and writing values assume of the code follows from the names in the schema. -/
theorem C104_unshadowed (U : UnicodeTable) (root : Node) (t : Str) (hg : Grammatical root) (hs : CopySafe root)
    (h : convertXsd U root = .ok t) (is : List Item) (hi : HasItems t is)
    (hn : ∀ c ∈ globals root, ∀ nm, c.attr "name".toList = some nm →
      formatTypeName U (targetNamespace root) (xsdNamespace root) nm ∉ reservedNames.map String.toList)
    (hr : ∀ c ∈ globals root, c.tag = "attribute".toList → c.attr "ref".toList = none) : Unshadowed U root is where
  declared := hn
  items w hw hsc := by
    obtain ⟨c, hc, nm, h1, h2⟩ := (C104_declared_iff U root t hg hs h is hi w (List.mem_append_left _ hw)).1 hsc
    have hnm : c.attr "name".toList = some nm := by
      rcases h1 with ⟨-, h1⟩ | ⟨-, -, h1, -⟩ | ⟨h1, h3, -⟩
      · exact h1
      · exact h1
      · rw [hr c hc h1] at h3; cases h3
    exact hn c hc nm hnm (h2 ▸ List.mem_map_of_mem hw)

/-- **C104** A declared name hides a name only if it has the same letters and digits, if XML Schema has a prefix. -/
theorem C104_letters (U : UnicodeTable) (root : Node) (uri nm : Str) (hp : PlainNames root uri) (hc : ':' ∉ nm) (w : Str)
    (h : formatTypeName U (targetNamespace root) (xsdNamespace root) nm = w) :
    skeleton asciiAlnum nm = skeleton asciiAlnum w := by
  obtain ⟨x, p, hx, hxn⟩ := xsd_found hp
  have hb : matchBuiltInType nm (xsdNamespace root) = none := by
    cases hm : matchBuiltInType nm (xsdNamespace root) with
    | none => rfl
    | some r =>
      obtain ⟨row, -, hr, -⟩ := (C28_builtin nm r _).1 hm
      rw [hx] at hr
      have hr : Ref x.name row.1.toList nm := hr
      rw [hxn] at hr
      cases hr
      exact absurd (List.mem_append_right _ List.mem_cons_self) hc
  rw [← h, (C32_qualified U nm nm none _ _ (.bare hc) hb).1 rfl, skeleton_sanitize, skeleton_type]

/-! ## Schemas which hide names -/

/-- Three types called like names of the prelude and a library, and a type which uses them. -/
private def shadowing : Node := doc
  [el "complexType" [("name", "String")] [el "sequence" [] [el "element" [("name", "x"), ("type", "xs:string")] []]],
   el "complexType" [("name", "vec")] [el "sequence" [] [el "element" [("name", "x"), ("type", "xs:int")] []]],
   el "simpleType" [("name", "validate")] [el "restriction" [("base", "xs:int")] []],
   el "complexType" [("name", "Foo")] [el "sequence" [] [el "element" [("name", "y"), ("type", "xs:int"), ("maxOccurs", "9")] []]]]

/-- **C104** (violated) A type called String contains itself instead of a text; Vec and Validate, which the code uses, are
types of the schema. -/
theorem C104_violated : ∃ (root : Node) (t : Str) (is : List Item), Grammatical root ∧ CopySafe root ∧
    convertXsd A root = .ok t ∧ HasItems t is ∧ Contains is ([], "String".toList) ([], "String".toList) ∧
    (InScope is [] "Vec".toList ∧ ∃ i ∈ is, i.path = [] ∧ "Vec<i32>".toList ∈ memberTypes i) ∧
    (InScope is [] "Validate".toList ∧ ∃ i ∈ is, i.path = [] ∧ i.head = "impl Validate for Foo {}".toList) := by
  refine ⟨shadowing, textOf shadowing, itemsOf shadowing, grammatical_of rfl (by decide +kernel),
    copySafe_of (by decide +kernel) (by decide +kernel) (by decide +kernel) (by decide +kernel) (by decide +kernel),
    okText_eq (by decide +kernel), itemsOf_ok _, ?_, ⟨?_, by decide +kernel⟩, ⟨?_, by decide +kernel⟩⟩
  · have : ∃ i ∈ itemsOf shadowing, i.path = [] ∧ DefinesType i "String".toList ∧ ∃ w ∈ byValue "String".toList, w ∈ memberTypes i := by
      decide +kernel
    obtain ⟨i, hi, hp, hd, w, hw, hm⟩ := this
    exact ⟨i, hi, hp, hd, _, .outer (by simp) (by decide +kernel) (by
      intro q' hq h
      have : q' = [] := by simpa using hq
      rw [this] at h
      exact absurd h (Nat.lt_irrefl _)), w, hw, hm⟩
  · unfold InScope; decide +kernel
  · unfold InScope; decide +kernel

/-! ## Example -/

/-- The names of the sample hide nothing. -/
example : ∀ w ∈ codeNames, ¬ InScope (itemsOf sample) [] w.toList := by
  intro w hw h
  obtain ⟨c, hc, nm, h1, h2⟩ := (C104_declared_iff A sample _ (grammatical_of rfl (by decide +kernel))
    (copySafe_of (by decide +kernel) (by decide +kernel) (by decide +kernel) (by decide +kernel) (by decide +kernel))
    (okText_eq (by decide +kernel)) _ (itemsOf_ok _) w hw).1 h
  have key : ∀ c ∈ globals sample, c.attr "ref".toList = none ∧ ∀ nm ∈ (c.attr "name".toList).toList,
      ∀ w ∈ codeNames, formatTypeName A (targetNamespace sample) (xsdNamespace sample) nm ≠ w.toList := by decide +kernel
  rcases h1 with ⟨-, h1⟩ | ⟨-, -, h1, -⟩ | ⟨-, h1, -⟩
  · exact (key c hc).2 nm (Option.mem_toList.2 h1) w hw h2
  · exact (key c hc).2 nm (Option.mem_toList.2 h1) w hw h2
  · rw [(key c hc).1] at h1; cases h1

end Verif.Props
