import Verif.Props.Fields
import Verif.Lemmas.GenItems2
import Verif.Spec.Traits

/-! # C69: everything in the generated code -/

namespace Verif.Props

open Verif Verif.Model Verif.Spec Verif.RoXml Verif.Lemmas Verif.Lemmas.Parse

open Verif.Props.Sample

/-- How the code for a file is written. -/
abbrev fileNaming (U : UnicodeTable) (f : RsFile) : Naming :=
  ⟨formatTypeName U f.targetNs f.xsdNs, defaultFormatName U, fun n => caseName ⟨U, f.targetNs, f.xsdNs⟩ { name := n },
    defaultModifyType⟩

/-- Something of the documentation is written. -/
abbrev documented (c : Option Str) : Bool := decide (defaultFormatComment c 80 0 ≠ [])

/-- **C69** What is in the text for a file: for each entity at each level, in order, the definition with its attributes and
members, the implementations of `Validate` (which does what the facets ask for) and `Default`, and a module for the
entities inside a struct. Outside their blocks there is nothing else but comments. -/
theorem C69_items (U : UnicodeTable) (f : RsFile) (r : Str) (ht : SafeNamespace f.targetNs)
    (hs : ∀ x ∈ generatedList f.types, SafeTexts x ∧ IsItem x) (h : (generateRsFile U f).1 = .ok r) :
    ∃ is, HasItems r is ∧ List.Forall₂ (ItemFor (fileNaming U f) f.targetNs)
      (originsList (defaultFormatName U) documented f.types) is :=
  Gen.file_items ht hs h

/-- **C69** The items of a text are determined. -/
theorem C69_determined (t : Str) (is js : List Item) (h1 : HasItems t is) (h2 : HasItems t js) : is = js := by
  obtain ⟨ls, h1, rfl⟩ := h1
  obtain ⟨ms, h2, rfl⟩ := h2
  rw [Gen.lines_unique h1, Gen.lines_unique h2]

/-- **C69** For a schema document: the code has the items for the entities which the parser returns, and nothing else. -/
theorem C69_document (U : UnicodeTable) (root : Node) (t : Str) (hg : Grammatical root) (hs : CopySafe root)
    (h : convertXsd U root = .ok t) : ∃ f, parseFile U root = .ok f ∧ ∃ is, HasItems t is ∧
      List.Forall₂ (ItemFor (naming U root) (targetNamespace root)) (originsList (defaultFormatName U) documented f.types) is := by
  obtain ⟨f, hp, h⟩ := Res.bind_eq_ok.1 h
  obtain ⟨h1, h2⟩ := parseFile_safe hs hp
  obtain ⟨is, k1, k2⟩ := C69_items U f t h1 (fun x hx => ⟨h2 x hx, parseFile_items hg hp x hx⟩) h
  rw [fileNaming, (parseFile_namespaces hp).1, (parseFile_namespaces hp).2] at k2
  exact ⟨f, hp, is, k1, k2⟩

private abbrev Paired (x : List Str × Origin) (es : List RsEntity) (xs : List (List Str × Origin)) : Prop :=
  ∀ e, x.2 = .entity e → e ∈ es ∧ ∀ n, typeName? e = some n → ∃ t ms fs, (x.1, .validate n t ms fs) ∈ xs

private theorem Paired.mono {x : List Str × Origin} {es es' : List RsEntity} {xs xs' : List (List Str × Origin)}
    (h : Paired x es xs) (h1 : ∀ e ∈ es, e ∈ es') (h2 : ∀ y ∈ xs, y ∈ xs') : Paired x es' xs' := fun e he =>
  ⟨h1 e (h e he).1, fun n hn => by
    obtain ⟨t, ms, fs, h⟩ := (h e he).2 n hn
    exact ⟨t, ms, fs, h2 _ h⟩⟩

mutual
private theorem paired (mn : Str → Str) (doc : Option Str → Bool) : ∀ (e : RsEntity), ∀ x ∈ originsOf mn doc e,
    Paired x (generated e) (originsOf mn doc e)
  | .struct (.mk n c fs ag ss) => by
    intro x hx
    rw [originsOf] at hx ⊢
    rw [generated]
    rcases List.mem_cons.1 hx with rfl | hx
    · rintro e ⟨⟩
      refine ⟨by simp, ?_⟩
      rintro m ⟨⟩
      exact ⟨[], [], [], by simp⟩
    rcases List.mem_cons.1 hx with rfl | hx
    · intro e he; cases he
    split at hx
    · rename_i hi
      rw [if_pos hi]
      rcases List.mem_cons.1 hx with rfl | hx
      · intro e he; cases he
      obtain ⟨y, hy, rfl⟩ := List.mem_map.1 hx
      have key : Paired y (generatedList ss ++ generatedFields fs) (originsList mn doc ss ++ originsFields mn doc fs) := by
        rcases List.mem_append.1 hy with hy | hy
        · exact (pairedList mn doc ss y hy).mono (fun e h => by simp [h]) (fun e h => by simp [h])
        · exact (pairedFields mn doc fs y hy).mono (fun e h => by simp [h]) (fun e h => by simp [h])
      intro e he
      obtain ⟨k1, k2⟩ := key e he
      refine ⟨List.mem_cons_of_mem _ k1, fun m hm => ?_⟩
      obtain ⟨t, ms, fs, k⟩ := k2 m hm
      refine ⟨t, ms, fs, ?_⟩
      refine List.mem_cons_of_mem _ (List.mem_cons_of_mem _ (List.mem_cons_of_mem _ ?_))
      exact List.mem_map.2 ⟨_, k, rfl⟩
    · cases hx
  | .tupleStruct (.mk n c t ss ms fs) => by
    intro x hx
    rw [originsOf] at hx ⊢
    rw [generated]
    rcases List.mem_cons.1 hx with rfl | hx
    · rintro e ⟨⟩
      refine ⟨by simp, ?_⟩
      rintro m ⟨⟩
      exact ⟨t, ms, fs, by simp⟩
    rcases List.mem_append.1 hx with hx | hx
    · exact (pairedList mn doc ss x hx).mono (fun e h => by simp [h]) (fun e h => by simp [h])
    · obtain rfl := List.mem_singleton.1 hx
      intro e he; cases he
  | .enum (.mk n cs c t ss src) => by
    intro x hx
    rw [originsOf] at hx ⊢
    rw [generated]
    rcases List.mem_cons.1 hx with rfl | hx
    · rintro e ⟨⟩
      refine ⟨by simp, ?_⟩
      rintro m ⟨⟩
      exact ⟨[], [], [], by simp⟩
    rcases List.mem_cons.1 hx with rfl | hx
    · intro e he; cases he
    rcases List.mem_cons.1 hx with rfl | hx
    · intro e he; cases he
    exact (pairedList mn doc ss x hx).mono (fun e h => by simp [h]) (fun e h => by simp [h])
  | .alias (.mk n o c ss) => by
    intro x hx
    rw [originsOf] at hx
    split at hx
    · obtain rfl := List.mem_singleton.1 hx
      rintro e ⟨⟩
      refine ⟨by simp [generated], ?_⟩
      intro n hn; cases hn
    · cases hx
  | .structField f => by intro x hx; rw [originsOf] at hx <;> cases hx
  | .enumCase c => by intro x hx; rw [originsOf] at hx <;> cases hx
  | .import i => by intro x hx; rw [originsOf] at hx <;> cases hx
private theorem pairedList (mn : Str → Str) (doc : Option Str → Bool) : ∀ (es : List RsEntity), ∀ x ∈ originsList mn doc es,
    Paired x (generatedList es) (originsList mn doc es)
  | [] => by intro x hx; rw [originsList] at hx; cases hx
  | e :: es => by
    intro x hx
    rw [originsList] at hx ⊢
    rw [generatedList]
    rcases List.mem_append.1 hx with hx | hx
    · exact (paired mn doc e x hx).mono (fun e h => by simp [h]) (fun e h => by simp [h])
    · exact (pairedList mn doc es x hx).mono (fun e h => by simp [h]) (fun e h => by simp [h])
private theorem pairedFields (mn : Str → Str) (doc : Option Str → Bool) : ∀ (fs : List StructField),
    ∀ x ∈ originsFields mn doc fs, Paired x (generatedFields fs) (originsFields mn doc fs)
  | [] => by intro x hx; rw [originsFields] at hx; cases hx
  | .mk _ _ _ ss _ _ :: fs => by
    intro x hx
    rw [originsFields] at hx ⊢
    rw [generatedFields]
    rcases List.mem_append.1 hx with hx | hx
    · exact (pairedList mn doc ss x hx).mono (fun e h => by simp [h]) (fun e h => by simp [h])
    · exact (pairedFields mn doc fs x hx).mono (fun e h => by simp [h]) (fun e h => by simp [h])
end

/-- The origin of an item which defines a type. -/
theorem defines_origin {U : UnicodeTable} {f : RsFile} (hs : ∀ x ∈ generatedList f.types, SafeTexts x) {p : List Str} {o : Origin}
    {i : Item} {n : Str} (hx : (p, o) ∈ originsList (defaultFormatName U) documented f.types)
    (ho : ItemFor (fileNaming U f) f.targetNs (p, o) i) (hn : DefinesType i n) :
    ∃ e m, o = .entity e ∧ e ∈ generatedList f.types ∧ typeName? e = some m ∧ n = formatTypeName U f.targetNs f.xsdNs m := by
  replace ho := ho.2
  have hpair := pairedList (defaultFormatName U) documented f.types _ hx
  have hw : ∀ m, PrefixSafe m → ' ' ∉ formatTypeName U f.targetNs f.xsdNs m := fun m hm =>
    (Gen.typeName_word ⟨U, f.targetNs, f.xsdNs⟩ hm).sp
  cases o with
  | entity e =>
    have hmem := (hpair e rfl).1
    have hsafe := hs e hmem
    cases e with
    | struct s =>
      obtain ⟨m, c, fs, ag, ss⟩ := s
      refine ⟨_, m, rfl, hmem, rfl, ?_⟩
      have hh : i.head = "pub struct ".toList ++ (formatTypeName U f.targetNs f.xsdNs m ++ ' ' ::
          (if written fs = [] then "{}".toList else "{".toList)) := by
        refine ho.2.2.trans ?_
        split <;> rfl
      rw [DefinesType, hh, Gen.readHead_struct (hw m hsafe.1)] at hn
      rcases hn with hn | hn <;> cases hn
      rfl
    | tupleStruct s =>
      obtain ⟨m, c, t, ss, ms, fs⟩ := s
      refine ⟨_, m, rfl, hmem, rfl, ?_⟩
      have hh : i.head = "pub struct ".toList ++ (formatTypeName U f.targetNs f.xsdNs m ++ ' ' :: _) := ho.2.1
      rw [DefinesType, hh, Gen.readHead_struct (hw m hsafe.1)] at hn
      rcases hn with hn | hn <;> cases hn
      rfl
    | enum s =>
      obtain ⟨m, cs, c, t, ss, src⟩ := s
      refine ⟨_, m, rfl, hmem, rfl, ?_⟩
      have hh : i.head = "pub enum ".toList ++ (formatTypeName U f.targetNs f.xsdNs m ++ ' ' :: ['{']) := ho.2.1
      rw [DefinesType, hh, Gen.readHead_enum (hw m hsafe.1)] at hn
      rcases hn with hn | hn <;> cases hn
      rfl
    | «alias» a =>
      obtain ⟨m, o, c, ss⟩ := a
      have hh : i.head = "pub type ".toList ++ (formatTypeName U f.targetNs f.xsdNs m ++ ' ' :: _) := ho.2.1
      rw [DefinesType, hh, Gen.readHead_type (hw m hsafe.1)] at hn
      rcases hn with hn | hn <;> cases hn
    | structField _ => exact ho.elim
    | enumCase _ => exact ho.elim
    | «import» _ => exact ho.elim
  | inner m =>
    have hh : i.head = "pub mod ".toList ++ (defaultFormatName U m ++ ' ' :: ['{']) := ho.2.1
    rw [DefinesType, hh, Gen.readHead_mod (Gen.name_nameText U m).word.sp] at hn
    rcases hn with hn | hn <;> cases hn
  | validate m t ms fs =>
    obtain ⟨cs, -, ⟨-, hv⟩, -⟩ := ho
    have hh : i.head.head? = some 'i' := by
      rcases hv with ⟨-, hv, -⟩ | ⟨-, hv, -⟩ <;> rw [hv] <;> rfl
    rw [DefinesType, Gen.readHead_of_head (by rw [hh]; decide)] at hn
    rcases hn with hn | hn <;> cases hn
  | default m =>
    have hh : i.head.head? = some 'i' := by rw [ho.2.1]; rfl
    rw [DefinesType, Gen.readHead_of_head (by rw [hh]; decide)] at hn
    rcases hn with hn | hn <;> cases hn

/-- **C69** Each struct and enum in the text has an implementation of `Validate` in the same module. -/
theorem C69_validated (U : UnicodeTable) (f : RsFile) (r : Str) (ht : SafeNamespace f.targetNs)
    (hs : ∀ x ∈ generatedList f.types, SafeTexts x ∧ IsItem x) (h : (generateRsFile U f).1 = .ok r)
    (is : List Item) (hi : HasItems r is) (i : Item) (hm : i ∈ is) (n : Str) (hn : DefinesType i n) :
    ∃ j ∈ is, j.path = i.path ∧ (j.head = "impl Validate for ".toList ++ (n ++ " {}".toList) ∨
      j.head = "impl Validate for ".toList ++ (n ++ " {".toList)) := by
  obtain ⟨is', h1, h2⟩ := C69_items U f r ht hs h
  obtain rfl := C69_determined r is is' hi h1
  obtain ⟨⟨p, o⟩, hx, hxi⟩ := forall₂_left h2 i hm
  have hp : i.path = p := hxi.1
  have key := defines_origin (fun x hx => (hs x hx).1) hx hxi hn
  obtain ⟨e, m, rfl, -, hm', rfl⟩ := key
  obtain ⟨t, ms, fs, hv⟩ := (pairedList (defaultFormatName U) documented f.types _ hx e rfl).2 m hm'
  obtain ⟨j, hj, hji⟩ := forall₂_right h2 _ hv
  obtain ⟨hjp, cs, -, ⟨-, hjv⟩, -⟩ := hji
  refine ⟨j, hj, by rw [hjp, hp], ?_⟩
  rcases hjv with ⟨-, hv, -⟩ | ⟨-, hv, -⟩
  · exact .inl hv
  · exact .inr hv

/-! ## Example -/

/-- What is assumed holds of the file for the sample. -/
example : ∃ f r, parseFile A sample = .ok f ∧ SafeNamespace f.targetNs ∧
    (∀ x ∈ generatedList f.types, SafeTexts x ∧ IsItem x) ∧ (generateRsFile A f).1 = .ok r ∧ 1 < f.types.length := by
  obtain ⟨t, h⟩ : ∃ t, convertXsd A sample = .ok t := ok_of (by decide +kernel)
  obtain ⟨f, hp, h⟩ := Res.bind_eq_ok.1 h
  obtain ⟨h1, h2⟩ := parseFile_safe sample_copySafe hp
  refine ⟨f, t, hp, h1, fun x hx => ⟨h2 x hx, parseFile_items sample_grammatical hp x hx⟩, h, ?_⟩
  have : f = okFile (parseFile A sample) := by rw [hp]; rfl
  rw [this]
  decide +kernel

private def textOf (root : Node) : Str := okText (convertXsd A root)

private theorem hasItems_of (t : Str) : HasItems t (readItems [] [] (Gen.lns t)) := ⟨_, Gen.lines_lns t, rfl⟩

/-- A type with an inline one with a facet. -/
private def small : Node := doc
  [el "complexType" [("name", "Parcel")] [el "sequence" [] [el "element" [("name", "size"), ("minOccurs", "0")]
     [el "simpleType" [] [el "restriction" [("base", "xs:int")] [el "maxInclusive" [("value", "9")] []]]]]]]

example : HasItems (textOf small)
    [⟨[], ["#[derive(Default, Clone, PartialEq, Debug, YaSerialize, YaDeserialize)]".toList,
        "#[yaserde(prefix = \"tns\", namespace = \"tns: http://example.com/a\")]".toList], "pub struct Parcel {".toList,
       ["#[yaserde(prefix = \"tns\", rename = \"size\")]".toList, "pub size: Option<parcel::SizeType>,".toList]⟩,
     ⟨[], [], "impl Validate for Parcel {}".toList, []⟩,
     ⟨[], [], "pub mod parcel {".toList, ["use super::*;".toList]⟩,
     ⟨["parcel".toList], ["#[derive(Default, Clone, PartialEq, Debug, UtilsTupleIo, UtilsDefaultSerde)]".toList],
       "pub struct SizeType (pub i32);".toList, []⟩,
     ⟨["parcel".toList], [], "impl Validate for SizeType {".toList,
       ["fn validate(&self) -> Result<(), String> { ".toList, "if self.0 > \"9\".parse::<i32>().unwrap() {".toList, "return Err(format!(\"MaxInclusive validation error: invalid value of 0! \\nExpected: 0 <= 9.\\nActual: 0 == {}\", self.0));".toList,
        "}".toList, "Ok(())".toList, "}".toList]⟩] := by
  have := hasItems_of (textOf small)
  refine Eq.subst (motive := HasItems (textOf small)) ?_ this
  decide +kernel

end Verif.Props
