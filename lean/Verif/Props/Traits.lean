import Verif.Props.Items

/-! # C70: the traits of the generated types -/

namespace Verif.Props

open Verif Verif.Model Verif.Spec Verif.RoXml Verif.Lemmas Verif.Lemmas.Parse

open Verif.Props.Sample

/-! ## What the item for an origin implements -/

private def given (tn : Str → Str) : Origin → List (Str × Str)
  | .entity (.struct (.mk n _ _ _ _)) => ["Default".toList, "Clone".toList, "PartialEq".toList, "Debug".toList, "YaSerialize".toList,
      "YaDeserialize".toList].map (tn n, ·)
  | .entity (.tupleStruct (.mk n _ _ _ _ _)) => ["Default".toList, "Clone".toList, "PartialEq".toList, "Debug".toList,
      "FromStr".toList, "Display".toList, "YaSerialize".toList, "YaDeserialize".toList].map (tn n, ·)
  | .entity (.enum (.mk n _ _ _ _ src)) =>
    (if src = .union then ["PartialEq".toList, "Debug".toList, "YaSerialize".toList, "YaDeserialize".toList]
    else ["PartialEq".toList, "Debug".toList, "Clone".toList, "YaSerialize".toList, "YaDeserialize".toList]).map (tn n, ·)
  | .entity _ => []
  | .inner _ => []
  | .validate n _ _ _ => [(tn n, "Validate".toList)]
  | .default n => [(tn n, "Default".toList)]

private def givenAt (tn : Str → Str) (x : List Str × Origin) : List (List Str × Str × Str) := (given tn x.2).map (x.1, ·)

private theorem readImpl_validate {n : Str} (h : ' ' ∉ n) (r : Str) :
    readImpl ("impl Validate for ".toList ++ (n ++ ' ' :: r)) = some ("Validate".toList, n) := by
  have h1 : afterPrefix "impl ".toList ("impl Validate for ".toList ++ (n ++ ' ' :: r)) =
    some ("Validate for ".toList ++ (n ++ ' ' :: r)) := rfl
  have h2 : ("Validate for ".toList ++ (n ++ ' ' :: r)).takeWhile (· ≠ ' ') = "Validate".toList := rfl
  rw [readImpl, h1]
  dsimp only
  rw [h2]
  have h3 : afterPrefix ("Validate".toList ++ " for ".toList) ("Validate for ".toList ++ (n ++ ' ' :: r)) = some (n ++ ' ' :: r) := rfl
  rw [h3]
  dsimp only
  rw [Gen.takeWhile_word h]

private theorem readImpl_default {n : Str} (h : ' ' ∉ n) (r : Str) :
    readImpl ("impl Default for ".toList ++ (n ++ ' ' :: r)) = some ("Default".toList, n) := by
  have h1 : afterPrefix "impl ".toList ("impl Default for ".toList ++ (n ++ ' ' :: r)) =
    some ("Default for ".toList ++ (n ++ ' ' :: r)) := rfl
  have h2 : ("Default for ".toList ++ (n ++ ' ' :: r)).takeWhile (· ≠ ' ') = "Default".toList := rfl
  rw [readImpl, h1]
  dsimp only
  rw [h2]
  have h3 : afterPrefix ("Default".toList ++ " for ".toList) ("Default for ".toList ++ (n ++ ' ' :: r)) = some (n ++ ' ' :: r) := rfl
  rw [h3]
  dsimp only
  rw [Gen.takeWhile_word h]

theorem derived_nsAttr (ns : Option Namespace) : derived (nsAttr ns) = [] := by
  rcases ns with - | ⟨- | p, u⟩ <;> rfl

/-- The name in an origin. -/
private def originName : Origin → Option Str
  | .entity (.struct (.mk n _ _ _ _)) => some n
  | .entity (.tupleStruct (.mk n _ _ _ _ _)) => some n
  | .entity (.enum (.mk n _ _ _ _ _)) => some n
  | .entity (.alias (.mk n _ _ _)) => some n
  | .entity _ => none
  | .inner _ => none
  | .validate n _ _ _ => some n
  | .default n => some n

private theorem provides_of {N : Naming} {ns : Option Namespace} {x : List Str × Origin} {i : Item}
    (hn : ∀ n, originName x.2 = some n → ' ' ∉ N.type n) (hm : ∀ n, ' ' ∉ N.name n) (h : ItemFor N ns x i) :
    provides i = given N.type x.2 := by
  obtain ⟨p, o⟩ := x
  obtain ⟨-, h⟩ := h
  cases o with
  | entity e =>
    cases e with
    | struct s =>
      obtain ⟨n, c, fs, ag, ss⟩ := s
      have hh : i.head = "pub struct ".toList ++ (N.type n ++ ' ' ::
          (if written fs = [] then "{}".toList else "{".toList)) := by
        refine h.2.2.trans ?_
        split <;> rfl
      have ha : i.attrs.flatMap derived = ["Default".toList, "Clone".toList, "PartialEq".toList, "Debug".toList,
          "YaSerialize".toList, "YaDeserialize".toList] := by
        rw [show i.attrs = _ from h.1, List.flatMap_cons, List.flatMap_cons, derived_nsAttr]
        decide +kernel
      rw [provides, hh, Gen.readHead_struct (hn n rfl)]
      dsimp only
      rw [ha]
      rfl
    | tupleStruct s =>
      obtain ⟨n, c, t, ss, ms, fs⟩ := s
      have hh : i.head = "pub struct ".toList ++ (N.type n ++ ' ' :: _) := h.2.1
      have ha : i.attrs.flatMap derived = ["Default".toList, "Clone".toList, "PartialEq".toList, "Debug".toList,
          "UtilsTupleIo".toList, "UtilsDefaultSerde".toList] := by
        rw [show i.attrs = _ from h.1, List.flatMap_cons]
        decide +kernel
      rw [provides, hh, Gen.readHead_struct (hn n rfl)]
      dsimp only
      rw [ha]
      rfl
    | enum s =>
      obtain ⟨n, cs, c, t, ss, src⟩ := s
      have hh : i.head = "pub enum ".toList ++ (N.type n ++ ' ' :: ['{']) := h.2.1
      have ha := h.1
      rw [provides, hh, Gen.readHead_enum (hn n rfl)]
      dsimp only
      rw [given]
      split at ha
      · rename_i hs
        have : i.attrs.flatMap derived = ["PartialEq".toList, "Debug".toList, "UtilsUnionSerDe".toList] := by
          rw [ha]; decide +kernel
        rw [this, if_pos hs]
        rfl
      · rename_i hs
        have : i.attrs.flatMap derived = ["PartialEq".toList, "Debug".toList, "Clone".toList, "YaSerialize".toList,
            "YaDeserialize".toList] := by
          rw [ha]
          rfl
        rw [this, if_neg hs]
        rfl
    | «alias» a =>
      obtain ⟨n, o, c, ss⟩ := a
      have hh : i.head = "pub type ".toList ++ (N.type n ++ ' ' :: _) := h.2.1
      rw [provides, hh, Gen.readHead_type (hn n rfl)]
      rfl
    | structField _ => exact h.elim
    | enumCase _ => exact h.elim
    | «import» _ => exact h.elim
  | inner n =>
    have hh : i.head = "pub mod ".toList ++ (N.name n ++ ' ' :: ['{']) := h.2.1
    rw [provides, hh, Gen.readHead_mod (hm n)]
    rfl
  | validate n t ms fs =>
    obtain ⟨cs, -, ⟨-, h⟩, -⟩ := h
    have hh : i.head = "impl Validate for ".toList ++ (N.type n ++ ' ' :: "{}".toList) ∨
        i.head = "impl Validate for ".toList ++ (N.type n ++ ' ' :: "{".toList) := by
      rcases h with ⟨-, h, -⟩ | ⟨-, h, -⟩
      · exact .inl h
      · exact .inr h
    have hp : readHead i.head = none := by
      apply Gen.readHead_of_head
      rcases hh with h | h <;> rw [h] <;> simp
    rw [provides, hp]
    dsimp only
    rcases hh with h | h <;> rw [h, readImpl_validate (hn n rfl)] <;> rfl
  | default n =>
    have hh : i.head = "impl Default for ".toList ++ (N.type n ++ ' ' :: "{".toList) := h.2.1
    have hp : readHead i.head = none := by
      apply Gen.readHead_of_head
      rw [hh]; simp
    rw [provides, hp]
    dsimp only
    rw [hh, readImpl_default (hn n rfl)]
    rfl

private theorem implementations_of {N : Naming} {ns : Option Namespace} {xs : List (List Str × Origin)} {is : List Item}
    (hn : ∀ x ∈ xs, ∀ n, originName x.2 = some n → ' ' ∉ N.type n) (hm : ∀ n, ' ' ∉ N.name n)
    (h : List.Forall₂ (ItemFor N ns) xs is) : implementations is = xs.flatMap (givenAt N.type) := by
  induction h with
  | nil => rfl
  | @cons x i xs is h _ ih =>
    have ih := ih fun x hx => hn x (List.mem_cons_of_mem _ hx)
    rw [implementations] at ih
    rw [implementations, List.flatMap_cons, List.flatMap_cons, ih, provides_of (hn x List.mem_cons_self) hm h, h.1, givenAt]

/-! ## All together they are what is expected -/

private def under (m : Str) (y : List Str × Str × Str) : List Str × Str × Str := (m :: y.1, y.2)

private theorem givenAt_inside (tn : Str → Str) (m : Str) (xs : List (List Str × Origin)) :
    (xs.map (inside m)).flatMap (givenAt tn) = (xs.flatMap (givenAt tn)).map (under m) := by
  induction xs with
  | nil => rfl
  | cons x xs ih =>
    rw [List.map_cons, List.flatMap_cons, List.flatMap_cons, List.map_append, ih]
    congr 1
    simp only [givenAt, inside, List.map_map]
    rfl

private theorem expected_inside (tn : Str → Str) (m : Str) (xs : List (List Str × Origin)) :
    (xs.map (inside m)).flatMap (expectedImpls tn) = (xs.flatMap (expectedImpls tn)).map (under m) := by
  induction xs with
  | nil => rfl
  | cons x xs ih =>
    rw [List.map_cons, List.flatMap_cons, List.flatMap_cons, List.map_append, ih]
    congr 1
    simp only [expectedImpls, inside]
    obtain ⟨p, o⟩ := x
    cases o <;> try rfl
    dsimp only
    split
    · rw [List.map_map]; rfl
    · rfl

mutual
private theorem traits_perm (tn mn : Str → Str) (doc : Option Str → Bool) : ∀ e : RsEntity,
    ((originsOf mn doc e).flatMap (givenAt tn)).Perm ((originsOf mn doc e).flatMap (expectedImpls tn))
  | .struct (.mk n c fs ag ss) => by
    rw [originsOf]
    have hin : ∀ p : Prop, [Decidable p] → ((if p then ([], Origin.inner n) ::
          ((originsList mn doc ss ++ originsFields mn doc fs).map (inside (mn n))) else []).flatMap (givenAt tn)).Perm
        ((if p then ([], Origin.inner n) ::
          ((originsList mn doc ss ++ originsFields mn doc fs).map (inside (mn n))) else []).flatMap (expectedImpls tn)) := by
      intro p _
      split
      · rw [List.flatMap_cons, List.flatMap_cons, givenAt_inside, expected_inside, List.flatMap_append, List.flatMap_append]
        exact (((traits_perm_list tn mn doc ss).append (traits_perm_fields tn mn doc fs)).map _)
      · exact List.Perm.refl _
    rw [List.flatMap_cons, List.flatMap_cons, List.flatMap_cons, List.flatMap_cons, ← List.append_assoc, ← List.append_assoc]
    exact List.Perm.append (List.Perm.refl _) (hin _)
  | .tupleStruct (.mk n c t ss ms fs) => by
    rw [originsOf, List.flatMap_cons, List.flatMap_cons, List.flatMap_append, List.flatMap_append]
    have h := traits_perm_list tn mn doc ss
    have e1 : [(([] : List Str), Origin.validate n t ms fs)].flatMap (givenAt tn) = [([], tn n, "Validate".toList)] := rfl
    have e2 : [(([] : List Str), Origin.validate n t ms fs)].flatMap (expectedImpls tn) = [] := rfl
    rw [e1, e2, List.append_nil]
    refine (List.Perm.append (List.Perm.refl _) List.perm_append_comm).trans ?_
    rw [← List.append_assoc]
    exact List.Perm.append (List.Perm.refl _) h
  | .enum (.mk n cs c t ss src) => by
    rw [originsOf]
    simp only [List.flatMap_cons, ← List.append_assoc]
    refine List.Perm.append ?_ (traits_perm_list tn mn doc ss)
    simp only [givenAt, given, expectedImpls, typeName?, traitsOf]
    split
    · exact List.Perm.refl _
    · simp only [List.map_cons, List.map_nil, List.cons_append, List.nil_append, List.append_nil]
      generalize (([] : List Str), tn n, "PartialEq".toList) = a
      generalize (([] : List Str), tn n, "Debug".toList) = b
      generalize (([] : List Str), tn n, "Clone".toList) = c'
      exact (List.Perm.cons a (List.Perm.swap c' b _)).trans (List.Perm.swap c' a _)
  | .alias (.mk n o c ss) => by
    rw [originsOf]
    split
    · exact List.Perm.refl _
    · exact List.Perm.refl _
  | .structField f => by rw [originsOf] <;> first | exact List.Perm.refl _ | (intros; rename_i h; cases h)
  | .enumCase c => by rw [originsOf] <;> first | exact List.Perm.refl _ | (intros; rename_i h; cases h)
  | .import i => by rw [originsOf] <;> first | exact List.Perm.refl _ | (intros; rename_i h; cases h)
private theorem traits_perm_list (tn mn : Str → Str) (doc : Option Str → Bool) : ∀ es : List RsEntity,
    ((originsList mn doc es).flatMap (givenAt tn)).Perm ((originsList mn doc es).flatMap (expectedImpls tn))
  | [] => by rw [originsList]; exact List.Perm.refl _
  | e :: es => by
    rw [originsList, List.flatMap_append, List.flatMap_append]
    exact (traits_perm tn mn doc e).append (traits_perm_list tn mn doc es)
private theorem traits_perm_fields (tn mn : Str → Str) (doc : Option Str → Bool) : ∀ fs : List StructField,
    ((originsFields mn doc fs).flatMap (givenAt tn)).Perm ((originsFields mn doc fs).flatMap (expectedImpls tn))
  | [] => by rw [originsFields]; exact List.Perm.refl _
  | .mk _ _ _ ss _ _ :: fs => by
    rw [originsFields, List.flatMap_append, List.flatMap_append]
    exact (traits_perm_list tn mn doc ss).append (traits_perm_fields tn mn doc fs)
end

/-! ## The names in origins are those of entities -/

private abbrev Named (x : List Str × Origin) (es : List RsEntity) : Prop :=
  ∀ n, originName x.2 = some n → ∃ e ∈ es, originName (.entity e) = some n

private theorem Named.mono {x : List Str × Origin} {es es' : List RsEntity} (h : Named x es) (h1 : ∀ e ∈ es, e ∈ es') :
    Named x es' := fun n hn => by
  obtain ⟨e, he, k⟩ := h n hn
  exact ⟨e, h1 e he, k⟩

mutual
private theorem named (mn : Str → Str) (doc : Option Str → Bool) : ∀ (e : RsEntity), ∀ x ∈ originsOf mn doc e,
    Named x (generated e)
  | .struct (.mk n c fs ag ss) => by
    intro x hx
    rw [originsOf] at hx
    rw [generated]
    rcases List.mem_cons.1 hx with rfl | hx
    · rintro m ⟨⟩; exact ⟨_, List.mem_cons_self, rfl⟩
    rcases List.mem_cons.1 hx with rfl | hx
    · rintro m ⟨⟩; exact ⟨_, List.mem_cons_self, rfl⟩
    split at hx
    · rcases List.mem_cons.1 hx with rfl | hx
      · intro m hm; cases hm
      obtain ⟨y, hy, rfl⟩ := List.mem_map.1 hx
      have key : Named y (generatedList ss ++ generatedFields fs) := by
        rcases List.mem_append.1 hy with hy | hy
        · exact (namedList mn doc ss y hy).mono (fun e h => by simp [h])
        · exact (namedFields mn doc fs y hy).mono (fun e h => by simp [h])
      exact key.mono fun e h => List.mem_cons_of_mem _ h
    · cases hx
  | .tupleStruct (.mk n c t ss ms fs) => by
    intro x hx
    rw [originsOf] at hx
    rw [generated]
    rcases List.mem_cons.1 hx with rfl | hx
    · rintro m ⟨⟩; exact ⟨_, List.mem_cons_self, rfl⟩
    rcases List.mem_append.1 hx with hx | hx
    · exact (namedList mn doc ss x hx).mono (fun e h => by simp [h])
    · obtain rfl := List.mem_singleton.1 hx
      rintro m ⟨⟩; exact ⟨_, List.mem_cons_self, rfl⟩
  | .enum (.mk n cs c t ss src) => by
    intro x hx
    rw [originsOf] at hx
    rw [generated]
    rcases List.mem_cons.1 hx with rfl | hx
    · rintro m ⟨⟩; exact ⟨_, List.mem_cons_self, rfl⟩
    rcases List.mem_cons.1 hx with rfl | hx
    · rintro m ⟨⟩; exact ⟨_, List.mem_cons_self, rfl⟩
    rcases List.mem_cons.1 hx with rfl | hx
    · rintro m ⟨⟩; exact ⟨_, List.mem_cons_self, rfl⟩
    exact (namedList mn doc ss x hx).mono (fun e h => by simp [h])
  | .alias (.mk n o c ss) => by
    intro x hx
    rw [originsOf] at hx
    split at hx
    · obtain rfl := List.mem_singleton.1 hx
      rintro m ⟨⟩; exact ⟨.alias (.mk n o c ss), by simp [generated], rfl⟩
    · cases hx
  | .structField f => by intro x hx; rw [originsOf] at hx <;> cases hx
  | .enumCase c => by intro x hx; rw [originsOf] at hx <;> cases hx
  | .import i => by intro x hx; rw [originsOf] at hx <;> cases hx
private theorem namedList (mn : Str → Str) (doc : Option Str → Bool) : ∀ (es : List RsEntity), ∀ x ∈ originsList mn doc es,
    Named x (generatedList es)
  | [] => by intro x hx; rw [originsList] at hx; cases hx
  | e :: es => by
    intro x hx
    rw [originsList] at hx
    rw [generatedList]
    rcases List.mem_append.1 hx with hx | hx
    · exact (named mn doc e x hx).mono (fun e h => by simp [h])
    · exact (namedList mn doc es x hx).mono (fun e h => by simp [h])
private theorem namedFields (mn : Str → Str) (doc : Option Str → Bool) : ∀ (fs : List StructField),
    ∀ x ∈ originsFields mn doc fs, Named x (generatedFields fs)
  | [] => by intro x hx; rw [originsFields] at hx; cases hx
  | .mk _ _ _ ss _ _ :: fs => by
    intro x hx
    rw [originsFields] at hx
    rw [generatedFields]
    rcases List.mem_append.1 hx with hx | hx
    · exact (namedList mn doc ss x hx).mono (fun e h => by simp [h])
    · exact (namedFields mn doc fs x hx).mono (fun e h => by simp [h])
end

/-- **C70** The implementations in the text for a file are those which `traitsOf` gives for its types, each once. -/
theorem C70_traits (U : UnicodeTable) (f : RsFile) (r : Str) (ht : SafeNamespace f.targetNs)
    (hs : ∀ x ∈ generatedList f.types, SafeTexts x ∧ IsItem x) (h : (generateRsFile U f).1 = .ok r)
    (is : List Item) (hi : HasItems r is) :
    (implementations is).Perm
      ((originsList (defaultFormatName U) documented f.types).flatMap (expectedImpls (formatTypeName U f.targetNs f.xsdNs))) := by
  obtain ⟨is', h1, h2⟩ := C69_items U f r ht hs h
  obtain rfl := C69_determined r is is' hi h1
  refine (List.Perm.of_eq (implementations_of ?_ ?_ h2)).trans (traits_perm_list _ _ _ _)
  · intro x hx n hn
    obtain ⟨e, he, hen⟩ := namedList (defaultFormatName U) documented f.types x hx n hn
    have hsafe := (hs e he).1
    have : PrefixSafe n := by
      rcases e with s | s | s | s | s | s | s <;> rcases s with ⟨⟩ <;> cases hen <;> exact hsafe.1
    exact (Gen.typeName_word ⟨U, f.targetNs, f.xsdNs⟩ this).sp
  · exact fun n => (Gen.name_nameText U n).word.sp

private theorem implements_of {U : UnicodeTable} {f : RsFile} {r : Str} (ht : SafeNamespace f.targetNs)
    (hs : ∀ x ∈ generatedList f.types, SafeTexts x ∧ IsItem x) (h : (generateRsFile U f).1 = .ok r) {is : List Item}
    (hi : HasItems r is) {i : Item} (hm : i ∈ is) {n : Str} (hn : DefinesType i n) :
    ∃ e ∈ generatedList f.types, (∃ m, typeName? e = some m) ∧ ∀ tr ∈ traitsOf e, (i.path, n, tr) ∈ implementations is := by
  have hperm := C70_traits U f r ht hs h is hi
  obtain ⟨is', h1, h2⟩ := C69_items U f r ht hs h
  obtain rfl := C69_determined r is is' hi h1
  obtain ⟨⟨p, o⟩, hx, hxi⟩ := forall₂_left h2 i hm
  obtain ⟨e, m, rfl, he, hm', rfl⟩ := defines_origin (fun x hx => (hs x hx).1) hx hxi hn
  refine ⟨e, he, ⟨m, hm'⟩, fun tr htr => hperm.mem_iff.2 (List.mem_flatMap.2 ⟨_, hx, ?_⟩)⟩
  rw [expectedImpls]
  dsimp only
  rw [hm', hxi.1]
  exact List.mem_map.2 ⟨tr, htr, rfl⟩

/-- The traits which every type has. -/
private def always : List Str := ["Default".toList, "PartialEq".toList, "Debug".toList, "YaSerialize".toList,
  "YaDeserialize".toList, "Validate".toList]

private theorem always_of {e : RsEntity} (h : ∃ m, typeName? e = some m) : ∀ tr ∈ always, tr ∈ traitsOf e := by
  obtain ⟨m, h⟩ := h
  intro tr htr
  cases e with
  | struct s => rw [traitsOf]; revert tr; decide
  | tupleStruct s => rw [traitsOf]; revert tr; decide
  | enum s =>
    obtain ⟨n, cs, c, t, ss, src⟩ := s
    refine List.mem_append.2 (.inr ?_)
    revert tr; decide
  | «alias» _ => cases h
  | structField _ => cases h
  | enumCase _ => cases h
  | «import» _ => cases h

/-- **C70** Each struct and enum in the text can be compared and printed, has a default, can be validated and read from and
written to XML: all this is implemented in the module where it is defined. -/
theorem C70_always (U : UnicodeTable) (f : RsFile) (r : Str) (ht : SafeNamespace f.targetNs)
    (hs : ∀ x ∈ generatedList f.types, SafeTexts x ∧ IsItem x) (h : (generateRsFile U f).1 = .ok r)
    (is : List Item) (hi : HasItems r is) (i : Item) (hm : i ∈ is) (n : Str) (hn : DefinesType i n) (tr : String)
    (htr : tr ∈ ["Default", "PartialEq", "Debug", "YaSerialize", "YaDeserialize", "Validate"]) :
    (i.path, n, tr.toList) ∈ implementations is := by
  obtain ⟨e, -, he, k⟩ := implements_of ht hs h hi hm hn
  exact k _ (always_of he _ (List.mem_map_of_mem (f := String.toList) htr))

/-- **C70** The code for a schema document has exactly the implementations for the types in it. -/
theorem C70_document (U : UnicodeTable) (root : Node) (t : Str) (hg : Grammatical root) (hs : CopySafe root)
    (h : convertXsd U root = .ok t) : ∃ f, parseFile U root = .ok f ∧ ∃ is, HasItems t is ∧
      (implementations is).Perm
        ((originsList (defaultFormatName U) documented f.types).flatMap (expectedImpls (naming U root).type)) := by
  obtain ⟨f, hp, h⟩ := Res.bind_eq_ok.1 h
  obtain ⟨h1, h2⟩ := parseFile_safe hs hp
  have hx := fun x hx => And.intro (h2 x hx) (parseFile_items hg hp x hx)
  obtain ⟨is, k1, -⟩ := C69_items U f t h1 hx h
  have k2 := C70_traits U f t h1 hx h is k1
  rw [(parseFile_namespaces hp).1, (parseFile_namespaces hp).2] at k2
  exact ⟨f, hp, is, k1, k2⟩

/-! ## Clone -/

private def noUnionPreds : Preds where
  R := fun _ _ _ => True
  N := fun _ => True
  T := fun _ => True
  C := fun _ => True
  F := fun _ => True
  J := fun _ => True
  L := fun _ => True
  K := fun s _ => s ≠ .union

private theorem sources_noUnion {root : Node} (h : ∀ n, PartOf root n → n.tag ≠ "union".toList) :
    Sources (PartOf root) (PartOf root) noUnionPreds where
  hered n hn c hc := .child hn hc
  mono _ h := h
  owner _ _ := trivial
  name _ _ := trivial
  ref _ _ := trivial
  type _ _ := trivial
  base _ _ := trivial
  itemType _ _ := trivial
  memberTypes _ _ _ _ := ⟨trivial, trivial⟩
  facet _ _ := trivial
  enumeration _ _ := trivial
  namespace' _ := trivial
  location _ := trivial
  name_type _ := trivial
  name_case _ := trivial
  name_import _ := trivial
  suffix _ := ⟨trivial, trivial, trivial⟩
  constants _ _ := trivial
  field _ _ := trivial
  marker _ _ := trivial
  rename _ _ := trivial
  kinds := fun _ => ⟨(by decide : EnumSource.restriction ≠ .union), (by decide : EnumSource.choice ≠ .union)⟩
  union hn ht _ := absurd ht (h _ hn)
  numbered _ := ⟨trivial, trivial⟩

/-- **C70** If there is no union in the document, each struct and enum in the code can be cloned. -/
theorem C70_clone_partial (U : UnicodeTable) (root : Node) (t : Str) (hg : Grammatical root) (hs : CopySafe root)
    (hu : ∀ n, PartOf root n → n.tag ≠ "union".toList) (h : convertXsd U root = .ok t) (is : List Item) (hi : HasItems t is)
    (i : Item) (hm : i ∈ is) (n : Str) (hn : DefinesType i n) : (i.path, n, "Clone".toList) ∈ implementations is := by
  obtain ⟨f, hp, h⟩ := Res.bind_eq_ok.1 h
  obtain ⟨h1, h2⟩ := parseFile_safe hs hp
  have hx := fun x hx => And.intro (h2 x hx) (parseFile_items hg hp x hx)
  obtain ⟨e, he, ⟨m, hem⟩, k⟩ := implements_of h1 hx h hi hm hn
  have hk := Deep.generatedList (parseFile_texts (sources_noUnion hu) .root hp).1 e he
  refine k _ ?_
  cases e with
  | struct s => rw [traitsOf]; decide
  | tupleStruct s => rw [traitsOf]; decide
  | enum s =>
    obtain ⟨n, cs, c, t, ss, src⟩ := s
    rw [traitsOf, if_neg (show src ≠ .union from hk.2.2.2)]
    exact List.mem_cons_self
  | «alias» _ => cases hem
  | structField _ => cases hem
  | enumCase _ => cases hem
  | «import» _ => cases hem

/-! ## Where traits are missing -/

private def textOf (root : Node) : Str := okText (convertXsd A root)

private theorem hasItems_of (t : Str) : HasItems t (readItems [] [] (Gen.lns t)) := ⟨_, Gen.lines_lns t, rfl⟩

private theorem ok_textOf {root : Node} (h : convertXsd A root ≠ .panic ∧ convertXsd A root ≠ .err) :
    convertXsd A root = .ok (textOf root) := okText_eq h

/-- A type with an element whose type is a union. -/
private def withUnion : Node := doc
  [el "simpleType" [("name", "Size")] [el "union" [("memberTypes", "xs:int xs:string")] []],
   el "complexType" [("name", "Shirt")] [el "sequence" [] [el "element" [("name", "size"), ("type", "tns:Size")] []]]]

/-- **C70** Types with a union inside derive `Clone`, but the union does not implement it, so that the code is not accepted. -/
theorem C70_clone_violated : ∃ (root : Node) (t : Str) (is : List Item), Grammatical root ∧ CopySafe root ∧
    convertXsd A root = .ok t ∧ HasItems t is ∧
    (∃ i ∈ is, DefinesType i "Shirt".toList ∧ ("Shirt".toList, "Clone".toList) ∈ provides i ∧ "pub size: Size,".toList ∈ i.body) ∧
    (∃ i ∈ is, DefinesType i "Size".toList) ∧ ∀ x ∈ implementations is, x.2 ≠ ("Size".toList, "Clone".toList) :=
  ⟨withUnion, textOf withUnion, _, grammatical_of rfl (by decide +kernel), copySafe_of (by decide +kernel) (by decide +kernel) (by decide +kernel) (by decide +kernel) (by decide +kernel), ok_textOf (by decide +kernel),
    hasItems_of _, by decide +kernel, by decide +kernel, by decide +kernel⟩

/-- Restrictions of an enumeration, and a union with one. -/
private def withEnum : Node := doc
  [el "simpleType" [("name", "Color")] [el "restriction" [("base", "xs:string")]
     [el "enumeration" [("value", "red")] [], el "enumeration" [("value", "blue")] []]],
   el "simpleType" [("name", "Paint")] [el "restriction" [("base", "tns:Color")] []],
   el "simpleType" [("name", "Mark")] [el "union" [("memberTypes", "xs:int tns:Color")] []]]

/-- **C70** A derived simple type and a union read and write the text of the type inside, which enumerations do not implement,
so that the code is not accepted. -/
theorem C70_text_violated : ∃ (root : Node) (t : Str) (is : List Item), Grammatical root ∧ CopySafe root ∧
    convertXsd A root = .ok t ∧ HasItems t is ∧
    (∃ i ∈ is, i.head = "pub struct Paint (pub Color);".toList ∧ i.attrs.any (fun a => "UtilsTupleIo".toList ∈ derived a)) ∧
    (∃ i ∈ is, i.head = "pub enum Mark {".toList ∧ i.attrs.any (fun a => "UtilsUnionSerDe".toList ∈ derived a) ∧
      "Color(Color),".toList ∈ i.body) ∧
    (∃ i ∈ is, DefinesType i "Color".toList) ∧
    ∀ x ∈ implementations is, x.2 ≠ ("Color".toList, "FromStr".toList) ∧ x.2 ≠ ("Color".toList, "Display".toList) :=
  ⟨withEnum, textOf withEnum, _, grammatical_of rfl (by decide +kernel), copySafe_of (by decide +kernel) (by decide +kernel) (by decide +kernel) (by decide +kernel) (by decide +kernel), ok_textOf (by decide +kernel),
    hasItems_of _, by decide +kernel, by decide +kernel, by decide +kernel, by decide +kernel⟩

/-! ## Examples -/

/-- What is assumed for `Clone` holds of a document with two types. -/
private def plainDoc : Node := doc
  [el "simpleType" [("name", "Size")] [el "restriction" [("base", "xs:int")] [el "maxInclusive" [("value", "9")] []]],
   el "complexType" [("name", "Shirt")] [el "sequence" [] [el "element" [("name", "size"), ("type", "tns:Size")] []]]]

example : Grammatical plainDoc ∧ CopySafe plainDoc ∧ (∀ n, PartOf plainDoc n → n.tag ≠ "union".toList) ∧
    ∃ t, convertXsd A plainDoc = .ok t :=
  ⟨grammatical_of rfl (by decide +kernel), copySafe_of (by decide +kernel) (by decide +kernel) (by decide +kernel) (by decide +kernel) (by decide +kernel),
    fun n hn => (by decide +kernel : ∀ n ∈ elements plainDoc, n.tag ≠ "union".toList) n (partOf_elements hn),
    ok_of (by decide +kernel)⟩

example : implementations (readItems [] [] (Gen.lns (textOf plainDoc))) =
    (["Default", "Clone", "PartialEq", "Debug", "FromStr", "Display", "YaSerialize", "YaDeserialize", "Validate"].map
      fun s => ([], "Size".toList, s.toList)) ++
    (["Default", "Clone", "PartialEq", "Debug", "YaSerialize", "YaDeserialize", "Validate"].map
      fun s => ([], "Shirt".toList, s.toList)) := by decide +kernel

end Verif.Props
