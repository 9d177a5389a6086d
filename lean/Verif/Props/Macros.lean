import Verif.Props.Closed
import Verif.Props.Traits
import Verif.Lemmas.Macros

/-! # C84: the derive macros expand on the generated code -/

namespace Verif.Props

open Verif Verif.Model Verif.Spec Verif.RoXml Verif.Lemmas Verif.Lemmas.Parse

open Verif.Props.Sample

/-! ## Reading types -/

private theorem splitPath_word : ∀ {w : Str}, (∀ c ∈ w, wordChar c = true) → splitPath w = [w]
  | [], _ => by rw [splitPath]
  | c :: cs, h => by
    have hc : c ≠ ':' := by rintro rfl; exact absurd (h _ List.mem_cons_self) (by decide)
    rw [splitPath, splitPath_word fun d hd => h d (List.mem_cons_of_mem _ hd)]
    intro cs' e
    exact absurd e hc

private theorem no_angle {t : Str} (h : '<' ∉ t) : t.dropWhile (· ≠ '<') = [] := by
  rw [List.dropWhile_eq_nil_iff]
  intro c hc
  simpa using fun e : c = '<' => h (e ▸ hc)

private theorem readPath_bare {t : Str} (h : '<' ∉ t) (k : Nat) : readPath (k + 1) t = pathOfSegments (splitPath t) none := by
  rw [readPath, no_angle h]

/-- Not empty, letters, digits and underscores. -/
private def Word (w : Str) : Prop := w ≠ [] ∧ ∀ c ∈ w, wordChar c = true

private theorem readPath_word {w : Str} (h : Word w) (k : Nat) : readPath (k + 1) w = some (.mk [] w none) := by
  have ha : '<' ∉ w := fun hm => absurd (h.2 _ hm) (by decide)
  rw [readPath_bare ha, splitPath_word h.2, pathOfSegments, if_pos]
  · rfl
  · simpa [h.1] using h.2

private theorem readPath_vec {t : Str} {k : Nat} {p : RPath} (h : readPath k t = some p) :
    readPath (k + 1) ("Vec<".toList ++ (t ++ ">".toList)) = some (.mk [] "Vec".toList (some p)) := by
  have hd : ("Vec<".toList ++ (t ++ ">".toList)).dropWhile (· ≠ '<') = '<' :: (t ++ ">".toList) := rfl
  have ht : ("Vec<".toList ++ (t ++ ">".toList)).takeWhile (· ≠ '<') = "Vec".toList := rfl
  have hl : (t ++ ">".toList).getLast? = some '>' := List.getLast?_concat
  have hr : (t ++ ">".toList).dropLast = t := List.dropLast_concat
  rw [readPath, hd]
  dsimp only
  rw [if_pos hl, ht, hr, h]
  rfl

/-! ## Expansion -/

/-- The macro expands on the type: it is a path, and neither `Vec` without argument nor a vector of vectors. -/
private theorem expands_single {V : Type} (E : TypeEnv V) {p : RPath} (h : RPath.name p ≠ "Vec".toList) :
    ∃ r, tupleSerde E (.struct (.unnamed [.path p])) = .ok r := by
  obtain ⟨t, ht, h3⟩ := fromPath_not_vec h
  have h1 : ∃ f, tupleFromStr E p = .ok f := by
    rw [tupleFromStr, ht, Res.ok_bind]
    rcases h3 with rfl | rfl | rfl <;> exact ⟨_, rfl⟩
  have h2 : ∃ f, tupleToStr E p = .ok f := by
    rw [tupleToStr, ht, Res.ok_bind]
    rcases h3 with rfl | rfl | rfl <;> exact ⟨_, rfl⟩
  obtain ⟨f, hf⟩ := h1
  obtain ⟨g, hg⟩ := h2
  refine ⟨(f, g), ?_⟩
  show (Res.ok p).bind _ = _
  rw [Res.ok_bind, hf, Res.ok_bind, hg, Res.ok_bind]

private theorem expands_vec {V : Type} (E : TypeEnv V) {q : List Str} {p : RPath} (h : RPath.name p ≠ "Vec".toList) :
    ∃ r, tupleSerde E (.struct (.unnamed [.path (.mk q "Vec".toList (some p))])) = .ok r := by
  obtain ⟨t, ht, h3⟩ := fromPath_not_vec h
  have h1 : ∃ f, tupleFromStr E (.mk q "Vec".toList (some p)) = .ok f := by
    rw [tupleFromStr, fromPath_vec, Res.ok_bind]
    dsimp only
    rw [ht, Res.ok_bind]
    rcases h3 with rfl | rfl | rfl <;> exact ⟨_, rfl⟩
  have h2 : ∃ f, tupleToStr E (.mk q "Vec".toList (some p)) = .ok f := by
    rw [tupleToStr, fromPath_vec, Res.ok_bind]
    dsimp only
    rw [ht, Res.ok_bind]
    rcases h3 with rfl | rfl | rfl <;> exact ⟨_, rfl⟩
  obtain ⟨f, hf⟩ := h1
  obtain ⟨g, hg⟩ := h2
  refine ⟨(f, g), ?_⟩
  show (Res.ok (RPath.mk q "Vec".toList (some p))).bind _ = _
  rw [Res.ok_bind, hf, Res.ok_bind, hg, Res.ok_bind]

/-! ## Names -/

private theorem bare_type {U : UnicodeTable} {root : Node} {uri : Str} (hp : PlainNames root uri) {t : Str} (hcol : ':' ∉ t) :
    (naming U root).type t = sanitize U (filterTypeName U (Inflector.toPascalCase U t)) := by
  obtain ⟨x, p, hx, hxn⟩ := xsd_found hp
  have hb : matchBuiltInType t (xsdNamespace root) = none := by
    cases hm : matchBuiltInType t (xsdNamespace root) with
    | none => rfl
    | some r =>
      obtain ⟨row, -, hr, -⟩ := (C28_builtin t r _).1 hm
      rw [hx] at hr
      have hr : Ref x.name row.1.toList t := hr
      rw [hxn] at hr
      cases hr
      exact absurd (List.mem_append_right _ List.mem_cons_self) hcol
  exact (C32_qualified U t t none (targetNamespace root) (xsdNamespace root) (.bare hcol) hb).1 rfl

private theorem lettered_word {U : UnicodeTable} {root : Node} {uri : Str} (hp : PlainNames root uri) {t : Str}
    (ht : Lettered t) : Word ((naming U root).type t) := by
  rw [bare_type hp ht.2]
  have hw : Word (filterTypeName U (Inflector.toPascalCase U t)) := by
    constructor
    · intro h0
      have hsk := Gen.typeName_skeleton U t
      rw [h0] at hsk
      obtain ⟨⟨c, hc, hl⟩, -⟩ := ht
      cases t with
      | nil => cases hc
      | cons d t =>
        cases hc
        have hal : asciiAlnum c = true := by unfold asciiAlnum; rcases hl with h | h <;> simp [h]
        rw [skeleton, List.filter_cons_of_pos hal] at hsk
        cases hsk
    · intro c hc
      rw [Gen.typeName_eq] at hc
      rw [wordChar, (List.mem_filter.1 hc).2]
      rfl
  rcases Gen.sanitize_or U (filterTypeName U (Inflector.toPascalCase U t)) with e | e <;> rw [e]
  · exact hw
  · refine ⟨List.cons_ne_nil _ _, fun c hc => ?_⟩
    rcases List.mem_cons.1 hc with rfl | hc
    · decide
    · exact hw.2 c hc

private theorem enum_not_vec {U : UnicodeTable} {root : Node} {uri : Str} (hp : PlainNames root uri) {v : Str}
    (ht : Lettered (v ++ "Enum".toList)) : (naming U root).type (v ++ "Enum".toList) ≠ "Vec".toList := by
  rw [bare_type hp ht.2]
  intro h
  have hs : filterTypeName U (Inflector.toPascalCase U (v ++ "Enum".toList)) = "Vec".toList := by
    rcases Gen.sanitize_or U (filterTypeName U (Inflector.toPascalCase U (v ++ "Enum".toList))) with e | e
    · rw [← e]; exact h
    · rw [e] at h; cases h
  have hsk := Gen.typeName_skeleton U (v ++ "Enum".toList)
  rw [hs, skeleton, List.filter_append, List.map_append] at hsk
  have hl := congrArg List.length hsk
  rw [List.length_append] at hl
  have : (("Enum".toList.filter asciiAlnum).map toAsciiLower).length = 4 := by decide
  rw [this] at hl
  have h3 : ("Vec".toList.map toAsciiLower).length = 3 := by decide
  rw [h3] at hl
  omega

/-! ## Items -/

private theorem readPath_type {U : UnicodeTable} {root : Node} {uri : Str} (hs : SelfContained root uri)
    (hv : NoVec (naming U root).type root) {t : Str} (h : t = "String".toList ∨ RefersTo root uri t)
    (hl : ∀ l ∈ listTypes, ¬ DenotesXsd root l t) :
    ∃ p, (∀ k, readPath (k + 1) ((naming U root).type t) = some p) ∧ RPath.name p ≠ "Vec".toList := by
  rcases h with rfl | ⟨⟨n, r⟩, hrow, hd⟩ | ⟨c, hc, nm, hn, hd, -⟩
  · rw [string_type hs.plain]
    exact ⟨_, readPath_word ⟨by decide, by decide⟩, by decide⟩
  · rw [builtin_type hs.plain hrow hd]
    have key : ∀ row ∈ readmeTable ++ undocumentedTable, row.1 ∈ listTypes ∨ ('<' ∉ row.2.toList ∧
        (pathOfSegments (splitPath row.2.toList) none).any (fun p => match p with | .mk _ i _ => i ≠ "Vec".toList)) := by
      decide +kernel
    rcases key _ hrow with h | ⟨h1, h2⟩
    · exact absurd hd (hl _ h)
    · cases hp : pathOfSegments (splitPath r.toList) none with
      | none =>
        have h2 := h2
        dsimp only at h2
        rw [hp] at h2
        cases h2
      | some p =>
        dsimp only at h2
        rw [hp] at h2
        refine ⟨p, fun k => (readPath_bare h1 k).trans hp, ?_⟩
        obtain ⟨q, i, a⟩ := p
        show i ≠ _
        simpa using h2
  · rw [(own_type hs.plain hd (hs.plain.names c hc nm hn)).1]
    have hcm : c ∈ members root := (List.mem_filter.1 hc).1
    exact ⟨_, readPath_word (lettered_word hs.plain (hs.names c nm (.child .root hcm) hn)), hv c hc nm hn⟩

private theorem derives_of {N : Naming} {ns : Option Namespace} {x : List Str × Origin} {i : Item} (h : ItemFor N ns x i) :
    (Derives i "UtilsTupleIo" → ∃ n c t ss ms fs, x.2 = .entity (.tupleStruct (.mk n c t ss ms fs))) ∧
    (Derives i "UtilsUnionSerDe" → ∃ n cs c t ss, x.2 = .entity (.enum (.mk n cs c t ss .union))) := by
  obtain ⟨p, o⟩ := x
  obtain ⟨-, h⟩ := h
  have hnil : i.attrs = [] → ∀ s, ¬ Derives i s := by
    intro ha s hd
    rw [Derives, ha] at hd
    cases hd
  cases o with
  | entity e =>
    cases e with
    | struct s =>
      obtain ⟨n, c, fs, ag, ss⟩ := s
      have ha : i.attrs.flatMap derived = ["Default".toList, "Clone".toList, "PartialEq".toList, "Debug".toList,
          "YaSerialize".toList, "YaDeserialize".toList] := by
        rw [show i.attrs = _ from h.1, List.flatMap_cons, List.flatMap_cons, derived_nsAttr]
        decide +kernel
      unfold Derives
      rw [ha]
      exact ⟨fun h => absurd h (by decide), fun h => absurd h (by decide)⟩
    | tupleStruct s =>
      obtain ⟨n, c, t, ss, ms, fs⟩ := s
      have ha : i.attrs.flatMap derived = ["Default".toList, "Clone".toList, "PartialEq".toList, "Debug".toList,
          "UtilsTupleIo".toList, "UtilsDefaultSerde".toList] := by
        rw [show i.attrs = _ from h.1, List.flatMap_cons]
        decide +kernel
      unfold Derives
      rw [ha]
      exact ⟨fun _ => ⟨_, _, _, _, _, _, rfl⟩, fun h => absurd h (by decide)⟩
    | «enum» s =>
      obtain ⟨n, cs, c, t, ss, src⟩ := s
      have ha := h.1
      unfold Derives
      split at ha
      · rename_i hs
        have : i.attrs.flatMap derived = ["PartialEq".toList, "Debug".toList, "UtilsUnionSerDe".toList] := by
          rw [ha]; decide +kernel
        rw [this]
        exact ⟨fun h => absurd h (by decide), fun _ => ⟨_, _, _, _, _, by rw [hs]⟩⟩
      · have : i.attrs.flatMap derived = ["PartialEq".toList, "Debug".toList, "Clone".toList, "YaSerialize".toList,
            "YaDeserialize".toList] := by
          rw [ha]
          rfl
        rw [this]
        exact ⟨fun h => absurd h (by decide), fun h => absurd h (by decide)⟩
    | «alias» a =>
      obtain ⟨n, o, c, ss⟩ := a
      exact ⟨fun hd => absurd hd (hnil h.1 _), fun hd => absurd hd (hnil h.1 _)⟩
    | structField _ => exact h.elim
    | enumCase _ => exact h.elim
    | «import» _ => exact h.elim
  | inner n => exact ⟨fun hd => absurd hd (hnil h.1 _), fun hd => absurd hd (hnil h.1 _)⟩
  | default n => exact ⟨fun hd => absurd hd (hnil h.1 _), fun hd => absurd hd (hnil h.1 _)⟩
  | validate n wt ms fs =>
    obtain ⟨cs, -, ⟨ha, -⟩, -⟩ := h
    exact ⟨fun hd => absurd hd (hnil ha _), fun hd => absurd hd (hnil ha _)⟩

/-- **C84** The macro `UtilsTupleIo` expands on every item which derives it: if the schema refers to built-in types and its own
declarations only, none of which is called like the vectors of Rust, and lists are lists of single values. -/
theorem C84_tuple_partial (U : UnicodeTable) (root : Node) (uri t : Str) (hg : Grammatical root) (hs : CopySafe root)
    (h : convertXsd U root = .ok t) (is : List Item) (hi : HasItems t is) (hc : SelfContained root uri) (hf : FlatLists root)
    (hv : NoVec (naming U root).type root) {V : Type} (E : TypeEnv V) (i : Item) (him : i ∈ is)
    (hd : Derives i "UtilsTupleIo") : ∃ r, tupleSerde E (macroInput i) = .ok r := by
  obtain ⟨f, hp, is', h1, h2⟩ := C69_document U root t hg hs h
  obtain rfl := C69_determined t is is' hi h1
  obtain ⟨⟨q, o⟩, hx, hfor⟩ := forall₂_left h2 i him
  obtain ⟨n, c, ty, ss, ms, fs, he⟩ := (derives_of hfor).1 hd
  have he : o = _ := he
  subst he
  have hemb := origins_embeddedList _ _ _ _ _ hx
  have hdeep := (hemb.1 _ (parseFile_items' hg hc hf hp)).here
  have hsafe := (hemb.1 _ (fun e he => ((parseFile_texts (sources_copySafe hs) .root hp).1 e he).mono fun x => copy_safeTexts x)).here
  have hhead : i.head = "pub struct ".toList ++ ((naming U root).type n ++ (" (pub ".toList ++
      (defaultModifyType ((naming U root).type ty) ms ++ ");".toList))) := hfor.2.2.1
  have hsp : ' ' ∉ (naming U root).type n := (Gen.typeName_word ⟨U, targetNamespace root, xsdNamespace root⟩ hsafe.1).sp
  have hempty : TypeModifier.empty ∉ ms := by
    rcases hdeep.2.2.2 with ⟨h, -⟩ | ⟨h, -⟩ <;> (have h : ms = _ := h; rw [h]; decide)
  have hpar : ')' ∉ defaultModifyType ((naming U root).type ty) ms := fun hm =>
    Gen.modifyType_word (Gen.typeName_word ⟨U, targetNamespace root, xsdNamespace root⟩ hsafe.2.1) hempty _ hm (by decide)
  suffices key : ∃ p, (∀ k, readPath (k + 2) (defaultModifyType ((naming U root).type ty) ms) = some p) ∧
      (RPath.name p ≠ "Vec".toList ∨ ∃ q p', p = .mk q "Vec".toList (some p') ∧ RPath.name p' ≠ "Vec".toList) by
    obtain ⟨p, hp, hn⟩ := key
    have hin : macroInput i = .struct (.unnamed [.path p]) := by
      have hne : readHead i.head = some (.struct, (naming U root).type n) := by
        rw [hhead]
        exact Gen.readHead_struct hsp _
      rw [macroInput, hne]
      dsimp only
      rw [hhead, Val.readTuple_of hsp hpar]
      dsimp only
      rw [readType]
      have hl : defaultModifyType ((naming U root).type ty) ms ≠ [] := by
        intro h0
        have := hp 0
        rw [h0] at this
        cases this
      obtain ⟨k, hk⟩ : ∃ k, (defaultModifyType ((naming U root).type ty) ms).length + 1 = k + 2 := by
        cases hh : defaultModifyType ((naming U root).type ty) ms with
        | nil => exact absurd hh hl
        | cons c cs => exact ⟨cs.length, rfl⟩
      rw [hk, hp k]
    rw [hin]
    rcases hn with hn | ⟨q, p', rfl, hn⟩
    · exact expands_single E hn
    · exact expands_vec E hn
  rcases hdeep.2.2.2 with ⟨hms, hty⟩ | ⟨hms, hty⟩
  · have hms : ms = [] := hms
    have hty : ty = "String".toList ∨ RefersTo root uri ty := hty
    subst hms
    show ∃ p, (∀ k, readPath (k + 2) ((naming U root).type ty) = some p) ∧ _
    by_cases hl : ∀ l ∈ listTypes, ¬ DenotesXsd root l ty
    · obtain ⟨p, hp, hn⟩ := readPath_type hc hv hty hl
      exact ⟨p, fun k => hp (k + 1), .inl hn⟩
    · have key : ∀ n ∈ listTypes, (n, "Vec<String>") ∈ readmeTable ++ undocumentedTable := by decide +kernel
      push Not at hl
      obtain ⟨l, hl, hd⟩ := hl
      rw [builtin_type hc.plain (key l hl) hd]
      exact ⟨_, fun k => readPath_vec (t := "String".toList) (readPath_word ⟨by decide, by decide⟩ k),
        .inr ⟨_, _, rfl, by decide⟩⟩
  · have hms : ms = [.array] := hms
    have hty : (RefersTo root uri ty ∧ ∀ l ∈ listTypes, ¬ DenotesXsd root l ty) ∨ ∃ v, Lettered v ∧ ty = v ++ "Enum".toList := hty
    subst hms
    have hw : defaultModifyType ((naming U root).type ty) [.array] =
      "Vec<".toList ++ ((naming U root).type ty ++ ">".toList) := List.append_assoc _ _ _
    rw [hw]
    rcases hty with ⟨hty, hl⟩ | ⟨v, hle, rfl⟩
    · obtain ⟨p, hp, hn⟩ := readPath_type hc hv (.inr hty) hl
      exact ⟨_, fun k => readPath_vec (hp k), .inr ⟨_, _, rfl, hn⟩⟩
    · have hle : Lettered (v ++ "Enum".toList) := by
        obtain ⟨⟨c, h1, h2⟩, h3⟩ := hle
        refine ⟨⟨c, ?_, h2⟩, ?_⟩
        · cases v with
          | nil => cases h1
          | cons d v => exact h1
        · intro hm
          rcases List.mem_append.1 hm with hm | hm
          · exact h3 hm
          · exact absurd hm (by decide)
      exact ⟨_, fun k => readPath_vec (readPath_word (lettered_word hc.plain hle) k),
        .inr ⟨_, _, rfl, enum_not_vec hc.plain hle⟩⟩

private theorem unionMembers_ok : ∀ {vs : List (Str × Fields)},
    (∀ v ∈ vs, v.1 ≠ "__Unknown__".toList → ∃ t ts, v.2 = .unnamed (t :: ts)) →
    ∃ r, unionMembers vs = .ok r ∧ r.map Prod.fst = (vs.map Prod.fst).filter (· ≠ "__Unknown__".toList)
  | [], _ => ⟨[], rfl, rfl⟩
  | (n, f) :: vs, h => by
    obtain ⟨r, hr, he⟩ := unionMembers_ok (vs := vs) fun v hv => h v (List.mem_cons_of_mem _ hv)
    rw [unionMembers]
    by_cases hn : n = "__Unknown__".toList
    · rw [if_pos hn]
      refine ⟨r, hr, he.trans ?_⟩
      rw [List.map_cons, List.filter_cons_of_neg]
      exact fun hd => of_decide_eq_true hd hn
    · obtain ⟨t, ts, hf⟩ := h _ List.mem_cons_self hn
      have hf : f = _ := hf
      rw [if_neg hn, hf, hr]
      refine ⟨(n, t) :: r, rfl, ?_⟩
      rw [List.map_cons, List.map_cons, List.filter_cons_of_pos, he]
      exact decide_eq_true hn

/-- **C84** The macro `UtilsUnionSerDe` expands on every item which derives it, and tries the variants in the order in which
they are written. -/
theorem C84_union (U : UnicodeTable) (root : Node) (t : Str) (hg : Grammatical root) (hs : CopySafe root)
    (h : convertXsd U root = .ok t) (is : List Item) (hi : HasItems t is) (i : Item) (him : i ∈ is)
    (hd : Derives i "UtilsUnionSerDe") :
    ∃ vs, unionSerde (macroInput i) = .ok vs ∧
      vs.map Prod.fst = ((readCaseLines none i.body).map Member.name).filter (· ≠ "__Unknown__".toList) := by
  obtain ⟨f, hp, is', h1, h2⟩ := C69_document U root t hg hs h
  obtain rfl := C69_determined t is is' hi h1
  obtain ⟨⟨q, o⟩, hx, hfor⟩ := forall₂_left h2 i him
  obtain ⟨n, cs, c, ty, ss, he⟩ := (derives_of hfor).2 hd
  have he : o = _ := he
  subst he
  have hemb := origins_embeddedList _ _ _ _ _ hx
  have hdeep := (hemb.1 _ (parseFile_texts (sources_union root) .root hp).1).here
  have hsafe := (hemb.1 _ (fun e he => ((parseFile_texts (sources_copySafe hs) .root hp).1 e he).mono fun x => copy_safeTexts x)).here
  have hsp : ' ' ∉ (naming U root).type n := (Gen.typeName_word ⟨U, targetNamespace root, xsdNamespace root⟩ hsafe.1).sp
  obtain ⟨-, -, hhead, ms, hms, hbody⟩ := hfor
  have hhead : i.head = "pub enum ".toList ++ ((naming U root).type n ++ " {".toList) := hhead
  have hin : macroInput i = .enum ((readCaseLines none i.body).map macroVariant) := by
    rw [macroInput, hhead, show " {".toList = ' ' :: "{".toList from rfl, Gen.readHead_enum hsp]
  rw [hin, unionSerde]
  obtain ⟨r, hr, hn⟩ := unionMembers_ok (vs := (readCaseLines none i.body).map macroVariant) (by
    intro v hv hne
    obtain ⟨m, hm, rfl⟩ := List.mem_map.1 hv
    have hty : m.type ≠ none := by
      rw [hbody] at hm
      rcases List.mem_append.1 hm with hm | hm
      · obtain ⟨ca, hca, hcm⟩ := forall₂_left hms m hm
        rw [hcm.2.1]
        have := hdeep.2.2.2 rfl ca hca
        intro h0
        exact this (Option.map_eq_none_iff.1 h0)
      · obtain rfl := List.mem_singleton.1 hm
        exact Option.some_ne_none _
    obtain ⟨w, hw⟩ := Option.ne_none_iff_exists'.1 hty
    exact ⟨readType w, [], by rw [macroVariant, hw]⟩)
  refine ⟨r, hr, hn.trans ?_⟩
  rw [List.map_map]
  rfl

/-! ## Example -/

private theorem only_xsd {l : String} {r : Str} (h : DenotesXsd sample l r) : splitName r = (some "xs".toList, l.toList) := by
  obtain ⟨a, ha, hu, hr⟩ := h
  have : ∀ a ∈ sample.namespaces, a.uri = xmlSchemaUri → a.name = some "xs".toList := by decide +kernel
  rw [this a ha hu] at hr
  exact Gen.splitName_iff.2 hr

private theorem sample_flat : FlatLists sample where
  items n v hn hv l hl hd := by
    have : ∀ n ∈ elements sample, ∀ v ∈ (n.attr "itemType".toList).toList, ∀ l ∈ listTypes,
        splitName v ≠ (some "xs".toList, l.toList) := by decide +kernel
    exact this n (partOf_elements hn) v (Option.mem_toList.2 hv) l hl (only_xsd hd)
  bases n m v hn ht hm hv l hl hd := by
    have : ∀ n ∈ elements sample, n.tag = "list".toList → ∀ m ∈ elements n, ∀ v ∈ (m.attr "base".toList).toList, ∀ l ∈ listTypes,
        splitName v ≠ (some "xs".toList, l.toList) := by decide +kernel
    exact this n (partOf_elements hn) ht m (partOf_elements hm) v (Option.mem_toList.2 hv) l hl (only_xsd hd)
  inside n d m hn ht hd hm := by
    have : ∀ n ∈ elements sample, n.tag = "list".toList → ∀ d ∈ members n, ∀ m ∈ elements d,
        m.tag ∉ ["list", "union"].map String.toList := by decide +kernel
    exact this n (partOf_elements hn) ht d hd m (partOf_elements hm)

/-- What is assumed holds of a schema with lists, unions and inline types, and there are items which derive the macros. -/
example : Grammatical sample ∧ CopySafe sample ∧ convertXsd A sample = .ok (textOf sample) ∧
    HasItems (textOf sample) (itemsOf sample) ∧ SelfContained sample sampleUri ∧ FlatLists sample ∧
    NoVec (naming A sample).type sample ∧
    (∃ i ∈ itemsOf sample, Derives i "UtilsTupleIo" ∧ readTuple i.head = some ("Ids".toList, "Vec<i32>".toList)) ∧
    ∃ i ∈ itemsOf sample, Derives i "UtilsUnionSerDe" ∧
      ((readCaseLines none i.body).map Member.name) = ["Int", "Ids", "EnumCase0", "__Unknown__"].map String.toList :=
  ⟨sample_grammatical, sample_copySafe, okText_eq (by decide +kernel), itemsOf_ok _, sample_contained, sample_flat, by
    have : ∀ c ∈ globals sample, ∀ v ∈ (c.attr "name".toList).toList, (naming A sample).type v ≠ "Vec".toList := by decide +kernel
    exact fun c hc v hv => this c hc v (Option.mem_toList.2 hv), by unfold Derives; decide +kernel,
    by unfold Derives; decide +kernel⟩

/-! ## Items on which the macro does not expand -/

/-- A vector of vectors. -/
private def nestedVec : Data → Bool
  | .struct (.unnamed [.path (.mk [] v (some (.mk [] w (some (.mk [] s none)))))]) =>
    decide (v = "Vec".toList ∧ w = "Vec".toList ∧ s = "String".toList)
  | _ => false

private theorem nestedVec_err {d : Data} (h : nestedVec d = true) {V : Type} (E : TypeEnv V) : tupleSerde E d = .err := by
  unfold nestedVec at h
  split at h
  · obtain ⟨rfl, rfl, rfl⟩ := of_decide_eq_true h
    rfl
  · cases h

/-- The type `Vec` without argument. -/
private def bareVec : Data → Bool
  | .struct (.unnamed [.path (.mk [] v none)]) => decide (v = "Vec".toList)
  | _ => false

private theorem bareVec_panic {d : Data} (h : bareVec d = true) {V : Type} (E : TypeEnv V) : tupleSerde E d = .panic := by
  unfold bareVec at h
  split at h
  · obtain rfl := of_decide_eq_true h
    rfl
  · cases h

private def listOfLists : Node := doc [el "simpleType" [("name", "Rows")] [el "list" [("itemType", "xs:NMTOKENS")] []]]

/-- **C84** (violated) A list of a built-in list is a vector of vectors, on which the macro does not expand. -/
theorem C84_list_violated : ∃ (root : Node) (t : Str) (is : List Item), Grammatical root ∧ CopySafe root ∧
    convertXsd A root = .ok t ∧ HasItems t is ∧ ∃ i ∈ is, Derives i "UtilsTupleIo" ∧
    ∀ (V : Type) (E : TypeEnv V), tupleSerde E (macroInput i) = .err :=
  ⟨listOfLists, textOf listOfLists, itemsOf listOfLists, grammatical_of rfl (by decide +kernel),
    copySafe_of (by decide +kernel) (by decide +kernel) (by decide +kernel) (by decide +kernel) (by decide +kernel),
    okText_eq (by decide +kernel), itemsOf_ok _, by
      have h : ∃ i ∈ itemsOf listOfLists, "UtilsTupleIo".toList ∈ i.attrs.flatMap derived ∧ nestedVec (macroInput i) = true := by
        decide +kernel
      obtain ⟨i, hi, h1, h2⟩ := h
      exact ⟨i, hi, h1, fun _ E => nestedVec_err h2 E⟩⟩

private def vecDeclared : Node := doc
  [el "simpleType" [("name", "vec")] [el "restriction" [("base", "xs:double")] []],
   el "simpleType" [("name", "Unit")] [el "restriction" [("base", "tns:vec")] [el "minInclusive" [("value", "0")] []]]]

/-- **C84** (violated) The macro takes a declared type which is called `Vec` for the vectors of Rust, and does not expand. -/
theorem C84_vec_violated : ∃ (root : Node) (t : Str) (is : List Item), Grammatical root ∧ CopySafe root ∧
    convertXsd A root = .ok t ∧ HasItems t is ∧ ∃ i ∈ is, Derives i "UtilsTupleIo" ∧
    ∀ (V : Type) (E : TypeEnv V), tupleSerde E (macroInput i) = .panic :=
  ⟨vecDeclared, textOf vecDeclared, itemsOf vecDeclared, grammatical_of rfl (by decide +kernel),
    copySafe_of (by decide +kernel) (by decide +kernel) (by decide +kernel) (by decide +kernel) (by decide +kernel),
    okText_eq (by decide +kernel), itemsOf_ok _, by
      have h : ∃ i ∈ itemsOf vecDeclared, "UtilsTupleIo".toList ∈ i.attrs.flatMap derived ∧ bareVec (macroInput i) = true := by
        decide +kernel
      obtain ⟨i, hi, h1, h2⟩ := h
      exact ⟨i, hi, h1, fun _ E => bareVec_panic h2 E⟩⟩

end Verif.Props
