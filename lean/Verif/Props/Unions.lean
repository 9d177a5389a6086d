import Verif.Props.Returns

/-! # C86: values of unions, written and read back -/

namespace Verif.Props

open Verif Verif.Model Verif.Spec Verif.Lemmas Verif.Lemmas.Blt Verif.Lemmas.Val Verif.Props.Sample RoXml

private theorem variants_shape (N : Naming) (hN : ∀ w, N.case w ≠ "__Unknown__".toList) {ws : List Str} {ms ms' : List Spec.Member}
    (h : List.Forall₂ (fun w m => m.name = N.case w ∧ m.type = some (N.type w)) ws ms) (hm : ∀ m ∈ ms', ∃ ty, m.type = some ty)
    {vs : List Variant} (hv : List.Forall₂ VariantOf (ms ++ ms') vs) :
    ∃ ps ps', unionVariants vs = some (ps ++ ps') ∧
      List.Forall₂ (fun w p => p.1 = N.case w ∧ pathText p.2 = N.type w) ws ps := by
  induction h generalizing vs with
  | nil =>
    obtain ⟨ps, hps⟩ := variants_some hv hm
    exact ⟨[], ps, hps, .nil⟩
  | @cons w m ws ms h1 _ ih =>
    cases hv with
    | @cons _ v _ vs g1 g2 =>
      obtain ⟨ps, ps', h2, h3⟩ := ih g2
      obtain ⟨hi, ⟨hno, -⟩ | ⟨ty, p, ht, hp, hpo⟩⟩ := g1
      · rw [h1.2] at hno; cases hno
      rw [h1.2] at ht
      cases ht
      refine ⟨(v.ident, p) :: ps, ps', ?_, .cons ⟨hi.trans h1.1, hpo.2⟩ h3⟩
      rw [unionVariants, if_neg (by rw [hi, h1.1]; exact hN w), hp, h2]
      rfl

private theorem parse_first {R : Str → Str → Res RVal} {N : Naming} {pre post : List Str} {w : Str} {s : Str} {v : RVal}
    {ps : List (Str × RPath)} (ps' : List (Str × RPath))
    (h : List.Forall₂ (fun w p => p.1 = N.case w ∧ pathText p.2 = N.type w) (pre ++ w :: post) ps)
    (hpre : ∀ w' ∈ pre, R (N.type w') s = .err) (hw : R (N.type w) s = .ok v) :
    unionParse (envOf R) (ps ++ ps') s = .ok (.case (N.case w) v) := by
  induction pre generalizing ps with
  | nil =>
    cases h with
    | @cons _ p _ ps h1 h2 =>
      obtain ⟨i, p⟩ := p
      rw [List.cons_append, unionParse]
      have : (envOf R).fromStr p s = .ok v := by show R (pathText p) s = _; rw [h1.2]; exact hw
      rw [this]
      dsimp only
      rw [show i = N.case w from h1.1]
  | cons a pre ih =>
    cases h with
    | @cons _ p _ ps h1 h2 =>
      obtain ⟨i, p⟩ := p
      rw [List.cons_append, unionParse]
      have : (envOf R).fromStr p s = .err := by
        show R (pathText p) s = _; rw [h1.2]; exact hpre a List.mem_cons_self
      rw [this]
      exact ih h2 fun w' hw' => hpre w' (List.mem_cons_of_mem _ hw')

private theorem text_of {W : Str → RVal → Str} {N : Naming} {pre post : List Str} {w : Str} {v : RVal}
    {ps : List (Str × RPath)} (ps' : List (Str × RPath))
    (h : List.Forall₂ (fun w p => p.1 = N.case w ∧ pathText p.2 = N.type w) (pre ++ w :: post) ps)
    (hpre : ∀ w' ∈ pre, N.case w' ≠ N.case w) :
    unionText (showEnv W) (ps ++ ps') (.case (N.case w) v) = some (W (N.type w) v) := by
  induction pre generalizing ps with
  | nil =>
    cases h with
    | @cons _ p _ ps h1 h2 =>
      obtain ⟨i, p⟩ := p
      rw [List.cons_append, unionText, if_pos (show N.case w = i from h1.1.symm)]
      show some (W (pathText p) v) = _
      rw [h1.2]
  | cons a pre ih =>
    cases h with
    | @cons _ p _ ps h1 h2 =>
      obtain ⟨i, p⟩ := p
      have hne : ¬ N.case w = i := fun e => hpre a List.mem_cons_self (h1.1.symm.trans e.symm)
      rw [List.cons_append, unionText, if_neg hne]
      exact ih h2 fun w' hw' => hpre w' (List.mem_cons_of_mem _ hw')

/-- **C86** A value of a union, held by the variant of a member type, is written as the member type writes it, and the text
denotes it in the member type.  It is read back by the first member type which reads the text: as the same value by the same
variant if no member type before reads it, and otherwise by the variant of that member type.  Partial: the variant is one of a
named member type, and its name is not that of one before. -/
theorem C86_union_partial (U : UnicodeTable) (root : Node) (uri t : Str) (hg : Grammatical root) (hs : CopySafe root)
    (h : convertXsd U root = .ok t) (is : List Item) (hi : HasItems t is) (hp : PlainNames root uri)
    (hun : Unshadowed U root is) (L : Lib) (hsh : Shows L.sh) (W : Str → RVal → Str) (hW : Prints W L is)
    (R : Str → Str → Res RVal) (hR : Implements R L is) {c d : Node} {nm : Str} (hc : SimpleDecl root c nm d)
    (hd : d.tag = "union".toList) {pre post : List Str} {w : Str} (hw : MemberTypes d (pre ++ w :: post))
    (hsep : ∀ w' ∈ pre, (naming U root).case w' ≠ (naming U root).case w) {v : RVal}
    (hv : ValueIn U root uri (Returning L) .alone w v) :
    ∃ i ∈ is, i.path = [] ∧ "UtilsUnionSerDe".toList ∈ i.attrs.flatMap derived ∧
      i.head = "pub enum ".toList ++ ((naming U root).type nm ++ " {".toList) ∧
      ∀ vs, List.Forall₂ VariantOf (readCaseLines none i.body) vs → ∃ ps s x, unionVariants vs = some ps ∧
        unionText (showEnv W) ps (.case ((naming U root).case w) v) = some s ∧
        ValueOf U root uri Literal w s x ∧ Represents v x ∧
        ((∀ w' ∈ pre, R ((naming U root).type w') s = .err) →
          ∃ v', unionParse (envOf R) ps s = .ok (.case ((naming U root).case w) v') ∧ Represents v' x) ∧
        ∀ pre' w' post' v', pre = pre' ++ w' :: post' → (∀ a ∈ pre', R ((naming U root).type a) s = .err) →
          R ((naming U root).type w') s = .ok v' → unionParse (envOf R) ps s = .ok (.case ((naming U root).case w') v') := by
  obtain ⟨i, him, h1, h2, h3, ws, ms, hws, hms, hb⟩ := C72_union_partial U root t hg hs h is hi c d nm hc hd
  obtain rfl := memberTypes_unique hws hw
  obtain ⟨v', x, k1, k2, k3, k4⟩ := (C82_returns_partial U root uri t hg hs h is hi hp hun L hsh W hW R hR).1 hv
  refine ⟨i, him, h1, by rw [h2]; decide, h3, ?_⟩
  intro vs hvs
  rw [hb] at hvs
  have hsome : ∀ m ∈ ms ++ [(⟨none, "__Unknown__".toList, some ((naming U root).type "String".toList)⟩ : Spec.Member)],
      ∃ ty, m.type = some ty := by
    intro m hm
    rcases List.mem_append.1 hm with hm | hm
    · obtain ⟨q, -, hq⟩ := Parse.forall₂_left hms m hm
      exact ⟨_, hq.2.1⟩
    · cases List.mem_singleton.1 hm
      exact ⟨_, rfl⟩
  obtain ⟨m1, m2, g1, g2, rfl⟩ := forall₂_append hms
  rw [List.append_assoc] at hvs hsome
  have g1 : List.Forall₂ (fun w m => m.name = (naming U root).case w ∧ m.type = some ((naming U root).type w))
      (pre ++ w :: post) m1 := by
    rw [List.forall₂_map_left_iff] at g1
    exact g1.imp fun _ _ h => ⟨h.1, h.2.1⟩
  obtain ⟨ps, ps', e1, e2⟩ := variants_shape (naming U root)
    (fun w => C38_unknown_distinct ⟨U, targetNamespace root, xsdNamespace root⟩ ⟨w, none, [], some w, [], .union⟩) g1
    (fun m hm => hsome m (List.mem_append_right _ hm)) hvs
  refine ⟨ps ++ ps', _, x, e1, text_of ps' e2 hsep, k2, k3, ?_, ?_⟩
  · intro hpre
    exact ⟨v', parse_first ps' e2 hpre k1, k4⟩
  · rintro pre' w' post' v' rfl hpre hv'
    rw [List.append_assoc] at e2
    exact parse_first ps' e2 hpre hv'

/-! ## A document -/

private def either : Node := el "union" [("memberTypes", "xs:int xs:string")] []
private def eithers : Node := doc [el "simpleType" [("name", "Either")] [either]]
private def eithersText : Str := okText (convertXsd A eithers)
private def eithersItems : List Item := readItems [] [] (Gen.lns eithersText)
private theorem eithers_has : HasItems eithersText eithersItems := ⟨_, Gen.lines_lns _, rfl⟩
private theorem eithers_ok : convertXsd A eithers = .ok eithersText := okText_eq (by decide +kernel)
private theorem eithers_grammatical : Grammatical eithers := grammatical_of rfl (by decide +kernel)
private theorem eithers_copySafe : CopySafe eithers :=
  copySafe_of (by decide +kernel) (by decide +kernel) (by decide +kernel) (by decide +kernel) (by decide +kernel)
private def eithersUri : Str := "http://example.com/a".toList

private theorem eithers_plain : PlainNames eithers eithersUri where
  prefixes := by unfold UniquePrefixes; decide +kernel
  uris := by decide +kernel
  xsd := ⟨⟨some "xs".toList, Model.xsdUri⟩, List.mem_cons_self, rfl, by simp⟩
  target := by decide
  names := by
    have : ∀ c ∈ globals eithers, ∀ nm ∈ (c.attr "name".toList).toList, ':' ∉ nm := by decide +kernel
    exact fun c hc nm h => this c hc nm (Option.mem_toList.2 h)

private theorem eithers_unshadowed : Unshadowed A eithers eithersItems where
  declared := by
    have : ∀ c ∈ globals eithers, ∀ nm ∈ (c.attr "name".toList).toList,
        (naming A eithers).type nm ∉ reservedNames.map String.toList := by decide +kernel
    exact fun c hc nm h => this c hc nm (Option.mem_toList.2 h)
  items := by
    have : ∀ w ∈ reservedNames, ∀ i ∈ eithersItems, ¬ (DefinesType i w.toList ∨ readHead i.head = some (.type, w.toList)) := by
      decide +kernel
    rintro w hw ⟨i, hi, -, h⟩
    exact this w hw i hi h

private theorem eithers_tuples : ∀ i ∈ eithersItems, "UtilsTupleIo".toList ∉ i.attrs.flatMap derived := by decide +kernel

/-- What the types of the library read and write. -/
private def libReads (L : Lib) (ty s : Str) : Res RVal :=
  match libFromStr L ty with
  | some f => (f s).map .lib
  | none => .err
private def libShows (L : Lib) (ty : Str) : RVal → Str
  | .lib v => match libToString L ty v with
    | some (.ok s) => s
    | _ => []
  | _ => []

private theorem libReads_implements (L : Lib) : Implements (libReads L) L eithersItems where
  lib ty f h _ s := by rw [libReads, h]
  tuple i hi _ hd := absurd hd (eithers_tuples i hi)
private theorem libShows_prints (L : Lib) : Prints (libShows L) L eithersItems where
  lib ty v s h _ := by rw [libShows, h]
  tuple i hi _ hd := absurd hd (eithers_tuples i hi)

private theorem either_decl : SimpleDecl eithers (el "simpleType" [("name", "Either")] [either]) "Either".toList either :=
  ⟨List.mem_cons_self, rfl, by decide +kernel, rfl⟩
private theorem either_members : MemberTypes either ["xs:int".toList, "xs:string".toList] :=
  .some (s := "xs:int xs:string".toList) (by decide +kernel) (Parse.spaceSeparated_iff.2 (by decide))
private theorem den (n : String) : DenotesXsd eithers n ("xs:".toList ++ n.toList) :=
  ⟨⟨some "xs".toList, Model.xsdUri⟩, List.mem_cons_self, rfl, .prefixed (p := "xs".toList) (n := n.toList) (by decide)⟩
private theorem either_body : ∀ i ∈ eithersItems, "UtilsUnionSerDe".toList ∈ i.attrs.flatMap derived → readCaseLines none i.body =
    [⟨none, "Int".toList, some "i32".toList⟩, ⟨none, "String".toList, some "String".toList⟩,
      ⟨none, "__Unknown__".toList, some "String".toList⟩] := by decide +kernel
private def variants : List Variant := [⟨"Int".toList, some (.mk [] "i32".toList none)⟩,
  ⟨"String".toList, some (.mk [] "String".toList none)⟩, ⟨"__Unknown__".toList, some (.mk [] "String".toList none)⟩]

private theorem variants_of : ∀ i ∈ eithersItems, "UtilsUnionSerDe".toList ∈ i.attrs.flatMap derived →
    List.Forall₂ VariantOf (readCaseLines none i.body) variants := by
  intro i hi hd
  rw [either_body i hi hd]
  exact .cons ⟨rfl, .inr ⟨_, _, rfl, rfl, pathOf_name (by unfold Plain; decide)⟩⟩
    (.cons ⟨rfl, .inr ⟨_, _, rfl, rfl, pathOf_name (by unfold Plain; decide)⟩⟩
    (.cons ⟨rfl, .inr ⟨_, _, rfl, rfl, pathOf_name (by unfold Plain; decide)⟩⟩ .nil))

private theorem text_in (L : Lib) (s : Str) : ValueIn A eithers eithersUri (Returning L) .alone "xs:string".toList (.lib (.text s)) :=
  .lib (n := "string") (rust := "String") (den "string") (by decide +kernel) .text
    ⟨trivial, trivial, fun _ _ _ => no_huge (by decide)⟩

private theorem int_in (L : Lib) : ValueIn A eithers eithersUri (Returning L) .alone "xs:int".toList (.lib (.int 5)) :=
  .lib (n := "int") (rust := "i32") (den "int") (by decide +kernel)
    (.machine (lo := -2147483648) (hi := 2147483647) (by decide) (by decide) (by decide))
    ⟨by
      have : ∀ r ∈ intTypes, r.1 = "int" → (∀ b ∈ r.2.1.toList, b ≤ 5) ∧ ∀ b ∈ r.2.2.toList, 5 ≤ b := by decide
      intro lo hi hm
      exact ⟨fun b hb => (this _ hm rfl).1 b (Option.mem_toList.2 hb), fun b hb => (this _ hm rfl).2 b (Option.mem_toList.2 hb)⟩,
     trivial, fun _ _ _ => no_huge (by decide)⟩

/-- A number in the union of numbers and texts is written and read back as that number. -/
example (L : Lib) (hsh : Shows L.sh) : ∃ ps s v', unionVariants variants = some ps ∧
    unionText (showEnv (libShows L)) ps (.case "Int".toList (.lib (.int 5))) = some s ∧
    unionParse (envOf (libReads L)) ps s = .ok (.case "Int".toList v') := by
  obtain ⟨i, hi, -, h2, -, h4⟩ := C86_union_partial A eithers eithersUri eithersText eithers_grammatical eithers_copySafe eithers_ok
    eithersItems eithers_has eithers_plain eithers_unshadowed L hsh _ (libShows_prints L) _ (libReads_implements L) either_decl rfl
    (pre := []) (post := ["xs:string".toList]) either_members (by simp) (int_in L)
  obtain ⟨ps, s, x, k1, k2, -, -, k5, -⟩ := h4 _ (variants_of i hi h2)
  obtain ⟨v', k6, -⟩ := k5 (by simp)
  have e : (naming A eithers).case "xs:int".toList = "Int".toList := by decide +kernel
  rw [e] at k2 k6
  exact ⟨ps, s, v', k1, k2, k6⟩

/-- **C86** (violated) In the union of numbers and texts the text `5` is written and read back as a number. -/
theorem C86_union_violated : ∃ (root : Node) (uri t : Str) (is : List Item) (i : Item) (vs : List Variant)
    (ps : List (Str × RPath)), Grammatical root ∧ CopySafe root ∧ convertXsd A root = .ok t ∧ HasItems t is ∧
    PlainNames root uri ∧ Unshadowed A root is ∧ i ∈ is ∧ "UtilsUnionSerDe".toList ∈ i.attrs.flatMap derived ∧
    List.Forall₂ VariantOf (readCaseLines none i.body) vs ∧ unionVariants vs = some ps ∧
    ∀ L W R, Shows L.sh → Prints W L is → Implements R L is →
      unionText (showEnv W) ps (.case "String".toList (.lib (.text "5".toList))) = some "5".toList ∧
      unionParse (envOf R) ps "5".toList = .ok (.case "Int".toList (.lib (.int 5))) ∧
      ¬ Represents (.lib (.int 5)) (.text "5".toList) := by
  have hex : ∃ i ∈ eithersItems, "UtilsUnionSerDe".toList ∈ i.attrs.flatMap derived := by decide +kernel
  obtain ⟨i, hi, hd⟩ := hex
  refine ⟨eithers, eithersUri, eithersText, eithersItems, i, variants, _, eithers_grammatical, eithers_copySafe, eithers_ok,
    eithers_has, eithers_plain, eithers_unshadowed, hi, hd, variants_of i hi hd, rfl, ?_⟩
  intro L W R hsh hW hR
  refine ⟨?_, ?_, ?_⟩
  · show some (W "String".toList _) = _
    rw [hW.lib "String".toList (.text "5".toList) "5".toList (by rfl) (eithers_unshadowed.items "String" (by decide))]
  · show unionParse _ [("Int".toList, .mk [] "i32".toList none), _] _ = _
    have : (envOf R).fromStr (.mk [] "i32".toList none) "5".toList = .ok (.lib (.int 5)) := by
      show R "i32".toList _ = _
      rw [hR.lib _ _ (lib_i32 L) (eithers_unshadowed.items "i32" (by decide))]
      rw [show Str.parseSigned (-2147483648) 2147483647 "5".toList = some 5 by decide +kernel]
      rfl
    rw [unionParse, this]
  · rintro ⟨h⟩
    cases h

end Verif.Props
