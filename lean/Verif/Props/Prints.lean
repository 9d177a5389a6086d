import Verif.Lemmas.Prints

/-! # C81: values are written as texts which the schema gives them -/

namespace Verif.Props

open Verif Verif.Model Verif.Spec Verif.Lemmas Verif.Lemmas.Val Verif.Lemmas.Prt Verif.Props.Sample RoXml

private theorem machine_name {r : String} {lo hi : Int} (h : (r, lo, hi) ∈ machineInts) :
    r ∈ reservedNames ∧ r ≠ "String" := by
  have : ∀ p ∈ machineInts, p.1 ∈ reservedNames ∧ p.1 ≠ "String" := by decide
  exact this _ h

theorem hasType_reserved {r : String} {v : LibVal} (h : HasType r v) : r ∈ reservedNames := by
  cases h with
  | machine h => exact (machine_name h).1
  | big h => revert r; decide
  | nat h => revert r; decide
  | _ => decide

theorem hasType_string {r : String} {v : LibVal} (h : HasType r v) : r = "String" ↔ ∃ s, v = .text s := by
  cases h with
  | text => simp
  | machine h => simp [(machine_name h).2]
  | big h => simp only [reduceCtorEq, exists_false, iff_false]; rintro rfl; exact absurd h (by decide)
  | nat h => simp only [reduceCtorEq, exists_false, iff_false]; rintro rfl; exact absurd h (by decide)
  | _ => simp

private theorem pick {P : RVal → XVal → Prop} (vs : List RVal) (h : ∀ v ∈ vs, ∃ x, P v x) :
    ∃ xs : List XVal, vs.length = xs.length ∧ ∀ (i : Nat) v x, vs[i]? = some v → xs[i]? = some x → P v x := by
  induction vs with
  | nil => exact ⟨[], rfl, by simp⟩
  | cons v vs ih =>
    obtain ⟨xs, h1, h2⟩ := ih fun v hv => h v (List.mem_cons_of_mem _ hv)
    obtain ⟨x, hx⟩ := h v List.mem_cons_self
    refine ⟨x :: xs, by simp [h1], ?_⟩
    intro i w y hw hy
    cases i with
    | zero => cases hw; cases hy; exact hx
    | succ i => exact h2 i w y hw hy

private theorem join_words {V : Type} {f : V → Str} {vs : List V} (h : ∀ v ∈ vs, Word (f v)) :
    Words (joinDisplay f vs) (vs.map f) := (C26_words_iff _ _).1 (Ser.join_split h)

private theorem join_chars {V : Type} {f : V → Str} {vs : List V} {c : Char} (h : c ∈ joinDisplay f vs) :
    c = ' ' ∨ ∃ v ∈ vs, c ∈ f v := by
  cases vs with
  | nil => cases h
  | cons v vs =>
    rcases List.mem_append.1 h with h | h
    · exact .inr ⟨v, List.mem_cons_self, h⟩
    · obtain ⟨w, hw, h⟩ := List.mem_flatMap.1 h
      rcases List.mem_cons.1 h with h | h
      · exact .inl h
      · exact .inr ⟨w, List.mem_cons_of_mem _ hw, h⟩

/-- How a value is written where it stands. -/
def WrittenAs (W : Str → RVal → Str) (ty : Str) (v : RVal) (s : Str) : Spot → Prop
  | .alone => W ty v = s
  | .field => FieldWrites W ty v s

private theorem field_of {U : UnicodeTable} {root : Node} {uri : Str} {P : String → LibVal → Prop} {is : List Item}
    (hp : PlainNames root uri) (hun : Unshadowed U root is) {ref : Str} {v : RVal} (h : ValueIn U root uri P .alone ref v)
    (hv : ∀ s, v ≠ .lib (.text s)) : ∃ p, PathOf ((naming U root).type ref) p ∧
      (TupTy.fromPath p = .ok (.simple p) ∨ TupTy.fromPath p = .ok (.struct p)) := by
  have own : ∀ {nm : Str} {c : Node}, Denotes root uri nm ref → c ∈ globals root → c.attr "name".toList = some nm →
      ∃ p, PathOf ((naming U root).type ref) p ∧
        (TupTy.fromPath p = .ok (.simple p) ∨ TupTy.fromPath p = .ok (.struct p)) := by
    intro nm c hd hc hnm
    obtain ⟨e, hpl⟩ := own_type (U := U) hp hd (hp.names c hc nm hnm)
    rw [e]
    exact ⟨_, pathOf_name hpl, .inr (own_struct hun hc hnm)⟩
  cases h with
  | @lib n rust _ _ hd hrow ht _ =>
    rw [builtin_type hp hrow hd]
    have hne : rust ≠ "Vec<String>" := by rintro rfl; exact absurd (hasType_reserved ht) (by decide)
    obtain ⟨p, h1, -, -, h2⟩ := lib_path _ (List.mem_map.2 ⟨_, hrow, rfl⟩) hne
    refine ⟨p, h1, h2 fun e => ?_⟩
    obtain ⟨s, rfl⟩ := (hasType_string ht).1 e
    exact hv s rfl
  | restriction hd hc => exact own hd hc.1 hc.2.2.1
  | list hd hc => exact own hd hc.1 hc.2.2.1

/-- What is written denotes the value, for any set `Lit` of literals which has those of texts and lists. -/
theorem writes_core (U : UnicodeTable) (root : Node) (uri t : Str) (hg : Grammatical root) (hs : CopySafe root)
    (h : convertXsd U root = .ok t) (is : List Item) (hi : HasItems t is) (hp : PlainNames root uri)
    (hun : Unshadowed U root is) (L : Lib) (W : Str → RVal → Str) (hW : Prints W L is) {P : String → LibVal → Prop}
    {Lit : String → Str → XVal → Prop} (hP : ∀ n r v, (n, r) ∈ readmeTable ++ undocumentedTable → HasType r v → P n v →
      ∃ s x, libToString L r.toList v = some (.ok s) ∧ Literal n s x ∧ Lit n s x ∧ Carries v x)
    (hT : ∀ n, n ∈ textTypes ∨ n ∈ listTypes → ∀ s x, Literal n s x → Lit n s x) {ref : Str}
    {v : RVal} {pl : Spot} (hv : ValueIn U root uri P pl ref v) :
    ∃ s x, WrittenAs W ((naming U root).type ref) v s pl ∧ ValueOf U root uri Lit ref s x ∧ Represents v x ∧
      (OneWord v → Word s) := by
  have wrapper : ∀ {c : Node} {nm ref ty s : Str} {v : RVal}, Denotes root uri nm ref → c ∈ globals root →
      c.attr "name".toList = some nm → (∃ i ∈ is, i.path = [] ∧
        i.attrs = ["#[derive(Default, Clone, PartialEq, Debug, UtilsTupleIo, UtilsDefaultSerde)]".toList] ∧
        i.head = "pub struct ".toList ++ ((naming U root).type nm ++ (" (pub ".toList ++ (ty ++ ");".toList)))) →
      FieldWrites W ty v s → W ((naming U root).type ref) v = s := by
    rintro c nm ref ty s v hd hc hnm ⟨i, him, h1, h2, h3⟩ ⟨p, f, w, hpo, hf, rfl, hw⟩
    obtain ⟨e, hpl⟩ := own_type (U := U) hp hd (hp.names c hc nm hnm)
    rw [e]
    have hsp : ' ' ∉ (naming U root).type nm := fun h => hpl _ h (by decide)
    have hpar : ')' ∉ ty := by rw [← hpo.2]; exact (pathText_chars hpo.1).2
    exact hW.tuple i him h1 (by rw [h2]; decide) _ _ (by rw [h3]; exact readTuple_of hsp hpar) p f hpo hf w s hw
  have str : ∀ t, W "String".toList (.lib (.text t)) = t := by
    intro t
    refine hW.lib _ _ _ ?_ (hun.items "String" (by decide))
    simp [libToString, libDisplay]
  induction hv with
  | @lib n rust ref v hd hrow ht hpr =>
    obtain ⟨s, x, h1, h2, h2', h3⟩ := hP n rust v hrow ht hpr
    rw [builtin_type hp hrow hd]
    refine ⟨s, x, hW.lib _ _ _ h1 (hun.items rust (hasType_reserved ht)), .builtin hd h2', .lib h3, ?_⟩
    intro hw
    by_cases hstr : rust = "String"
    · obtain ⟨t, rfl⟩ := (hasType_string ht).1 hstr
      subst hstr
      have : libToString L "String".toList (.text t) = some (.ok t) := by simp [libToString, libDisplay]
      cases (Option.some.inj (this.symm.trans h1))
      exact hw
    · have k1 : ∀ p ∈ readmeTable ++ undocumentedTable, p.1 ∈ textTypes → p.2 = "String" := by decide +kernel
      have k2 : ∀ p ∈ readmeTable ++ undocumentedTable, p.1 ∈ listTypes → p.2 = "Vec<String>" := by decide +kernel
      refine literal_word h2 (fun h => hstr (k1 _ hrow h)) fun h => ?_
      obtain rfl : rust = "Vec<String>" := k2 _ hrow h
      exact absurd (hasType_reserved ht) (by decide)
  | @text n ref s hd hrow =>
    have key : ∀ p ∈ readmeTable ++ undocumentedTable, p.2 = "String" → p.1 ∈ textTypes := by decide +kernel
    rw [builtin_type hp hrow hd]
    exact ⟨s, _, write_string, .builtin hd (hT n (.inl (key _ hrow rfl)) _ _ (.text (key _ hrow rfl))), .text, id⟩
  | @words n ref ts hd hn hts =>
    have key : ∀ n ∈ listTypes, (n, "Vec<String>") ∈ readmeTable ++ undocumentedTable := by decide +kernel
    rw [builtin_type hp (key n hn) hd]
    have hw := write_vec (W := W) (ty := "String".toList) (p := .mk [] "String".toList none)
      (pathOf_name (by unfold Plain; decide)) (by decide) (List.map (fun t => .lib (.text t)) ts)
    have hword : ∀ v ∈ List.map (fun t => RVal.lib (.text t)) ts, Word (W "String".toList v) := by
      intro v hv
      obtain ⟨t, ht, rfl⟩ := List.mem_map.1 hv
      rw [str]; exact hts t ht
    have hws := join_words hword
    rw [List.map_map, show (W "String".toList ∘ fun t => RVal.lib (.text t)) = id from funext str, List.map_id] at hws
    refine ⟨_, .list (ts.map .text), hw, .builtin hd (hT n (.inr hn) _ _ (.list hn hws ?_)), .many (by simp) ?_, fun h => h.elim⟩
    · intro c hc hsp
      rcases join_chars hc with rfl | ⟨v, hv, hc⟩
      · exact .inl rfl
      · exact absurd hsp ((hword v hv).2 c hc)
    · intro i v x hv hx
      rw [List.getElem?_map] at hv hx
      cases ht : ts[i]? with
      | none => rw [ht] at hv; cases hv
      | some t => rw [ht] at hv hx; cases hv; cases hx; exact .lib .text
  | @one ref v hv hne ih =>
    obtain ⟨s, x, h1, h2, h3, h4⟩ := ih
    obtain ⟨p, h5, h6⟩ := field_of hp hun hv hne
    refine ⟨s, x, ?_, h2, .one h3, h4⟩
    have := write_struct (W := W) (v := v) h5 h6
    rwa [show W _ v = s from h1] at this
  | @restriction ref c nm d b fs v hd hc htag hb hf he _ ih =>
    obtain ⟨s, x, h1, h2, h3, h4⟩ := ih
    exact ⟨s, x, wrapper hd hc.1 hc.2.2.1 (C72_restriction_partial U root t hg hs h is hi c d nm b fs hc htag hb hf he).1 h1,
      .restriction hd hc htag hb hf he h2, h3, h4⟩
  | @list ref c nm d it vs hd hc htag hit hk hl _ hone ih =>
    obtain ⟨p, hpo, hpn⟩ := known_path (U := U) hp hun hk hl
    have hw := write_vec (W := W) hpo hpn vs
    have hitem : ∀ v ∈ vs, ∃ x, ValueOf U root uri Lit it (W ((naming U root).type it) v) x ∧ Represents v x := by
      intro v hv
      obtain ⟨s, x, h1, h2, h3, -⟩ := ih v hv
      obtain rfl : W _ v = s := h1
      exact ⟨x, h2, h3⟩
    obtain ⟨xs, hlen, hxs⟩ := pick vs hitem
    obtain ⟨⟨i, him, h1, h2, h3⟩, -⟩ := C72_list_partial U root t hg hs h is hi c d nm it hc htag hit
    refine ⟨_, .list xs, wrapper hd hc.1 hc.2.2.1 ⟨i, him, h1, h2, by rw [h3]; simp⟩ hw, ?_,
      .many hlen fun i v x a b => (hxs i v x a b).2, fun h => h.elim⟩
    refine .list hd hc htag hit hk hl (join_words fun v hv => ?_) (by simpa using hlen) ?_
    · obtain ⟨s, x, h1, -, -, h4⟩ := ih v hv
      obtain rfl : W _ v = s := h1
      exact h4 (hone v hv)
    · intro i u x hu hx
      rw [List.getElem?_map] at hu
      cases hv : vs[i]? with
      | none => rw [hv] at hu; cases hu
      | some v => rw [hv] at hu; cases hu; exact (hxs i v x hv hx).1

/-- **C81** A value of a simple type of the schema, built from library values which are written as literals (C80), is
written by the generated type as a text which denotes it in that simple type; both by `Display` of the type and where it
is the field of a wrapper.  Partial: no enumerations of names, unions and inline types; items of lists are single words. -/
theorem C81_writes_partial (U : UnicodeTable) (root : Node) (uri t : Str) (hg : Grammatical root) (hs : CopySafe root)
    (h : convertXsd U root = .ok t) (is : List Item) (hi : HasItems t is) (hp : PlainNames root uri)
    (hun : Unshadowed U root is) (L : Lib) (hsh : Shows L.sh) (W : Str → RVal → Str) (hW : Prints W L is) {ref : Str}
    {v : RVal} {pl : Spot} (hv : ValueIn U root uri (Proper L.expo) pl ref v) :
    ∃ s x, WrittenAs W ((naming U root).type ref) v s pl ∧ ValueOf U root uri Literal ref s x ∧ Represents v x ∧
      (OneWord v → Word s) := by
  refine writes_core U root uri t hg hs h is hi hp hun L W hW (fun n r v hrow ht hpr => ?_) (fun _ _ _ _ h => h) hv
  obtain ⟨s, x, h1, h2, h3⟩ := (C80_writes_iff_partial L hsh hrow ht).2 hpr
  exact ⟨s, x, h1, h2, h2, h3⟩

/-! ## A document -/

private def limit : Node := el "restriction" [("base", "xs:int")] []
private def texts : Node := el "list" [("itemType", "xs:string")] []
private def limits : Node := el "list" [("itemType", "tns:Limit")] []
private def simple (n : String) (r : Node) : Node := el "simpleType" [("name", n)] [r]
private def vals : Node := doc [simple "Limit" limit, simple "Texts" texts, simple "Limits" limits]

private def valsText : Str := okText (convertXsd A vals)
private def valsItems : List Item := readItems [] [] (Gen.lns valsText)

private theorem vals_has : HasItems valsText valsItems := ⟨_, Gen.lines_lns _, rfl⟩
private theorem vals_ok : convertXsd A vals = .ok valsText := okText_eq (by decide +kernel)
private theorem vals_grammatical : Grammatical vals := grammatical_of rfl (by decide +kernel)
private theorem vals_copySafe : CopySafe vals :=
  copySafe_of (by decide +kernel) (by decide +kernel) (by decide +kernel) (by decide +kernel) (by decide +kernel)

private def exUri : Str := "http://example.com/a".toList

private theorem vals_plain : PlainNames vals exUri where
  prefixes := by unfold UniquePrefixes; decide +kernel
  uris := by decide +kernel
  xsd := ⟨⟨some "xs".toList, Model.xsdUri⟩, List.mem_cons_self, rfl, by simp⟩
  target := by decide
  names := by
    have : ∀ c ∈ globals vals, ∀ nm ∈ (c.attr "name".toList).toList, ':' ∉ nm := by decide +kernel
    exact fun c hc nm h => this c hc nm (Option.mem_toList.2 h)

private theorem vals_unshadowed : Unshadowed A vals valsItems where
  declared := by
    have : ∀ c ∈ globals vals, ∀ nm ∈ (c.attr "name".toList).toList,
        (naming A vals).type nm ∉ reservedNames.map String.toList := by decide +kernel
    exact fun c hc nm h => this c hc nm (Option.mem_toList.2 h)
  items := by
    have : ∀ w ∈ reservedNames, ∀ i ∈ valsItems, ¬ (DefinesType i w.toList ∨ readHead i.head = some (.type, w.toList)) := by
      decide +kernel
    rintro w hw ⟨i, hi, -, h⟩
    exact this w hw i hi h

private theorem vals_tuples : ∀ i ∈ valsItems, i.path = [] → "UtilsTupleIo".toList ∈ i.attrs.flatMap derived →
    readTuple i.head ∈ [some ("Limit".toList, "i32".toList), some ("Texts".toList, "Vec<String>".toList),
      some ("Limits".toList, "Vec<Limit>".toList)] := by decide +kernel

private theorem int_path : PathOf "i32".toList (.mk [] "i32".toList none) := pathOf_name (by unfold Plain; decide)
private theorem string_path : PathOf "String".toList (.mk [] "String".toList none) := pathOf_name (by unfold Plain; decide)
private theorem limit_path : PathOf "Limit".toList (.mk [] "Limit".toList none) := pathOf_name (by unfold Plain; decide)

/-- `Display` of these types. -/
private def shown (L : Lib) (ty : Str) : RVal → Str
  | .lib v => match libToString L ty v with
    | some (.ok s) => s
    | _ => []
  | .one v => shown L "i32".toList v
  | .many [] => []
  | .many (v :: vs) => let item := if ty = "Texts".toList then "String".toList else "Limit".toList
    shown L item v ++ shown.tail item vs
  | .text _ => []
where
  tail (item : Str) : List RVal → Str
  | [] => []
  | v :: vs => ' ' :: (shown L item v ++ tail item vs)

private theorem shown_tail (L : Lib) (item : Str) (vs : List RVal) :
    shown.tail L item vs = vs.flatMap fun v => ' ' :: shown L item v := by
  induction vs with
  | nil => rw [shown.tail]; rfl
  | cons v vs ih => rw [shown.tail, ih]; rfl

private theorem shown_many (L : Lib) (ty : Str) (vs : List RVal) :
    shown L ty (.many vs) = joinDisplay (shown L (if ty = "Texts".toList then "String".toList else "Limit".toList)) vs := by
  cases vs with
  | nil => rw [shown]; rfl
  | cons v vs => rw [shown, shown_tail]; rfl

private theorem shown_prints (L : Lib) : Prints (shown L) L valsItems where
  lib ty v s h _ := by rw [shown, h]
  tuple i hi h1 h2 n ty ht p f hp hf v s hv := by
    have h := vals_tuples i hi h1 h2
    rw [ht] at h
    simp only [List.mem_cons, List.not_mem_nil, or_false, Option.some.injEq, Prod.mk.injEq] at h
    rcases h with ⟨rfl, rfl⟩ | ⟨rfl, rfl⟩ | ⟨rfl, rfl⟩
    · obtain rfl := pathText_injective hp.1 int_path.1 (hp.2.trans int_path.2.symm)
      cases Res.ok.inj hf
      cases v with
      | one v => rw [RVal.ofTup, shown]; exact Option.some.inj hv
      | _ => cases hv
    · obtain rfl := pathText_injective hp.1 (pathOf_vec string_path).1 (hp.2.trans (pathOf_vec string_path).2.symm)
      cases Res.ok.inj hf
      cases v with
      | many vs => rw [RVal.ofTup, shown_many, if_pos rfl]; exact Option.some.inj hv
      | _ => cases hv
    · obtain rfl := pathText_injective hp.1 (pathOf_vec limit_path).1 (hp.2.trans (pathOf_vec limit_path).2.symm)
      cases Res.ok.inj hf
      cases v with
      | many vs => rw [RVal.ofTup, shown_many, if_neg (by decide)]; exact Option.some.inj hv
      | _ => cases hv

private theorem den_xsd (n : String) : DenotesXsd vals n ("xs:".toList ++ n.toList) :=
  ⟨⟨some "xs".toList, Model.xsdUri⟩, List.mem_cons_self, rfl, .prefixed (p := "xs".toList) (n := n.toList) (by decide)⟩

private theorem den_own (n : String) : Denotes vals exUri n.toList ("tns:".toList ++ n.toList) :=
  ⟨by rfl, ⟨some "tns".toList, exUri⟩, List.mem_cons_of_mem _ List.mem_cons_self, rfl,
    .prefixed (p := "tns".toList) (n := n.toList) (by decide)⟩

private theorem limit_decl : SimpleDecl vals (simple "Limit" limit) "Limit".toList limit :=
  ⟨List.mem_cons_self, rfl, by decide +kernel, rfl⟩
private theorem limits_decl : SimpleDecl vals (simple "Limits" limits) "Limits".toList limits :=
  ⟨List.mem_cons_of_mem _ (List.mem_cons_of_mem _ List.mem_cons_self), rfl, by decide +kernel, rfl⟩

private theorem only_xsd {n : String} {r : Str} (h : DenotesXsd vals n r) : splitName r = (some "xs".toList, n.toList) := by
  obtain ⟨a, ha, hu, hr⟩ := h
  have : ∀ a ∈ vals.namespaces, a.uri = xmlSchemaUri → a.name = some "xs".toList := by decide +kernel
  rw [this a ha hu] at hr
  exact Gen.splitName_iff.2 hr

private theorem only_own {nm r : Str} (h : Denotes vals exUri nm r) : splitName r = (some "tns".toList, nm) := by
  obtain ⟨-, a, ha, hu, hr⟩ := h
  have : ∀ a ∈ vals.namespaces, a.uri = exUri → a.name = some "tns".toList := by decide +kernel
  rw [this a ha hu] at hr
  exact Gen.splitName_iff.2 hr

private theorem number (expo : BigDecimal.Dec → Bool) {v : Int} (h1 : -2147483648 ≤ v) (h2 : v ≤ 2147483647) :
    ValueIn A vals exUri (Proper expo) .alone "tns:Limit".toList (.one (.lib (.int v))) := by
  refine .restriction (den_own "Limit") limit_decl rfl (b := "xs:int".toList) (by decide +kernel) .nil (.inl rfl)
    (.one (.lib (den_xsd "int") (rust := "i32") (by decide) (.machine (by decide) h1 h2) ?_) (by simp))
  have key : ∀ p ∈ intTypes, p.1 = "int" → p.2 = (some (-2147483648), some 2147483647) := by decide
  intro lo hi h
  cases key _ h rfl
  exact ⟨fun b e => by cases e; exact h1, fun b e => by cases e; exact h2⟩

/-- The hypotheses of the theorem are met by this document, and by a list of two numbers. -/
example (L : Lib) (hsh : Shows L.sh) : ∃ s x, shown L "Limits".toList (.many [.one (.lib (.int 7)), .one (.lib (.int (-3)))]) = s ∧
    ValueOf A vals exUri Literal "tns:Limits".toList s x ∧
    Represents (.many [.one (.lib (.int 7)), .one (.lib (.int (-3)))]) x := by
  obtain ⟨s, x, h1, h2, h3, -⟩ := C81_writes_partial A vals exUri valsText vals_grammatical vals_copySafe vals_ok valsItems vals_has
    vals_plain vals_unshadowed L hsh (shown L) (shown_prints L) (ref := "tns:Limits".toList) (pl := .alone)
    (v := .many [.one (.lib (.int 7)), .one (.lib (.int (-3)))])
    (.list (den_own "Limits") limits_decl rfl (it := "tns:Limit".toList) (by decide +kernel)
      (.inr ⟨_, _, den_own "Limit", limit_decl.1, limit_decl.2.2.1⟩)
      (fun n _ hd => absurd (Prod.mk.inj (only_xsd hd)).1 (by decide))
      (fun v hv => by
        rcases List.mem_cons.1 hv with rfl | hv
        · exact number L.expo (by decide) (by decide)
        · rw [List.mem_singleton.1 hv]; exact number L.expo (by decide) (by decide))
      (fun v hv => by
        rcases List.mem_cons.1 hv with rfl | hv
        · exact trivial
        · rw [List.mem_singleton.1 hv]; exact trivial))
  exact ⟨s, x, h1, h2, h3⟩

/-- **C81** (finding) A text with a blank in a list is written as two items: what is written denotes another list. -/
theorem C81_list_violated : ∃ (root : Node) (uri t : Str) (is : List Item), Grammatical root ∧ CopySafe root ∧
    convertXsd A root = .ok t ∧ HasItems t is ∧ PlainNames root uri ∧ Unshadowed A root is ∧
    (naming A root).type "tns:Texts".toList = "Texts".toList ∧
    (∀ L W, Prints W L is → W "Texts".toList (.many [.lib (.text "a b".toList)]) = "a b".toList) ∧
    (∃ x, ValueOf A root uri Literal "tns:Texts".toList "a b".toList x) ∧
    ∀ x, ValueOf A root uri Literal "tns:Texts".toList "a b".toList x → ¬ Represents (.many [.lib (.text "a b".toList)]) x := by
  have hdecl : SimpleDecl vals (simple "Texts" texts) "Texts".toList texts :=
    ⟨List.mem_cons_of_mem _ List.mem_cons_self, rfl, by decide +kernel, rfl⟩
  have hnl : ∀ n ∈ listTypes, ¬ DenotesXsd vals n "xs:string".toList := by
    intro n hn hd
    have : ∀ n ∈ listTypes, splitName "xs:string".toList ≠ (some "xs".toList, n.toList) := by decide
    exact this n hn (only_xsd hd)
  refine ⟨vals, exUri, valsText, valsItems, vals_grammatical, vals_copySafe, vals_ok, vals_has, vals_plain,
    vals_unshadowed, by decide +kernel, ?_, ⟨.list [.text "a".toList, .text "b".toList], ?_⟩, ?_⟩
  · intro L W hW
    obtain ⟨i, hi, h1, h2, h3⟩ : ∃ i ∈ valsItems, i.path = [] ∧ "UtilsTupleIo".toList ∈ i.attrs.flatMap derived ∧
        readTuple i.head = some ("Texts".toList, "Vec<String>".toList) := by decide +kernel
    refine hW.tuple i hi h1 h2 _ _ h3 _ _ (pathOf_vec string_path) rfl (.many [.lib (.text "a b".toList)]) _ ?_
    show some (joinDisplay (W "String".toList) [.lib (.text "a b".toList)]) = _
    have : W "String".toList (.lib (.text "a b".toList)) = "a b".toList :=
      hW.lib _ _ _ (by simp [libToString, libDisplay]) (vals_unshadowed.items "String" (by decide))
    unfold joinDisplay; dsimp only; rw [this]; rfl
  · refine .list (den_own "Texts") hdecl rfl (by decide +kernel) (.inl ⟨("string", "String"), by decide, den_xsd "string"⟩) hnl
      (ts := ["a".toList, "b".toList]) ((C26_words_iff _ _).1 (by decide)) rfl ?_
    intro i t x ht hx
    match i with
    | 0 => cases ht; cases hx; exact .builtin (den_xsd "string") (.text (by decide))
    | 1 => cases ht; cases hx; exact .builtin (den_xsd "string") (.text (by decide))
    | _ + 2 => cases ht
  · intro x h hr
    have huniq : ∀ {c d : Node}, SimpleDecl vals c "Texts".toList d → d = texts := by
      rintro c d ⟨hc, -, hn, hl⟩
      have hc : c ∈ [simple "Limit" limit, simple "Texts" texts, simple "Limits" limits] := hc
      simp only [List.mem_cons, List.not_mem_nil, or_false] at hc
      rcases hc with rfl | rfl | rfl
      · exact absurd hn (by decide +kernel)
      · cases hl; rfl
      · exact absurd hn (by decide +kernel)
    cases h with
    | builtin hd => exact absurd (Prod.mk.inj (only_xsd hd)).1 (by decide)
    | restriction hd hc ht =>
      obtain ⟨-, e⟩ := Prod.mk.inj (only_own hd)
      obtain rfl := e.symm.trans (rfl : _ = "Texts".toList)
      rw [huniq hc] at ht
      exact absurd ht (by decide)
    | @list r c nm d it s ts xs hd hc ht hit _ _ hw hlen hvs =>
      obtain rfl : ["a".toList, "b".toList] = ts := (C26_words_iff _ _).2 hw
      cases hr with
      | many hl => rw [← hl] at hlen; exact absurd hlen (by decide)

end Verif.Props
