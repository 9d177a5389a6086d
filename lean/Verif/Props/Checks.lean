import Verif.Spec.Checks
import Verif.Props.Traits
import Verif.Props.Simple
import Verif.Props.GenNames

/-! # C75: the operations which the checks use -/

namespace Verif.Props

open Verif Verif.Model Verif.Spec Verif.RoXml Verif.Lemmas Verif.Lemmas.Parse

open Verif.Props.Sample

/-! ## No order -/

private theorem expected_order (tn : Str → Str) (x : List Str × Origin) :
    ∀ y ∈ expectedImpls tn x, y.2.2 ≠ "PartialOrd".toList := by
  intro y hy
  obtain ⟨p, o⟩ := x
  cases o with
  | entity e =>
    unfold expectedImpls at hy
    dsimp only at hy
    cases hn : typeName? e with
    | none => rw [hn] at hy; cases hy
    | some n =>
      rw [hn] at hy
      obtain ⟨tr, htr, rfl⟩ := List.mem_map.1 hy
      show tr ≠ _
      rintro rfl
      revert htr
      cases e with
      | struct s => rw [traitsOf]; decide
      | tupleStruct s => rw [traitsOf]; decide
      | enum s =>
        obtain ⟨n, cs, c, t, ss, src⟩ := s
        rw [traitsOf]
        cases src <;> decide
      | «alias» _ => cases hn
      | structField _ => cases hn
      | enumCase _ => cases hn
      | «import» _ => cases hn
  | inner _ => cases hy
  | validate _ _ _ _ => cases hy
  | default _ => cases hy

/-- **C75** No type in the generated code has an order. -/
theorem C75_never (U : UnicodeTable) (root : Node) (t : Str) (hg : Grammatical root) (hs : CopySafe root)
    (h : convertXsd U root = .ok t) (is : List Item) (hi : HasItems t is) :
    ∀ x ∈ implementations is, x.2.2 ≠ "PartialOrd".toList := by
  obtain ⟨f, -, is', h1, h2⟩ := C70_document U root t hg hs h
  obtain rfl := C69_determined t is is' hi h1
  intro x hx
  obtain ⟨o, -, hx⟩ := List.mem_flatMap.1 (h2.mem_iff.1 hx)
  exact expected_order _ o x hx

/-! ## When the operations are there -/

private theorem gives_compare {tr : Str} (h : traitGives tr = some .compare) : tr = "PartialOrd".toList := by
  unfold traitGives at h
  split at h
  · assumption
  · split at h
    · cases h
    · split at h <;> cases h

private theorem gives_len {tr : Str} : traitGives tr ≠ some .len := by
  unfold traitGives
  split
  · simp
  · split
    · simp
    · split <;> simp

private theorem mem_strings {l : List String} {x : Str} : x ∈ l.map String.toList ↔ ∃ s ∈ l, s.toList = x := List.mem_map

private theorem gives_not {tr : Str} {op : CheckOp} (h : traitGives tr = some op) :
    tr ≠ "Validate".toList ∧ tr ≠ "Default".toList := by
  constructor <;> rintro rfl <;> exact absurd h (by rw [show traitGives _ = none by decide]; simp)

/-- A type with an operation from the code is defined there. -/
private theorem defined_of {N : Naming} {ns : Option Namespace} {xs : List (List Str × Origin)} {is : List Item}
    (hF : List.Forall₂ (ItemFor N ns) xs is) {q : List Str} {n tr : Str} (h : (q, n, tr) ∈ implementations is)
    (h1 : tr ≠ "Validate".toList) (h2 : tr ≠ "Default".toList) : ∃ i ∈ is, i.path = q ∧ DefinesType i n := by
  obtain ⟨i, hi, h'⟩ := List.mem_flatMap.1 h
  clear h
  obtain ⟨⟨n', tr'⟩, h, e⟩ := List.mem_map.1 h'
  clear h'
  obtain ⟨rfl, rfl, rfl⟩ : i.path = q ∧ n' = n ∧ tr' = tr := by simpa using e
  refine ⟨i, hi, rfl, ?_⟩
  unfold provides at h
  split at h
  · rename_i m hm
    obtain ⟨_, -, e⟩ := List.mem_map.1 h
    obtain ⟨rfl, -⟩ := Prod.mk.inj e
    exact .inl hm
  · rename_i m hm
    obtain ⟨_, -, e⟩ := List.mem_map.1 h
    obtain ⟨rfl, -⟩ := Prod.mk.inj e
    exact .inr hm
  · cases h
  · rename_i hm
    obtain ⟨⟨p, o⟩, -, -, hx⟩ := forall₂_left hF i hi
    exfalso
    have hpub : ∀ {r : Str} {k : DefKind}, (i.head = "pub struct ".toList ++ r ∨ i.head = "pub enum ".toList ++ r ∨
        i.head = "pub mod ".toList ++ r ∨ i.head = "pub type ".toList ++ r) → False := by
      intro r k hr
      rcases hr with hr | hr | hr | hr <;> rw [hr] at hm <;> cases hm
    have himpl : ∀ {tr0 : Str} {r : Str}, ' ' ∉ tr0 → i.head = "impl ".toList ++ (tr0 ++ (' ' :: r)) → tr' = tr0 := by
      intro tr0 r hs hr
      rw [hr, readImpl] at h
      have h1 : afterPrefix "impl ".toList ("impl ".toList ++ (tr0 ++ (' ' :: r))) = some (tr0 ++ (' ' :: r)) := rfl
      rw [h1] at h
      dsimp only at h
      rw [Gen.takeWhile_word hs] at h
      split at h
      · rename_i hx
        split at hx
        · cases hx
        · obtain ⟨rfl, rfl⟩ := Prod.mk.inj (Option.some.inj hx)
          simpa using (Prod.mk.inj (List.mem_singleton.1 h)).2
      · cases h
    cases o with
    | entity e =>
      cases e with
      | struct s => obtain ⟨⟩ := s; exact hpub (k := .mod) (.inl hx.2.2)
      | tupleStruct s => obtain ⟨⟩ := s; exact hpub (k := .mod) (.inl hx.2.1)
      | enum s => obtain ⟨⟩ := s; exact hpub (k := .mod) (.inr (.inl hx.2.1))
      | «alias» s => obtain ⟨⟩ := s; exact hpub (k := .mod) (.inr (.inr (.inr hx.2.1)))
      | structField _ => exact hx
      | enumCase _ => exact hx
      | «import» _ => exact hx
    | inner n => exact hpub (k := .mod) (.inr (.inr (.inl hx.2.1)))
    | validate n t ms fs =>
      obtain ⟨cs, -, ⟨-, hx⟩, -⟩ := hx
      rcases hx with ⟨-, hx, -⟩ | ⟨-, hx, -⟩
      · exact h1 (himpl (tr0 := "Validate".toList) (by decide) hx)
      · exact h1 (himpl (tr0 := "Validate".toList) (by decide) hx)
    | default n => exact h2 (himpl (tr0 := "Default".toList) (by decide) hx.2.1)

/-- What a comparison with a bound needs. -/
private theorem offers_bound {N : Naming} {ns : Option Namespace} {xs : List (List Str × Origin)} {is : List Item}
    (hF : List.Forall₂ (ItemFor N ns) xs is) {p : List Str} {ty : Str}
    (hn : ∀ x ∈ implementations is, x.2.2 ≠ "PartialOrd".toList) :
    (∀ op ∈ [CheckOp.compare, .parse, .print], Offers is p ty op) ↔ ¬ InScope is p ty ∧ ty ∈ orderedTypes.map String.toList := by
  constructor
  · intro h
    rcases h .compare (by simp) with ⟨q, tr, -, h2, h3⟩ | ⟨h2, h3⟩
    · exact absurd (gives_compare h3) (hn _ h2)
    · refine ⟨h2, ?_⟩
      rcases h .parse (by simp) with ⟨q, tr, k1, k2, k3⟩ | ⟨-, k3⟩
      · obtain ⟨i, hi, rfl, hd⟩ := defined_of hF k2 (gives_not k3).1 (gives_not k3).2
        exact absurd ⟨i, hi, k1, .inl hd⟩ h2
      · have h3 : ty ∈ (orderedTypes ++ ["Vec<String>"]).map String.toList := h3
        have k3 : ty ∈ (orderedTypes ++ unorderedTypes).map String.toList := k3
        rw [List.map_append, List.mem_append] at h3
        rcases h3 with h3 | h3
        · exact h3
        · obtain rfl : ty = "Vec<String>".toList := by simpa using h3
          exact absurd k3 (by decide)
  · rintro ⟨h1, h2⟩ op hop
    refine .inr ⟨h1, ?_⟩
    have : ∀ l : List String, ty ∈ (orderedTypes ++ l).map String.toList := fun l => by
      rw [List.map_append]; exact List.mem_append_left _ h2
    rcases List.mem_cons.1 hop with rfl | hop
    · exact this _
    · rcases List.mem_cons.1 hop with rfl | hop
      · exact this _
      · obtain rfl := List.mem_singleton.1 hop
        exact this _

private theorem offers_len {is : List Item} {p : List Str} {ty : Str} :
    (∀ op ∈ [CheckOp.len], Offers is p ty op) ↔ ¬ InScope is p ty ∧ ty ∈ sizedTypes.map String.toList := by
  simp only [List.forall_mem_singleton]
  constructor
  · rintro (⟨q, tr, -, -, h⟩ | h)
    · exact absurd h gives_len
    · exact h
  · exact .inr

private theorem allOffered_iff {N : Naming} {ns : Option Namespace} {xs : List (List Str × Origin)} {is : List Item}
    (hF : List.Forall₂ (ItemFor N ns) xs is) {p : List Str} {ty : Str}
    (hn : ∀ x ∈ implementations is, x.2.2 ≠ "PartialOrd".toList) {fs : List Facet} {cs : List Cond} (hc : CheckedBy fs cs) :
    AllOffered is p ty cs ↔
      (HasBound fs → IsOneOf is p ty orderedTypes) ∧ (HasLength fs → IsOneOf is p ty sizedTypes) := by
  constructor
  · intro h
    constructor
    · rintro ⟨f, hf, b, hb⟩
      obtain ⟨op, t, hm⟩ := (hc.1 b).2 ⟨f, hf, hb⟩
      obtain ⟨ty', h1, h2⟩ := h _ hm
      exact ⟨ty', h1, (offers_bound hF hn).1 h2⟩
    · rintro ⟨f, hf, t, n, h1, h2, h3⟩
      obtain ⟨op, hm⟩ := (hc.2 n).2 ⟨f, hf, t, h1, h2, h3⟩
      obtain ⟨ty', h1, h2⟩ := h _ hm
      exact ⟨ty', h1, offers_len.1 h2⟩
  · rintro ⟨hb, hl⟩ c hm
    cases c with
    | value op b t =>
      obtain ⟨f, hf, h⟩ := (hc.1 b).1 ⟨op, t, hm⟩
      obtain ⟨ty', h1, h2⟩ := hb ⟨f, hf, b, h⟩
      exact ⟨ty', h1, (offers_bound hF hn).2 h2⟩
    | length op n =>
      obtain ⟨f, hf, t, h⟩ := (hc.2 n).1 ⟨op, hm⟩
      obtain ⟨ty', h1, h2⟩ := hl ⟨f, hf, t, n, h⟩
      exact ⟨ty', h1, offers_len.2 h2⟩

/-- **C75** For every implementation of `Validate`: the operations in its checks are there exactly if the wrapped type is an
ordered type of the library, or there is no bound among the facets, and is a text or a list of texts, or there is no length. -/
theorem C75_checks (U : UnicodeTable) (root : Node) (t : Str) (hg : Grammatical root) (hs : CopySafe root)
    (h : convertXsd U root = .ok t) (is : List Item) (hi : HasItems t is) : ∃ f, parseFile U root = .ok f ∧
    ∀ p n w ms fs, (p, .validate n w ms fs) ∈ originsList (defaultFormatName U) documented f.types →
      ∃ j ∈ is, j.path = p ∧ ∃ cs, ValidateItem ((naming U root).type n) cs j ∧
        (AllOffered is p ((naming U root).wrap ((naming U root).type w) ms) cs ↔
          (HasBound fs → IsOneOf is p ((naming U root).wrap ((naming U root).type w) ms) orderedTypes) ∧
          (HasLength fs → IsOneOf is p ((naming U root).wrap ((naming U root).type w) ms) sizedTypes)) := by
  obtain ⟨f, hf, is', h1, h2⟩ := C69_document U root t hg hs h
  obtain rfl := C69_determined t is is' hi h1
  refine ⟨f, hf, fun p n w ms fs hx => ?_⟩
  obtain ⟨j, hj, k1, cs, -, k2, -, k3⟩ := forall₂_right h2 _ hx
  exact ⟨j, hj, k1, cs, k2, allOffered_iff h2 (C75_never U root t hg hs h is hi) k3⟩

/-! ## Restrictions -/

theorem alias_type {l a b : Str} (h : readAlias l = some (a, b)) : readHead l = some (.type, a) := by
  unfold readAlias at h
  split at h
  · cases h
  · rename_i r hr
    obtain rfl : l = "pub type ".toList ++ r := by
      clear h
      revert hr
      have : ∀ (p s r : Str), afterPrefix p s = some r → s = p ++ r := by
        intro p
        induction p with
        | nil => intro s r h; exact Option.some.inj h
        | cons c p ih =>
          intro s r h
          cases s with
          | nil => cases h
          | cons d s =>
            rw [afterPrefix] at h
            split at h
            · rename_i hc; rw [hc, ih s r h]; rfl
            · cases h
      exact this _ _ _
    split at h
    · cases h
    · obtain ⟨rfl, -⟩ := Prod.mk.inj (Option.some.inj h)
      rfl

private theorem standsFor_self {is : List Item} {p : List Str} {a b : Str}
    (h : ∀ i ∈ is, i.path <+: p → ∀ c, readAlias i.head ≠ some (a, c)) : StandsFor is p a b ↔ b = a := by
  constructor
  · intro hs
    cases hs with
    | refl => rfl
    | step h1 h2 h3 _ => exact absurd h3 (h _ h1 h2 _)
  · rintro rfl; exact .refl

/-- The `Validate` implementation of a global restriction. -/
private theorem restriction_checks {U : UnicodeTable} {root : Node} {t : Str} (hg : Grammatical root) (hs : CopySafe root)
    (h : convertXsd U root = .ok t) {is : List Item} (hi : HasItems t is) {c r : Node} {nm base : Str} {fs : List Facet}
    (hc : SimpleDecl root c nm r) (hrt : r.tag = "restriction".toList) (hb : r.attr "base".toList = some base)
    (hf : FacetsOf r.tag r.children fs) (he : enumValues fs = [] ∨ ∃ v ∈ enumValues fs, ¬ SimpleValue U v.1) :
    ∃ j ∈ is, j.path = [] ∧ ∃ cs, ValidateItem ((naming U root).type nm) cs j ∧
      (AllOffered is [] ((naming U root).type base) cs ↔
        (HasBound fs → IsOneOf is [] ((naming U root).type base) orderedTypes) ∧
        (HasLength fs → IsOneOf is [] ((naming U root).type base) sizedTypes)) := by
  obtain ⟨-, j, hj, k1, cs, -, k2, -, k3⟩ := C72_restriction_partial U root t hg hs h is hi c r nm base fs hc hrt hb hf he
  obtain ⟨f, hp, is', h1, h2⟩ := C69_document U root t hg hs h
  obtain rfl := C69_determined t is is' hi h1
  exact ⟨j, hj, k1, cs, k2, allOffered_iff h2 (C75_never U root t hg hs h is hi) k3⟩

/-- The built-in types which are read and printed as one value but have no order in Rust. -/
def withoutOrder : List String := ["date", "time", "gDay", "gMonth", "gMonthDay", "gYear", "gYearMonth"]

/-- The built-in list types. -/
def builtInLists : List String := ["ENTITIES", "IDREFS", "NMTOKENS"]

/-- The built-in types whose Rust type has a length. -/
def withLength : List String :=
  ["hexBinary", "base64Binary", "string", "normalizedString", "token", "language", "Name", "NCName", "ENTITY", "ID", "IDREF",
   "NMTOKEN", "anyURI", "QName", "NOTATION", "anySimpleType"] ++ builtInLists

private theorem ordered_row : ∀ row ∈ readmeTable ++ undocumentedTable,
    (row.2.toList ∈ orderedTypes.map String.toList ↔ row.1 ∉ withoutOrder ++ builtInLists) := by decide +kernel

private theorem sized_row : ∀ row ∈ readmeTable ++ undocumentedTable,
    (row.2.toList ∈ sizedTypes.map String.toList ↔ row.1 ∈ withLength) := by decide +kernel

/-- **C75** A restriction of a built-in type is accepted exactly if there is no bound for a type without an order or a list,
and no length for a type without one. -/
theorem C75_builtin (U : UnicodeTable) (root : Node) (t : Str) (hg : Grammatical root) (hs : CopySafe root)
    (h : convertXsd U root = .ok t) (is : List Item) (hi : HasItems t is) (c r : Node) (nm base : Str) (fs : List Facet)
    (hc : SimpleDecl root c nm r) (hrt : r.tag = "restriction".toList) (hb : r.attr "base".toList = some base)
    (hf : FacetsOf r.tag r.children fs) (he : enumValues fs = [] ∨ ∃ v ∈ enumValues fs, ¬ SimpleValue U v.1)
    (row : String × String) (hrow : row ∈ readmeTable ++ undocumentedTable)
    (href : Ref ((xsdNamespace root).bind (·.name)) row.1.toList base) (hl : ¬ InScope is [] row.2.toList) :
    (naming U root).type base = row.2.toList ∧
    ∃ j ∈ is, j.path = [] ∧ ∃ cs, ValidateItem ((naming U root).type nm) cs j ∧
      (AllOffered is [] row.2.toList cs ↔
        (HasBound fs → row.1 ∉ withoutOrder ++ builtInLists) ∧ (HasLength fs → row.1 ∈ withLength)) := by
  have hm := (C28_builtin base row.2.toList (xsdNamespace root)).2 ⟨row, hrow, href, rfl⟩
  have hty : (naming U root).type base = row.2.toList := by
    show formatTypeName U _ _ base = _
    rw [formatTypeName, hm]
  refine ⟨hty, ?_⟩
  obtain ⟨j, hj, k1, cs, k2, k3⟩ := restriction_checks hg hs h hi hc hrt hb hf he
  refine ⟨j, hj, k1, cs, k2, ?_⟩
  rw [hty] at k3
  have hself := fun b => standsFor_self (is := is) (p := []) (a := row.2.toList) (b := b)
    fun i hi hp c hc => hl ⟨i, hi, hp, .inr (alias_type hc)⟩
  have hone : ∀ l : List String, IsOneOf is [] row.2.toList l ↔ row.2.toList ∈ l.map String.toList := by
    intro l
    unfold IsOneOf
    simp only [hself, exists_eq_left, hl, not_false_eq_true, true_and]
  rw [k3, hone, hone, ordered_row row hrow, sized_row row hrow]

/-- **C75** (finding) A restriction of a type which is defined in the code is accepted only if there are no bounds and no
lengths at all. -/
theorem C75_derived (U : UnicodeTable) (root : Node) (t : Str) (hg : Grammatical root) (hs : CopySafe root)
    (h : convertXsd U root = .ok t) (is : List Item) (hi : HasItems t is) (c r : Node) (nm base : Str) (fs : List Facet)
    (hc : SimpleDecl root c nm r) (hrt : r.tag = "restriction".toList) (hb : r.attr "base".toList = some base)
    (hf : FacetsOf r.tag r.children fs) (he : enumValues fs = [] ∨ ∃ v ∈ enumValues fs, ¬ SimpleValue U v.1)
    (hd : ∃ i ∈ is, i.path = [] ∧ DefinesType i ((naming U root).type base))
    (ha : ∀ i ∈ is, i.path = [] → ∀ b, readAlias i.head ≠ some ((naming U root).type base, b)) :
    ∃ j ∈ is, j.path = [] ∧ ∃ cs, ValidateItem ((naming U root).type nm) cs j ∧
      (AllOffered is [] ((naming U root).type base) cs ↔ ¬ HasBound fs ∧ ¬ HasLength fs) := by
  obtain ⟨j, hj, k1, cs, k2, k3⟩ := restriction_checks hg hs h hi hc hrt hb hf he
  refine ⟨j, hj, k1, cs, k2, ?_⟩
  have hself := fun b => standsFor_self (is := is) (p := []) (a := (naming U root).type base) (b := b)
    fun i hi hp => ha i hi (List.prefix_nil.1 hp)
  have hl : InScope is [] ((naming U root).type base) := by
    obtain ⟨i, hi, hp, hd⟩ := hd
    exact ⟨i, hi, by rw [hp], .inl hd⟩
  have hone : ∀ l : List String, ¬ IsOneOf is [] ((naming U root).type base) l := by
    rintro l ⟨ty, h1, h2, -⟩
    rw [hself] at h1
    exact h2 (h1 ▸ hl)
  rw [k3]
  simp only [hone, imp_false]

/-! ## Examples -/

private def restrict (n base : String) (fs : List Node) : Node :=
  el "simpleType" [("name", n)] [el "restriction" [("base", base)] fs]

private def inc : Node := el "maxInclusive" [("value", "5")] []
private def since : Node := el "minInclusive" [("value", "2000-01-01")] []
private def short : Node := el "maxLength" [("value", "3")] []

/-- `B` restricts `A`, which restricts `xs:int`; `C` restricts `xs:date`, `D` restricts `xs:string`. -/
private def steps : Node := doc
  [restrict "A" "xs:int" [inc], restrict "B" "tns:A" [inc], restrict "C" "xs:date" [since], restrict "D" "xs:string" [short]]

private def stepsText : Str := okText (convertXsd A steps)
private def stepsItems : List Item := readItems [] [] (Gen.lns stepsText)

private theorem steps_has : HasItems stepsText stepsItems := ⟨_, Gen.lines_lns _, rfl⟩
private theorem steps_ok : convertXsd A steps = .ok stepsText := okText_eq (by decide +kernel)
private theorem steps_grammatical : Grammatical steps := grammatical_of rfl (by decide +kernel)
private theorem steps_copySafe : CopySafe steps :=
  copySafe_of (by decide +kernel) (by decide +kernel) (by decide +kernel) (by decide +kernel) (by decide +kernel)

private theorem no_aliases : ∀ i ∈ stepsItems, readAlias i.head = none := by decide +kernel

private def five : List Facet := [⟨.maxInclusive "5".toList, none⟩]
private def from2000 : List Facet := [⟨.minInclusive "2000-01-01".toList, none⟩]
private def three : List Facet := [⟨.maxLength "3".toList, none⟩]

private theorem five_facets : FacetsOf "restriction".toList [inc] five :=
  .facet (.facet (s := "maxInclusive") (by simp [facetTags]) (by decide +kernel) (by decide +kernel)) .nil
private theorem from2000_facets : FacetsOf "restriction".toList [since] from2000 :=
  .facet (.facet (s := "minInclusive") (by simp [facetTags]) (by decide +kernel) (by decide +kernel)) .nil
private theorem three_facets : FacetsOf "restriction".toList [short] three :=
  .facet (.facet (s := "maxLength") (by simp [facetTags]) (by decide +kernel) (by decide +kernel)) .nil

private theorem steps_decl {n base : String} {fs : List Node} (h : restrict n base fs ∈
      [restrict "A" "xs:int" [inc], restrict "B" "tns:A" [inc], restrict "C" "xs:date" [since], restrict "D" "xs:string" [short]])
    (hn : (restrict n base fs).attr "name".toList = some n.toList)
    (hl : (members (restrict n base fs)).getLast? = some (el "restriction" [("base", base)] fs)) :
    SimpleDecl steps (restrict n base fs) n.toList (el "restriction" [("base", base)] fs) :=
  ⟨h, rfl, hn, hl⟩

private theorem out_of {n : Str} (h : ∀ i ∈ stepsItems, ¬ (DefinesType i n ∨ readHead i.head = some (.type, n))) :
    ¬ InScope stepsItems [] n := fun ⟨i, hi, _, hd⟩ => h i hi hd

/-- **C75** (finding) `B` restricts `A`, an integer type with a bound, by a bound: the check uses the order of `A`, which has
none. -/
theorem C75_derived_violated : ∃ (root : Node) (t : Str) (is : List Item), Grammatical root ∧ CopySafe root ∧
    convertXsd A root = .ok t ∧ HasItems t is ∧ (∃ i ∈ is, i.head = "pub struct B (pub A);".toList) ∧
    ∃ j ∈ is, ∃ cs, ValidateItem "B".toList cs j ∧ ¬ AllOffered is [] "A".toList cs := by
  obtain ⟨j, hj, -, cs, k1, k2⟩ := C75_derived A steps stepsText steps_grammatical steps_copySafe steps_ok stepsItems steps_has
    (restrict "B" "tns:A" [inc]) (el "restriction" [("base", "tns:A")] [inc]) "B".toList "tns:A".toList five
    (steps_decl (by simp) (by decide +kernel) rfl) rfl (by decide +kernel) five_facets (.inl rfl) (by decide +kernel)
    (fun i hi _ b => by rw [no_aliases i hi]; simp)
  have e1 : (naming A steps).type "B".toList = "B".toList := by decide +kernel
  have e2 : (naming A steps).type "tns:A".toList = "A".toList := by decide +kernel
  rw [e1] at k1
  rw [e2] at k2
  exact ⟨steps, stepsText, stepsItems, steps_grammatical, steps_copySafe, steps_ok, steps_has, by decide +kernel, j, hj, cs, k1,
    fun h => (k2.1 h).1 ⟨_, List.mem_cons_self, _, rfl⟩⟩

/-- **C75** (finding) `C` restricts `xs:date` by a bound: the check uses the order of `xs::Date`, which has none. -/
theorem C75_date_violated : ∃ (root : Node) (t : Str) (is : List Item), Grammatical root ∧ CopySafe root ∧
    convertXsd A root = .ok t ∧ HasItems t is ∧ (∃ i ∈ is, i.head = "pub struct C (pub xs::Date);".toList) ∧
    ∃ j ∈ is, ∃ cs, ValidateItem "C".toList cs j ∧ ¬ AllOffered is [] "xs::Date".toList cs := by
  obtain ⟨-, j, hj, -, cs, k1, k2⟩ := C75_builtin A steps stepsText steps_grammatical steps_copySafe steps_ok stepsItems steps_has
    (restrict "C" "xs:date" [since]) (el "restriction" [("base", "xs:date")] [since]) "C".toList "xs:date".toList from2000
    (steps_decl (by simp) (by decide +kernel) rfl) rfl (by decide +kernel) from2000_facets (.inl rfl) ("date", "xs::Date") (by simp [readmeTable])
    (by exact .prefixed (p := "xs".toList) (n := "date".toList) (by decide)) (out_of (by decide +kernel))
  have e1 : (naming A steps).type "C".toList = "C".toList := by decide +kernel
  rw [e1] at k1
  exact ⟨steps, stepsText, stepsItems, steps_grammatical, steps_copySafe, steps_ok, steps_has, by decide +kernel, j, hj, cs, k1,
    fun h => (k2.1 h).1 ⟨_, List.mem_cons_self, _, rfl⟩ (by decide)⟩

/-- The checks of `A` and `D` are accepted: the hypotheses of `C75_builtin` are met with a bound and with a length. -/
example : (∃ j ∈ stepsItems, ∃ cs, ValidateItem "A".toList cs j ∧ HasBound five ∧ AllOffered stepsItems [] "i32".toList cs) ∧
    ∃ j ∈ stepsItems, ∃ cs, ValidateItem "D".toList cs j ∧ HasLength three ∧ AllOffered stepsItems [] "String".toList cs := by
  obtain ⟨-, j, hj, -, cs, k1, k2⟩ := C75_builtin A steps stepsText steps_grammatical steps_copySafe steps_ok stepsItems steps_has
    (restrict "A" "xs:int" [inc]) (el "restriction" [("base", "xs:int")] [inc]) "A".toList "xs:int".toList five
    (steps_decl (by simp) (by decide +kernel) rfl) rfl (by decide +kernel) five_facets (.inl rfl) ("int", "i32") (by simp [readmeTable])
    (by exact .prefixed (p := "xs".toList) (n := "int".toList) (by decide)) (out_of (by decide +kernel))
  obtain ⟨-, j', hj', -, cs', k1', k2'⟩ := C75_builtin A steps stepsText steps_grammatical steps_copySafe steps_ok stepsItems steps_has
    (restrict "D" "xs:string" [short]) (el "restriction" [("base", "xs:string")] [short]) "D".toList "xs:string".toList three
    (steps_decl (by simp) (by decide +kernel) rfl) rfl (by decide +kernel) three_facets (.inl rfl) ("string", "String") (by simp [readmeTable])
    (by exact .prefixed (p := "xs".toList) (n := "string".toList) (by decide)) (out_of (by decide +kernel))
  have e1 : (naming A steps).type "A".toList = "A".toList := by decide +kernel
  have e2 : (naming A steps).type "D".toList = "D".toList := by decide +kernel
  rw [e1] at k1
  rw [e2] at k1'
  refine ⟨⟨j, hj, cs, k1, ⟨_, List.mem_cons_self, _, rfl⟩, k2.2 ⟨fun _ => by decide, ?_⟩⟩,
    ⟨j', hj', cs', k1', ⟨_, List.mem_cons_self, "3".toList, 3, rfl, Gen.parseUnsigned_u32.1 (by decide +kernel), by simp [Unchecked]⟩,
      k2'.2 ⟨?_, fun _ => by decide⟩⟩⟩
  · rintro ⟨f, hf, t, n, h, -⟩
    obtain rfl := List.mem_singleton.1 hf
    cases h
  · rintro ⟨f, hf, b, h⟩
    obtain rfl := List.mem_singleton.1 hf
    cases h

/-- The texts of the checks. -/
example : (stepsItems.filter fun i => i.head = "impl Validate for B {".toList ∨ i.head = "impl Validate for C {".toList).map
      (fun i => i.body[1]?) =
    [some "if self.0 > \"5\".parse::<A>().unwrap() {".toList, some "if self.0 < \"2000-01-01\".parse::<xs::Date>().unwrap() {".toList] := by
  decide +kernel

end Verif.Props
