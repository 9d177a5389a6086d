import Verif.Spec.Schema

/-! # The classification of elements by their tags -/

namespace Verif.Lemmas.Parse

open Verif Verif.Model Verif.RoXml Verif.Spec

/-- A chain of comparisons. -/
def chain {α : Type} (d : α) (t : Str) : List (Str × α) → α
  | [] => d
  | r :: rs => if t = r.1 then r.2 else chain d t rs

theorem chain_cases {α : Type} (d : α) (t : Str) : ∀ rows : List (Str × α),
    (∃ r ∈ rows, t = r.1 ∧ chain d t rows = r.2) ∨ ((∀ r ∈ rows, t ≠ r.1) ∧ chain d t rows = d)
  | [] => .inr ⟨fun _ h => absurd h List.not_mem_nil, rfl⟩
  | r :: rs => by
    unfold chain
    by_cases h : t = r.1
    · rw [if_pos h]; exact .inl ⟨r, List.mem_cons_self, h, rfl⟩
    · rw [if_neg h]
      rcases chain_cases d t rs with ⟨r', hr, ht, e⟩ | ⟨hn, e⟩
      · exact .inl ⟨r', List.mem_cons_of_mem _ hr, ht, e⟩
      · refine .inr ⟨?_, e⟩
        intro r' hr
        rcases List.mem_cons.1 hr with rfl | hr
        · exact h
        · exact hn r' hr

theorem chain_mem {α : Type} (d : α) : ∀ {rows : List (Str × α)} {r : Str × α}, (rows.map (·.1)).Nodup → r ∈ rows →
    chain d r.1 rows = r.2
  | q :: rs, r, hn, hr => by
    unfold chain
    rw [List.map_cons, List.nodup_cons] at hn
    rcases List.mem_cons.1 hr with rfl | hr
    · rw [if_pos rfl]
    · rw [if_neg, chain_mem d hn.2 hr]
      intro e
      exact hn.1 (List.mem_map.2 ⟨r, hr, e⟩)

theorem chain_default {α : Type} {d : α} {t : Str} {rows : List (Str × α)} (h : ∀ r ∈ rows, t ≠ r.1) : chain d t rows = d := by
  rcases chain_cases d t rows with ⟨r, hr, ht, -⟩ | ⟨-, e⟩
  · exact absurd ht (h r hr)
  · exact e

theorem valueFacet_ok {n f t} : valueFacet n f = .ok t ↔ ∃ v, n.attr "value".toList = some v ∧ t = .facet (f v) := by
  unfold valueFacet attrValue
  cases n.attr "value".toList with
  | none => exact ⟨fun h => (nomatch h), fun ⟨_, h, _⟩ => (nomatch h)⟩
  | some v =>
    constructor
    · intro h; exact ⟨v, rfl, (Res.ok.inj h).symm⟩
    · rintro ⟨w, hw, rfl⟩; cases hw; rfl

def wsRows : List (Str × Res ElementType) :=
  whiteSpaceValues.map fun r => (r.1.toList, .ok (.facet (.whiteSpace r.2)))

theorem whiteSpaceFacet_ok {n t} : whiteSpaceFacet n = .ok t ↔
    ∃ s w, (s, w) ∈ whiteSpaceValues ∧ n.attr "value".toList = some s.toList ∧ t = .facet (.whiteSpace w) := by
  unfold whiteSpaceFacet attrValue
  cases n.attr "value".toList with
  | none => exact ⟨fun h => (nomatch h), fun ⟨_, _, _, h, _⟩ => (nomatch h)⟩
  | some v =>
    show chain .panic v wsRows = .ok t ↔ _
    constructor
    · intro h
      rcases chain_cases .panic v wsRows with ⟨r, hr, hv, e⟩ | ⟨-, e⟩
      · obtain ⟨⟨s, w⟩, hs, rfl⟩ := List.mem_map.1 hr
        rw [e] at h
        exact ⟨s, w, hs, congrArg some hv, (Res.ok.inj h).symm⟩
      · rw [e] at h; cases h
    · rintro ⟨s, w, hm, hv, rfl⟩
      obtain rfl := Option.some.inj hv
      exact chain_mem .panic (rows := wsRows) (by decide +kernel) (List.mem_map_of_mem (f := fun r : String × WhiteSpace => (r.1.toList, (Res.ok (ElementType.facet (FacetType.whiteSpace r.2)) : Res ElementType))) hm)

def exRows : List (Str × ElementType) := extensionTags.map fun r => (r.1.toList, .extension r.2)
def reRows : List (Str × ElementType) := restrictionTags.map fun r => (r.1.toList, .restriction r.2)

theorem extensionType_chain (p : Str) : extensionType (some p) = chain .xsdError p exRows := rfl
theorem restrictionType_chain (p : Str) : restrictionType (some p) = chain .xsdError p reRows := rfl

theorem extensionType_kind {p : Option Str} {n : Node} (h : n.tag = "extension".toList) : KindOf p n (extensionType p) := by
  cases p with
  | none => exact .misplacedExtension h fun _ _ e => nomatch e
  | some p =>
    have e : extensionType (some p) = chain .xsdError p exRows := rfl
    rw [e]
    rcases chain_cases .xsdError p exRows with ⟨r, hr, ht, e⟩ | ⟨hn, e⟩
    · obtain ⟨⟨s, x⟩, hs, rfl⟩ := List.mem_map.1 hr
      rw [e]; exact .extension h hs (congrArg some ht)
    · rw [e]; exact .misplacedExtension h fun r hr e => hn _ (List.mem_map_of_mem hr) (Option.some.inj e)

theorem restrictionType_kind {p : Option Str} {n : Node} (h : n.tag = "restriction".toList) : KindOf p n (restrictionType p) := by
  cases p with
  | none => exact .misplacedRestriction h fun _ _ e => nomatch e
  | some p =>
    have e : restrictionType (some p) = chain .xsdError p reRows := rfl
    rw [e]
    rcases chain_cases .xsdError p reRows with ⟨r, hr, ht, e⟩ | ⟨hn, e⟩
    · obtain ⟨⟨s, x⟩, hs, rfl⟩ := List.mem_map.1 hr
      rw [e]; exact .restriction h hs (congrArg some ht)
    · rw [e]; exact .misplacedRestriction h fun r hr e => hn _ (List.mem_map_of_mem hr) (Option.some.inj e)

/-- The rows of `xsd_type`, in the order of the code. -/
def codeRows (p : Option Str) (n : Node) : List (Str × Res ElementType) :=
  [("all".toList, .ok .all), ("annotation".toList, .ok .annotation), ("any".toList, .ok .any),
   ("anyAttribute".toList, .ok .anyAttribute), ("appInfo".toList, .ok .appInfo), ("attribute".toList, .ok .attribute),
   ("attributeGroup".toList, .ok .attributeGroup), ("choice".toList, .ok .choice),
   ("complexContent".toList, .ok .complexContent), ("complexType".toList, .ok .complexType),
   ("documentation".toList, .ok .documentation), ("element".toList, .ok .element),
   ("extension".toList, .ok (extensionType p)), ("field".toList, .ok .field), ("group".toList, .ok .group),
   ("import".toList, .ok .import), ("include".toList, .ok .include), ("key".toList, .ok .key),
   ("keyRef".toList, .ok .keyRef), ("list".toList, .ok .list), ("notation".toList, .ok .notation),
   ("redefine".toList, .ok .redefine), ("restriction".toList, .ok (restrictionType p)), ("schema".toList, .ok .schema),
   ("selector".toList, .ok .selector), ("sequence".toList, .ok .sequence), ("simpleContent".toList, .ok .simpleContent),
   ("simpleType".toList, .ok .simpleType), ("union".toList, .ok .union), ("unique".toList, .ok .unique),
   ("enumeration".toList, valueFacet n .enumeration), ("fractionDigits".toList, valueFacet n .fractionDigits),
   ("length".toList, valueFacet n .length), ("maxExclusive".toList, valueFacet n .maxExclusive),
   ("maxInclusive".toList, valueFacet n .maxInclusive), ("maxLength".toList, valueFacet n .maxLength),
   ("minExclusive".toList, valueFacet n .minExclusive), ("minInclusive".toList, valueFacet n .minInclusive),
   ("minLength".toList, valueFacet n .minLength), ("pattern".toList, valueFacet n .pattern),
   ("totalDigits".toList, valueFacet n .totalDigits), ("whiteSpace".toList, whiteSpaceFacet n)]

theorem xsdType_chain (p : Option Str) (n : Node) :
    xsdType p n = chain (.ok (.unknownElement n.tag)) n.tag (codeRows p n) := rfl

def tagNames : List Str :=
  ["all", "annotation", "any", "anyAttribute", "appInfo", "attribute", "attributeGroup", "choice", "complexContent",
   "complexType", "documentation", "element", "extension", "field", "group", "import", "include", "key", "keyRef",
   "list", "notation", "redefine", "restriction", "schema", "selector", "sequence", "simpleContent", "simpleType",
   "union", "unique", "enumeration", "fractionDigits", "length", "maxExclusive", "maxInclusive", "maxLength",
   "minExclusive", "minInclusive", "minLength", "pattern", "totalDigits", "whiteSpace"].map String.toList

theorem rows_names (p : Option Str) (n : Node) : (codeRows p n).map (·.1) = tagNames := rfl

theorem nodup_rows (p : Option Str) (n : Node) : ((codeRows p n).map (·.1)).Nodup := by
  rw [rows_names]; decide +kernel

theorem known_names : ∀ s ∈ knownTags, s.toList ∈ tagNames := by decide +kernel
theorem names_known : ∀ s ∈ tagNames, s ∈ knownTags.map String.toList := by decide +kernel

theorem rows_kind (p : Option Str) (n : Node) (t : ElementType) :
    ∀ r ∈ codeRows p n, n.tag = r.1 → r.2 = .ok t → KindOf p n t := by
  unfold codeRows
  repeat' refine List.forall_mem_cons.2 ⟨?_, ?_⟩
  all_goals first
    | exact fun ht h => (Res.ok.inj h) ▸ extensionType_kind ht
    | exact fun ht h => (Res.ok.inj h) ▸ restrictionType_kind ht
    | exact fun ht h => (Res.ok.inj h) ▸ .plain (List.mem_of_elem_eq_true rfl) ht
    | exact fun ht h => by
        obtain ⟨v, hv, rfl⟩ := valueFacet_ok.1 h
        exact .facet (f := .enumeration) (s := "enumeration") (.head _) ht hv
    | exact fun ht h => by
        obtain ⟨v, hv, rfl⟩ := valueFacet_ok.1 h
        exact .facet (by repeat (first | exact .head _ | apply List.Mem.tail)) ht hv
    | exact fun ht h => by
        obtain ⟨s, w, hm, hv, rfl⟩ := whiteSpaceFacet_ok.1 h
        exact .whiteSpace ht hm hv
    | exact fun _ h => nomatch h

theorem xsdType_kind {p : Option Str} {n : Node} {t : ElementType} (h : xsdType p n = .ok t) : KindOf p n t := by
  rw [xsdType_chain] at h
  rcases chain_cases (.ok (.unknownElement n.tag)) n.tag (codeRows p n) with ⟨r, hr, ht, e⟩ | ⟨hn, e⟩
  · exact rows_kind p n t r hr ht (e ▸ h)
  · rw [e] at h
    obtain rfl := Res.ok.inj h
    refine .unknown fun s hs e => ?_
    have := known_names s hs
    rw [← rows_names p n] at this
    obtain ⟨r, hr, hr'⟩ := List.mem_map.1 this
    exact hn r hr (e.trans hr'.symm)

theorem at_row {p : Option Str} {n : Node} (k : Nat) {r : Str × Res ElementType} (h : (codeRows p n)[k]? = some r) :
    r ∈ codeRows p n := List.mem_of_getElem? h

theorem plain_rows (p : Option Str) (n : Node) : ∀ r ∈ plainTags, (r.1.toList, Res.ok r.2) ∈ codeRows p n := by
  unfold plainTags
  refine List.forall_mem_cons.2 ⟨at_row 0 rfl, ?_⟩
  refine List.forall_mem_cons.2 ⟨at_row 1 rfl, ?_⟩
  refine List.forall_mem_cons.2 ⟨at_row 2 rfl, ?_⟩
  refine List.forall_mem_cons.2 ⟨at_row 3 rfl, ?_⟩
  refine List.forall_mem_cons.2 ⟨at_row 4 rfl, ?_⟩
  refine List.forall_mem_cons.2 ⟨at_row 5 rfl, ?_⟩
  refine List.forall_mem_cons.2 ⟨at_row 6 rfl, ?_⟩
  refine List.forall_mem_cons.2 ⟨at_row 7 rfl, ?_⟩
  refine List.forall_mem_cons.2 ⟨at_row 8 rfl, ?_⟩
  refine List.forall_mem_cons.2 ⟨at_row 9 rfl, ?_⟩
  refine List.forall_mem_cons.2 ⟨at_row 10 rfl, ?_⟩
  refine List.forall_mem_cons.2 ⟨at_row 11 rfl, ?_⟩
  refine List.forall_mem_cons.2 ⟨at_row 13 rfl, ?_⟩
  refine List.forall_mem_cons.2 ⟨at_row 14 rfl, ?_⟩
  refine List.forall_mem_cons.2 ⟨at_row 15 rfl, ?_⟩
  refine List.forall_mem_cons.2 ⟨at_row 16 rfl, ?_⟩
  refine List.forall_mem_cons.2 ⟨at_row 17 rfl, ?_⟩
  refine List.forall_mem_cons.2 ⟨at_row 18 rfl, ?_⟩
  refine List.forall_mem_cons.2 ⟨at_row 19 rfl, ?_⟩
  refine List.forall_mem_cons.2 ⟨at_row 20 rfl, ?_⟩
  refine List.forall_mem_cons.2 ⟨at_row 21 rfl, ?_⟩
  refine List.forall_mem_cons.2 ⟨at_row 23 rfl, ?_⟩
  refine List.forall_mem_cons.2 ⟨at_row 24 rfl, ?_⟩
  refine List.forall_mem_cons.2 ⟨at_row 25 rfl, ?_⟩
  refine List.forall_mem_cons.2 ⟨at_row 26 rfl, ?_⟩
  refine List.forall_mem_cons.2 ⟨at_row 27 rfl, ?_⟩
  refine List.forall_mem_cons.2 ⟨at_row 28 rfl, ?_⟩
  refine List.forall_mem_cons.2 ⟨at_row 29 rfl, ?_⟩
  exact fun _ h => nomatch h

theorem facet_rows (p : Option Str) (n : Node) : ∀ r ∈ facetTags, (r.1.toList, valueFacet n r.2) ∈ codeRows p n := by
  unfold facetTags
  refine List.forall_mem_cons.2 ⟨at_row 30 rfl, ?_⟩
  refine List.forall_mem_cons.2 ⟨at_row 31 rfl, ?_⟩
  refine List.forall_mem_cons.2 ⟨at_row 32 rfl, ?_⟩
  refine List.forall_mem_cons.2 ⟨at_row 33 rfl, ?_⟩
  refine List.forall_mem_cons.2 ⟨at_row 34 rfl, ?_⟩
  refine List.forall_mem_cons.2 ⟨at_row 35 rfl, ?_⟩
  refine List.forall_mem_cons.2 ⟨at_row 36 rfl, ?_⟩
  refine List.forall_mem_cons.2 ⟨at_row 37 rfl, ?_⟩
  refine List.forall_mem_cons.2 ⟨at_row 38 rfl, ?_⟩
  refine List.forall_mem_cons.2 ⟨at_row 39 rfl, ?_⟩
  refine List.forall_mem_cons.2 ⟨at_row 40 rfl, ?_⟩
  exact fun _ h => nomatch h

theorem row_type {p : Option Str} {n : Node} {r : Str × Res ElementType} (hr : r ∈ codeRows p n) (ht : n.tag = r.1) :
    xsdType p n = r.2 := by
  rw [xsdType_chain, ht]
  exact chain_mem _ (nodup_rows p n) hr

theorem kind_xsdType {p : Option Str} {n : Node} {t : ElementType} (h : KindOf p n t) : xsdType p n = .ok t := by
  cases h with
  | plain hm ht => exact row_type (plain_rows p n _ hm) ht
  | facet hm ht hv =>
    rw [row_type (facet_rows p n _ hm) ht]
    exact valueFacet_ok.2 ⟨_, hv, rfl⟩
  | whiteSpace ht hm hv =>
    rw [row_type (r := ("whiteSpace".toList, whiteSpaceFacet n)) (at_row 41 rfl) ht]
    exact whiteSpaceFacet_ok.2 ⟨_, _, hm, hv, rfl⟩
  | extension ht hm hp =>
    rw [row_type (r := ("extension".toList, .ok (extensionType p))) (at_row 12 rfl) ht, hp]
    show Res.ok (extensionType _) = _
    rw [extensionType_chain]
    exact congrArg Res.ok (chain_mem .xsdError (rows := exRows) (by decide +kernel)
      (List.mem_map_of_mem (f := fun r : String × ExtensionType => (r.1.toList, ElementType.extension r.2)) hm))
  | restriction ht hm hp =>
    rw [row_type (r := ("restriction".toList, .ok (restrictionType p))) (at_row 22 rfl) ht, hp]
    show Res.ok (restrictionType _) = _
    rw [restrictionType_chain]
    exact congrArg Res.ok (chain_mem .xsdError (rows := reRows) (by decide +kernel)
      (List.mem_map_of_mem (f := fun r : String × RestrictionType => (r.1.toList, ElementType.restriction r.2)) hm))
  | misplacedExtension ht hp =>
    rw [row_type (r := ("extension".toList, .ok (extensionType p))) (at_row 12 rfl) ht]
    cases p with
    | none => rfl
    | some q =>
      refine congrArg Res.ok (chain_default (rows := exRows) ?_)
      intro r hr e
      obtain ⟨r, hr', rfl⟩ := List.mem_map.1 hr
      exact hp r hr' (congrArg some e)
  | misplacedRestriction ht hp =>
    rw [row_type (r := ("restriction".toList, .ok (restrictionType p))) (at_row 22 rfl) ht]
    cases p with
    | none => rfl
    | some q =>
      refine congrArg Res.ok (chain_default (rows := reRows) ?_)
      intro r hr e
      obtain ⟨r, hr', rfl⟩ := List.mem_map.1 hr
      exact hp r hr' (congrArg some e)
  | unknown hn =>
    rw [xsdType_chain]
    refine chain_default ?_
    intro r hr e
    have h1 : r.1 ∈ tagNames := by rw [← rows_names p n]; exact List.mem_map_of_mem hr
    obtain ⟨s, hs, hs'⟩ := List.mem_map.1 (names_known _ h1)
    exact hn s hs (e.trans hs'.symm)

theorem xsdType_iff {p : Option Str} {n : Node} {t : ElementType} : xsdType p n = .ok t ↔ KindOf p n t :=
  ⟨xsdType_kind, kind_xsdType⟩

theorem valueFacet_ne_err {n f} : valueFacet n f ≠ .err := by
  unfold valueFacet
  cases attrValue n <;> exact fun h => nomatch h

theorem whiteSpaceFacet_ne_err {n} : whiteSpaceFacet n ≠ .err := by
  unfold whiteSpaceFacet
  cases attrValue n with
  | none => exact fun h => nomatch h
  | some v =>
    show chain .panic v wsRows ≠ .err
    rcases chain_cases .panic v wsRows with ⟨r, hr, -, e⟩ | ⟨-, e⟩
    · obtain ⟨s, -, rfl⟩ := List.mem_map.1 hr
      rw [e]; exact fun h => nomatch h
    · rw [e]; exact fun h => nomatch h

theorem xsdType_ne_err {p : Option Str} {n : Node} : xsdType p n ≠ .err := by
  rw [xsdType_chain]
  rcases chain_cases (.ok (.unknownElement n.tag)) n.tag (codeRows p n) with ⟨r, hr, ht, e⟩ | ⟨hn, e⟩
  · rw [e]
    have : ∀ r ∈ codeRows p n, r.2 ≠ .err := by
      unfold codeRows
      repeat' refine List.forall_mem_cons.2 ⟨?_, ?_⟩
      all_goals first
        | exact valueFacet_ne_err
        | exact whiteSpaceFacet_ne_err
        | exact fun h => (nomatch h : False)
        | exact fun _ h => absurd h List.not_mem_nil
    exact this r hr
  · rw [e]; exact fun h => nomatch h

/-! ## The kinds one by one -/

theorem plain_inj : ∀ r ∈ plainTags, ∀ r' ∈ plainTags, r.2 = r'.2 → r.1 = r'.1 := by decide +kernel

/-- The kinds which come with the tag alone. -/
def isPlain : ElementType → Bool
  | .facet _ | .extension _ | .restriction _ | .unknownElement _ | .xsdError => false
  | _ => true

theorem plain_isPlain : ∀ r ∈ plainTags, isPlain r.2 = true := by decide +kernel

theorem plain_iff {s : String} {t : ElementType} (h : (s, t) ∈ plainTags) {p : Option Str} {n : Node} :
    KindOf p n t ↔ n.tag = s.toList := by
  refine ⟨fun hk => ?_, .plain h⟩
  have hp := plain_isPlain _ h
  cases hk with
  | plain hm ht => exact ht.trans (congrArg String.toList (plain_inj _ hm _ h rfl))
  | _ => cases hp

theorem type_iff {s : String} {t : ElementType} (h : (s, t) ∈ plainTags) {p : Option Str} {n : Node} :
    xsdType p n = .ok t ↔ n.tag = s.toList := xsdType_iff.trans (plain_iff h)

theorem known_mem {s : String} (h : s ∈ knownTags) {p : Option Str} {n : Node} (ht : n.tag = s.toList) {t : Str} :
    ¬ KindOf p n (.unknownElement t) := by
  intro hk
  cases hk with
  | plain hm _ => exact absurd hm (by simp [plainTags])
  | unknown hn => exact hn s h ht

end Verif.Lemmas.Parse
