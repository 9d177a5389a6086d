import Verif.Lemmas.ExtendInv
import Verif.Lemmas.ParseSimple
import Verif.Model.Pipeline
import Verif.Spec.Document

/-! # From the document to the code: the texts which are copied -/

namespace Verif.Lemmas.Parse

open Verif Verif.Model Verif.RoXml Verif.Spec

theorem quoteSafe_append {s t : Str} (hs : QuoteSafe s) (ht : QuoteSafe t) : QuoteSafe (s ++ t) := by
  intro c hc
  rcases List.mem_append.1 hc with hc | hc
  · exact hs c hc
  · exact ht c hc

theorem prefixSafe_append {s t : Str} (hs : PrefixSafe s) (ht : ':' ∉ t) : PrefixSafe (s ++ t) := by
  intro p n h
  generalize hst : s ++ t = st at h
  cases h with
  | prefixed hp =>
    rcases List.append_eq_append_iff.1 hst with ⟨a, rfl, h2⟩ | ⟨a, rfl, h2⟩
    · exact absurd (h2 ▸ List.mem_append_right _ List.mem_cons_self) ht
    · cases a with
      | nil => exact absurd (show ':' ∈ t by rw [List.nil_append] at h2; rw [← h2]; exact List.mem_cons_self) ht
      | cons x a =>
        obtain rfl : ':' = x := (List.cons.inj h2).1
        exact hs p a (.prefixed hp)

theorem prefixSafe_bare {s : Str} (h : ':' ∉ s) : PrefixSafe s := by
  intro p n hr
  cases hr with
  | prefixed => exact absurd (List.mem_append_right _ List.mem_cons_self) h

theorem quoteSafe_natStr (i : Nat) : QuoteSafe (Str.natStr i) ∧ ':' ∉ Str.natStr i := by
  have h := List.all_eq_true.1 (Str.allDigits_natStr i)
  have hd : ∀ c, Str.isAsciiDigit c = true → c ≠ '"' ∧ c ≠ '\\' ∧ c ≠ '\n' ∧ c ≠ ':' := by
    intro c hc
    refine ⟨?_, ?_, ?_, ?_⟩ <;> rintro rfl <;> exact absurd hc (by decide)
  exact ⟨fun c hc => ⟨(hd c (h c hc)).1, (hd c (h c hc)).2.1, (hd c (h c hc)).2.2.1⟩,
    fun hc => (hd _ (h _ hc)).2.2.2 rfl⟩

instance (s : Str) : Decidable (QuoteSafe s) := inferInstanceAs (Decidable (∀ c ∈ s, _))

/-- The properties of the texts of entities for documents with `CopySafe`. -/
def copyPreds : Preds where
  R n t _ := (QuoteSafe n ∧ PrefixSafe n) ∧ PrefixSafe t
  N s := QuoteSafe s ∧ PrefixSafe s
  T s := PrefixSafe s
  C s := QuoteSafe s
  F f := ∀ v, facetBound f = some v → QuoteSafe v
  J s := '\n' ∉ s
  L s := '\n' ∉ s

theorem copy_const (s : String) (h1 : QuoteSafe s.toList) (h2 : ':' ∉ s.toList) : copyPreds.N s.toList :=
  ⟨h1, prefixSafe_bare h2⟩

theorem copy_suffix {v t : Str} (h : copyPreds.N v) (h1 : QuoteSafe t) (h2 : ':' ∉ t) : copyPreds.N (v ++ t) :=
  ⟨quoteSafe_append h.1 h1, prefixSafe_append h.2 h2⟩

theorem facet_value {n : Node} {p : Option Str} {f : FacetType} {v : Str} (h : xsdType p n = .ok (.facet f))
    (hv : facetBound f = some v) :
    n.tag ∈ ["minInclusive", "minExclusive", "maxInclusive", "maxExclusive"].map String.toList ∧
      n.attr "value".toList = some v := by
  have hk := xsdType_kind h
  generalize ht : ElementType.facet f = t at hk
  cases hk with
  | plain hp _ => have := plain_isPlain _ hp; rw [← ht] at this; cases this
  | @facet s g w hf hs ha =>
    obtain rfl := ElementType.facet.inj ht
    rw [ha, hs]
    have hall : ∀ r ∈ facetTags, ∀ w v, facetBound (r.2 w) = some v →
        r.1.toList ∈ ["minInclusive", "minExclusive", "maxInclusive", "maxExclusive"].map String.toList ∧ w = v := by
      intro r hr w v hv
      simp only [facetTags, List.mem_cons, List.not_mem_nil, or_false] at hr
      rcases hr with rfl | rfl | rfl | rfl | rfl | rfl | rfl | rfl | rfl | rfl | rfl <;>
        first | exact ⟨by decide, Option.some.inj hv⟩ | cases hv
    obtain ⟨h1, rfl⟩ := hall _ hf w v hv
    exact ⟨h1, rfl⟩
  | whiteSpace _ _ _ =>
    obtain rfl := ElementType.facet.inj ht
    cases hv
  | «extension» => cases ht
  | restriction => cases ht
  | misplacedExtension => cases ht
  | misplacedRestriction => cases ht
  | unknown => cases ht

theorem quoteSafe_simple {U : UnicodeTable} {v : Str} (h : isSimpleEnumeration U v = true) : QuoteSafe v := by
  intro c hc
  have h := List.all_eq_true.1 (Bool.and_eq_true_iff.1 h).2 c hc
  have hno : ∀ d : Char, d.toNat < 128 → asciiAlnum d = false → d ≠ '-' → c ≠ d := by
    rintro d h1 h2 h3 rfl
    rw [U.alnum_ascii c h1, h2, Bool.false_or, decide_eq_true_iff] at h
    exact h3 h
  exact ⟨hno '"' (by decide) (by decide) (by decide), hno '\\' (by decide) (by decide) (by decide),
    hno '\n' (by decide) (by decide) (by decide)⟩

theorem sources_copySafe {root : Node} (h : CopySafe root) : Sources (PartOf root) (PartOf root) copyPreds where
  hered n hn c hc := .child hn hc
  mono _ h := h
  owner hn hv := h.names _ "name" _ hn (by decide) hv
  name hn hv := h.names _ "name" _ hn (by decide) hv
  ref hn hv := h.names _ "ref" _ hn (by decide) hv
  type hn hv := h.types _ "type" _ hn (by decide) hv
  base hn hv := h.types _ "base" _ hn (by decide) hv
  itemType hn hv := h.types _ "itemType" _ hn (by decide) hv
  memberTypes hn hv hw hne := h.memberTypes _ _ _ _ hn hv (spaceSeparated_iff.2 rfl)
    (List.mem_filter.2 ⟨hw, decide_eq_true hne⟩)
  facet hn hf := fun v hv => h.bounds _ v hn (facet_value hf hv).1 (facet_value hf hv).2
  enumeration _ hs := quoteSafe_simple hs
  namespace' {n} hn := by
    cases ha : n.attr "namespace".toList with
    | none => exact List.not_mem_nil
    | some v => exact h.imports n "namespace" v hn (by decide) ha
  location {n} hn := by
    cases ha : n.attr "schemaLocation".toList with
    | none => exact List.not_mem_nil
    | some v => exact h.imports n "schemaLocation" v hn (by decide) ha
  name_type hv := hv.2
  name_case hv := hv.1
  name_import hv := fun hm => (hv.1 _ hm).2.2 rfl
  suffix hv := ⟨copy_suffix hv (by decide) (by decide), copy_suffix hv (by decide) (by decide),
    copy_suffix hv (by decide) (by decide)⟩
  constants := by
    intro v hv
    obtain ⟨s, hs, rfl⟩ := List.mem_map.1 hv
    have : ∀ s ∈ ["", "UnsupportedName", "SchemaElement", "UNSUPPORTED_ELEMENT_NAME", "UNSUPPORTED", "any",
        "any_attribute", "String"], QuoteSafe s.toList ∧ ':' ∉ s.toList := by decide
    exact copy_const s (this s hs).1 (this s hs).2
  field hn ht := ⟨hn, ht⟩
  marker hn hv := ⟨copy_const "__base__" (by decide) (by decide), h.types _ "base" _ hn (by decide) hv⟩
  rename hn hr := ⟨hn, hr.2⟩
  numbered i := by
    obtain ⟨h1, h2⟩ := quoteSafe_natStr i
    exact ⟨copy_suffix (copy_const "EnumCaseType_" (by decide) (by decide)) h1 h2,
      quoteSafe_append (by decide) h1⟩

theorem copy_safeTexts : ∀ e : RsEntity, copyPreds.entity e → SafeTexts e
  | .struct s, h => ⟨h.1.2, fun f hf => ⟨(h.2.2.1 f hf).1.1, (h.2.2.1 f hf).2⟩⟩
  | .tupleStruct t, h => ⟨h.1.2, h.2.1, fun f hf v hv => h.2.2.1 f hf v hv⟩
  | .enum e, h => ⟨h.1.2, h.2.1, h.2.2.1⟩
  | .structField f, h => ⟨h.1.1, h.2⟩
  | .enumCase c, h => h
  | .alias a, h => ⟨h.1.2, h.2.1⟩
  | .import i, h => ⟨h.2, h.1⟩

theorem mem_of_target {root : Node} {ns : Namespace} (h : targetNamespace root = some ns) : ns ∈ root.namespaces := by
  unfold targetNamespace at h
  cases ha : root.attr "targetNamespace".toList with
  | none => rw [ha] at h; cases h
  | some v => rw [ha] at h; exact List.mem_of_find?_eq_some h

/-- The parsed file has the target namespace of the schema element. -/
theorem parseFile_namespaces {U : UnicodeTable} {root : Node} {g : RsFile} (h : parseFile U root = .ok g) :
    g.targetNs = targetNamespace root ∧ g.xsdNs = xsdNamespace root := by
  obtain ⟨f, hf, h⟩ := Res.bind_eq_ok.1 h
  obtain ⟨ks, -, hf⟩ := Res.bind_eq_ok.1 hf
  obtain ⟨types, -, hf⟩ := Res.bind_eq_ok.1 hf
  obtain ⟨groups, -, hf⟩ := Res.bind_eq_ok.1 hf
  obtain rfl := Res.ok.inj hf
  obtain ⟨es, -, h⟩ := Res.bind_eq_ok.1 h
  obtain rfl := Res.ok.inj h
  exact ⟨rfl, rfl⟩

/-- Everything that is generated for a `CopySafe` document can be copied. -/
theorem parseFile_safe {U : UnicodeTable} {root : Node} {g : RsFile} (hs : CopySafe root)
    (h : parseFile U root = .ok g) : SafeNamespace g.targetNs ∧ ∀ x ∈ generatedList g.types, SafeTexts x := by
  refine ⟨?_, fun x hx => copy_safeTexts x
    (Deep.generatedList (parseFile_texts (sources_copySafe hs) .root h).1 x hx)⟩
  intro ns hns
  rw [(parseFile_namespaces h).1] at hns
  exact hs.namespaces ns (mem_of_target hns)

end Verif.Lemmas.Parse
