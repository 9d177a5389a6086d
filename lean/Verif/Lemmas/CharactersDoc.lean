import Verif.Lemmas.Characters
import Verif.Lemmas.Service

/-!
# Documents and Unicode tables
-/

namespace Verif.Lemmas.Chars

open Verif Verif.Model Verif.RoXml Verif.Spec Verif.Lemmas.Parse

variable {U V : UnicodeTable}

theorem mapM'_same {α β : Type} {f g : α → Res β} : ∀ {l : List α}, (∀ a ∈ l, f a = g a) → Res.mapM' f l = Res.mapM' g l
  | [], _ => rfl
  | a :: l, h => by
    rw [Res.mapM', Res.mapM', h a List.mem_cons_self, mapM'_same fun b hb => h b (List.mem_cons_of_mem _ hb)]

theorem bind_same {α β : Type} {x : Res α} {f g : α → Res β} (h : ∀ a, x = .ok a → f a = g a) : x.bind f = x.bind g := by
  cases x with
  | ok a => exact h a rfl
  | err => rfl
  | panic => rfl

/-- The nodes below (and with) `root` have only agreed names. -/
def Clean (U V : UnicodeTable) (n : Node) : Prop := ∀ c, InNames n c → SameClasses U V c

theorem within_trans {a b c : Node} (h1 : Within a b) (h2 : Within b c) : Within a c := by
  induction h2 with
  | root => exact h1
  | child _ hc ih => exact .child ih hc

theorem clean_child {n c : Node} (h : Clean U V n) (hc : c ∈ n.children) : Clean U V c := by
  rintro ch ⟨m, hm, r⟩
  exact h ch ⟨m, within_trans (.child .root hc) hm, r⟩

theorem clean_within {root n : Node} (h : Clean U V root) (hn : Within root n) : Clean U V n := by
  rintro ch ⟨m, hm, r⟩
  exact h ch ⟨m, within_trans hn hm, r⟩

theorem clean_attr {n : Node} {v : Str} (h : Clean U V n) (a : String) (ha : a ∈ nameAttributes) (hv : n.attr a.toList = some v) :
    Agreed U V v := fun c hc => h c ⟨n, .root, a, ha, v, hv, hc⟩

theorem enumeration_value {n : Node} {p : Option Str} {v : Str} (h : xsdType p n = .ok (.facet (.enumeration v))) :
    n.attr "value".toList = some v := by
  have hk := xsdType_kind h
  generalize ht : ElementType.facet (.enumeration v) = t at hk
  cases hk with
  | plain hp _ => have := plain_isPlain _ hp; rw [← ht] at this; cases this
  | @facet s g w hf hs ha =>
    have e := ElementType.facet.inj ht
    rw [ha]
    have hall : ∀ r ∈ facetTags, ∀ w v, FacetType.enumeration v = r.2 w → w = v := by
      intro r hr w v hv
      simp only [facetTags, List.mem_cons, List.not_mem_nil, or_false] at hr
      rcases hr with rfl | rfl | rfl | rfl | rfl | rfl | rfl | rfl | rfl | rfl | rfl <;> first | exact (FacetType.enumeration.inj hv).symm | cases hv
    rw [hall _ hf w v e]
  | whiteSpace _ _ _ => cases ht
  | «extension» => cases ht
  | restriction => cases ht
  | misplacedExtension => cases ht
  | misplacedRestriction => cases ht
  | unknown => cases ht

theorem simple_same {v : Str} (h : Agreed U V v) : isSimpleEnumeration U v = isSimpleEnumeration V v := by
  unfold isSimpleEnumeration
  congr 1
  rw [Bool.eq_iff_iff, List.all_eq_true, List.all_eq_true]
  exact forall₂_congr fun c hc => by rw [(h c hc).alphanumeric]

theorem parsePlace_same {c : Place} (hk : ∀ k ∈ c.kids, Clean U V k.1) : parsePlace U c = parsePlace V c := by
  have hs : isSimpleEnumerations U c = isSimpleEnumerations V c := by
    unfold isSimpleEnumerations
    refine bind_same fun ks hks => ?_
    congr 1
    rw [Bool.eq_iff_iff, List.all_eq_true, List.all_eq_true]
    have hmem : ∀ k ∈ ks, k.2 ∈ c.kids ∧ xsdType (some c.node.tag) k.2.1 = .ok k.1 := by
      refine mapM'_forall hks fun a ha b hb => ?_
      obtain ⟨t, ht, hb⟩ := Res.bind_eq_ok.1 hb
      obtain rfl := Res.ok.inj hb
      exact ⟨ha, ht⟩
    refine forall₂_congr fun k hm => ?_
    obtain ⟨h1, h2⟩ := hmem k hm
    generalize e : k.1 = t at h2
    cases t with
    | facet f =>
      cases f with
      | enumeration v =>
        dsimp only
        rw [simple_same (clean_attr (hk _ h1) "value" (by decide) (enumeration_value h2))]
      | _ => rfl
    | _ => rfl
  unfold parsePlace parseRestriction simpleTypeRestriction
  rw [hs]

/-- Parsing is the same with both tables. -/
theorem parseNode_same (n p : Node) (above : List Node) (h : Clean U V n) : parseNode U n p above = parseNode V n p above := by
  have e : placeOf U n p above = placeOf V n p above := by
    unfold placeOf
    congr 1
    refine List.map_congr_left fun k hk => ?_
    have := child_size hk
    rw [parseNode_same k n (p :: above) (clean_child h hk)]
  rw [parseNode_eq, parseNode_eq, e, parsePlace_same]
  intro k hk
  obtain ⟨c, hc, rfl⟩ := List.mem_map.1 hk
  exact clean_child h hc
termination_by sizeOf n

theorem parseSchema_same {s : Node} (above : List Node) (h : Clean U V s) : parseSchema U s above = parseSchema V s above := by
  unfold parseSchema
  refine bind_same fun ks hks => ?_
  have hmem : ∀ k ∈ ks, k.2 ∈ s.children := by
    refine mapM'_forall hks fun a ha b hb => ?_
    obtain ⟨t, ht, hb⟩ := Res.bind_eq_ok.1 hb
    obtain rfl := Res.ok.inj hb
    exact ha
  have hp : ∀ k ∈ ks, parseNode U k.2 s above = parseNode V k.2 s above := fun k hk =>
    parseNode_same _ _ _ (clean_child h (hmem k hk))
  rw [mapM'_same fun k hk => hp k (List.mem_filter.1 hk).1]
  refine bind_same fun types _ => ?_
  rw [mapM'_same fun k hk => hp k (List.mem_filter.1 hk).1]

theorem parseFile_same {root : Node} (h : Clean U V root) : parseFile U root = parseFile V root := by
  unfold parseFile
  rw [parseSchema_same [] h]

/-! ## The texts -/

theorem agreed_natStr (i : Nat) : Agreed U V (Str.natStr i) := by
  refine agreed_ascii fun c hc => ?_
  have h := List.all_eq_true.1 (Str.allDigits_natStr i) c hc
  unfold Str.isAsciiDigit at h
  simp only [Bool.and_eq_true, decide_eq_true_eq] at h
  have : c.toNat ≤ 57 := h.2
  omega

theorem mem_splitOn {c d : Char} {s w : Str} (hw : w ∈ Str.splitOn c s) (hd : d ∈ w) : d ∈ s := by
  have h := Gen.splitOn_intercalate (c := c) (s := s)
  rw [← h, List.intercalate, List.mem_flatten]
  refine ⟨w, ?_, hd⟩
  generalize Str.splitOn c s = l at hw
  clear h
  induction l with
  | nil => cases hw
  | cons x l ih =>
    cases l with
    | nil => exact hw
    | cons y l =>
      rw [List.intersperse_cons_cons]
      rcases List.mem_cons.1 hw with rfl | hw
      · exact List.mem_cons_self
      · exact List.mem_cons_of_mem _ (List.mem_cons_of_mem _ (ih hw))

theorem sources_clean {root : Node} (h : Clean U V root) : Sources (Within root) (Within root) (charPreds U V) where
  hered n hn c hc := .child hn (mem_members.1 hc).1
  mono _ h := h
  owner hn hv := clean_attr (clean_within h hn) "name" (by decide) hv
  name hn hv := clean_attr (clean_within h hn) "name" (by decide) hv
  ref hn hv := clean_attr (clean_within h hn) "ref" (by decide) hv
  type hn hv := clean_attr (clean_within h hn) "type" (by decide) hv
  base hn hv := clean_attr (clean_within h hn) "base" (by decide) hv
  itemType hn hv := clean_attr (clean_within h hn) "itemType" (by decide) hv
  memberTypes {n v w} hn hv hw _ := by
    have hc : Agreed U V w := fun c hc => clean_attr (clean_within h hn) "memberTypes" (by decide) hv c (mem_splitOn hw hc)
    exact ⟨hc, hc⟩
  facet hn hf := fun v hv => clean_attr (clean_within h hn) "value" (by decide) (enumeration_value (hv ▸ hf))
  enumeration hf _ := hf _ rfl
  namespace' _ := trivial
  location _ := trivial
  name_type hv := hv
  name_case hv := hv
  name_import _ := trivial
  suffix hv := ⟨agreed_append.2 ⟨hv, agreed_ascii (by decide)⟩, agreed_append.2 ⟨hv, agreed_ascii (by decide)⟩,
    agreed_append.2 ⟨hv, agreed_ascii (by decide)⟩⟩
  constants := by
    intro v hv
    refine agreed_ascii ?_
    revert v
    decide
  field hn ht := ⟨hn, ht⟩
  marker hn hv := ⟨agreed_ascii (by decide), clean_attr (clean_within h hn) "base" (by decide) hv⟩
  rename hn hr := ⟨hn, hr.2⟩
  numbered i := ⟨agreed_append.2 ⟨agreed_ascii (by decide), agreed_natStr i⟩,
    agreed_append.2 ⟨agreed_ascii (by decide), agreed_natStr i⟩⟩

/-- The code for a schema. -/
theorem convertXsd_same {root : Node} (h : Clean U V root) : convertXsd U root = convertXsd V root := by
  unfold convertXsd
  rw [parseFile_same h]
  exact bind_same fun f hf => generateRsFile_same (parseFile_texts (sources_clean h) .root hf).1

/-- The code for a schema embedded in a document. -/
theorem embedded_same {root s : Node} {above : List Node} (h : Clean U V root) (hs : Within root s)
    (ha : ∀ a ∈ above, Within root a) :
    ((parseSchema U s above).bind fun f => (generateRsFile U f).1) = (parseSchema V s above).bind fun f => (generateRsFile V f).1 := by
  rw [parseSchema_same above (clean_within h hs)]
  refine bind_same fun f hf => generateRsFile_same ?_
  obtain ⟨ks, hks, hf⟩ := Res.bind_eq_ok.1 hf
  obtain ⟨types, h1, hf⟩ := Res.bind_eq_ok.1 hf
  obtain ⟨groups, -, hf⟩ := Res.bind_eq_ok.1 hf
  obtain rfl := Res.ok.inj hf
  have hmem : ∀ k ∈ ks, k.2 ∈ s.children := by
    refine mapM'_forall hks fun a ha b hb => ?_
    obtain ⟨t, ht, hb⟩ := Res.bind_eq_ok.1 hb
    obtain rfl := Res.ok.inj hb
    exact ha
  exact mapM'_forall h1 fun k hk e he =>
    parseNode_texts (sources_clean h) (.child hs (hmem k (List.mem_filter.1 hk).1)) hs ha he

/-! ## Services -/

open Verif.Model.Wsdl Verif.Spec.Wsdl Verif.Lemmas.Wsdl

theorem within_kids {root n c : Node} {t : String} (hn : Within root n) (hc : c ∈ kids n t) : Within root c :=
  .child hn (List.mem_filter.1 hc).1

theorem arg_agreed {root p : Node} {a : Arg} (h : Clean U V root) (hp : Within root p) (ha : PartArg p a) : Agreed U V a.2 := by
  cases ha with
  | element _ h2 => exact clean_attr (clean_within h hp) "element" (by decide) h2
  | type _ _ h2 => exact clean_attr (clean_within h hp) "type" (by decide) h2

theorem args_agreed {root : Node} {m : Option Node} {as : List Arg} (h : Clean U V root) (hm : ∀ n, m = some n → Within root n)
    (ha : Args m as) : ∀ a ∈ as, Agreed U V a.2 := by
  cases ha with
  | none => exact fun _ h => by cases h
  | single hk ht =>
    intro a ha
    obtain rfl := List.mem_singleton.1 ha
    exact clean_attr (clean_within h (within_kids (hm _ rfl) (by rw [hk]; exact List.mem_cons_self))) "element" (by decide) ht
  | parts _ hf =>
    intro a ha
    obtain ⟨p, hp, hpa⟩ := forall₂_right hf ha
    exact arg_agreed h (within_kids (hm _ rfl) hp) hpa

theorem ret_agreed {root : Node} {m : Option Node} {r : Option Str} (h : Clean U V root) (hm : ∀ n, m = some n → Within root n)
    (hr : Spec.Wsdl.Returns m r) : Agreed U V (r.getD []) := by
  cases hr with
  | none => exact agreed_nil
  | @part m p ps hk =>
    cases e : p.attr "element".toList with
    | none => exact agreed_nil
    | some t =>
      exact clean_attr (clean_within h (within_kids (hm _ rfl) (by rw [hk]; exact List.mem_cons_self))) "element" (by decide) e

theorem refers_within {root param : Node} {m : Option Node} (h : Refers root param m) : ∀ n, m = some n → Within root n := by
  rintro n rfl
  cases h with
  | found _ _ hm _ => exact within_kids .root hm

theorem sig_agreed {root : Node} {op : Operation} {sig : Sig} (h : Clean U V root) (ho : Within root op.node)
    (hs : Signature root op sig) :
    Agreed U V sig.name ∧ (∀ a ∈ sig.args, Agreed U V a.2) ∧ Agreed U V (sig.ret.getD []) := by
  cases hs with
  | oneWay h1 h2 h3 h4 _ =>
    refine ⟨clean_attr (clean_within h ho) "name" (by decide) h4, args_agreed h (refers_within h1) h2, ?_⟩
    rw [h3]
    exact agreed_nil
  | requestResponse h1 h2 h3 h4 h5 _ =>
    exact ⟨clean_attr (clean_within h ho) "name" (by decide) h5, args_agreed h (refers_within h1) h3,
      ret_agreed h (refers_within h2) h4⟩

theorem functionText_same {sig : Sig} (tns : Option Namespace) (h1 : Agreed U V sig.name)
    (h2 : ∀ a ∈ sig.args, Agreed U V a.2) (h3 : Agreed U V (sig.ret.getD [])) :
    generateFunction U (toFunction sig) tns = generateFunction V (toFunction sig) tns := by
  have k1 : (toFunction sig).genericParams.map (fun p => p.name ++ ": ".toList ++ defaultFormatType U p.typename tns) =
      (toFunction sig).genericParams.map fun p => p.name ++ ": ".toList ++ defaultFormatType V p.typename tns := by
    refine List.map_congr_left fun p hp => ?_
    obtain rfl := List.mem_singleton.1 hp
    rw [formatType_same (agreed_ascii (by decide))]
  have k2 : (toFunction sig).arguments.map (fun p => p.name ++ ": &".toList ++ defaultFormatType U p.typename tns) =
      (toFunction sig).arguments.map fun p => p.name ++ ": &".toList ++ defaultFormatType V p.typename tns := by
    refine List.map_congr_left fun p hp => ?_
    rcases List.mem_cons.1 hp with rfl | hp
    · rw [formatType_same (agreed_ascii (by decide))]
    · obtain ⟨a, ha, rfl⟩ := List.mem_map.1 hp
      rw [formatType_same (s := (toParam a).typename) (h2 a ha)]
  unfold generateFunction
  dsimp only
  rw [k1, k2, formatName_same (s := (toFunction sig).name) h1, formatType_same (s := (toFunction sig).returnType) h3]

/-- The functions of a document. -/
theorem functions_same {root : Node} {d : Definitions} {order : List PortType} (h : Clean U V root) (hd : IsDefinitions root d)
    (hp : ∀ p ∈ order, p ∈ d.portTypes.map (·.2)) : Wsdl.generate U d order = Wsdl.generate V d order := by
  unfold Wsdl.generate
  rw [mapM'_same]
  intro op hop
  obtain ⟨p, hpo, hop⟩ := List.mem_flatMap.1 hop
  obtain ⟨n, hn, hnp⟩ := Service.entry_mem hd.portTypes (hp p hpo)
  obtain ⟨m, hm, hmo⟩ := forall₂_right hnp.2 hop
  refine bind_same fun f hf => ?_
  obtain ⟨sig, hs, rfl⟩ := (function_iff hd _ _).1 hf
  have hw : Within root op.node := by
    rw [hmo.1]
    exact within_kids (within_kids .root hn) hm
  obtain ⟨h1, h2, h3⟩ := sig_agreed h hw hs
  rw [functionText_same _ h1 h2 h3]

theorem wsdlCode_same {root : Node} {order : Definitions → List PortType} (h : Clean U V root)
    (hp : ∀ d, IsDefinitions root d → ∀ p ∈ order d, p ∈ d.portTypes.map (·.2)) : wsdlCode U root order = wsdlCode V root order := by
  unfold wsdlCode
  refine bind_same fun d hd => ?_
  have hd := (definitions_iff root d).1 hd
  rw [mapM'_same (g := fun (s : Node × Node) => (parseSchema V s.2 [s.1, root]).bind fun f => (generateRsFile V f).1),
    functions_same h hd (hp d hd)]
  intro s hs
  obtain ⟨t, ht, hs⟩ := List.mem_flatMap.1 hs
  obtain ⟨s, hm, rfl⟩ := List.mem_map.1 hs
  rw [hd.types] at ht
  have hw := within_kids (Within.root (root := root)) ht
  rw [Service.schemas_eq] at hm
  refine embedded_same h (within_kids hw hm) fun a ha => ?_
  rcases List.mem_cons.1 ha with rfl | ha
  · exact hw
  · obtain rfl := List.mem_singleton.1 ha
    exact .root

end Verif.Lemmas.Chars
