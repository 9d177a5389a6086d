import Verif.Lemmas.ParseItems
import Verif.Lemmas.ParseSchema
import Verif.Lemmas.GenDefs3

/-! # The definitions for a document -/

namespace Verif.Lemmas.Parse

open Verif Verif.Model Verif.RoXml Verif.Spec

/-! ## The definitions of entities outside modules -/

mutual
def entTop (doc : Option Str → Bool) : RsEntity → List Def
  | .struct (.mk n _ _ _ _) => [(.struct, n)]
  | .tupleStruct (.mk n _ _ ss _ _) => (.struct, n) :: entTops doc ss
  | .enum (.mk n _ _ _ ss _) => (.enum, n) :: entTops doc ss
  | .alias (.mk n _ c _) => if doc c then [(.type, n)] else []
  | _ => []
def entTops (doc : Option Str → Bool) : List RsEntity → List Def
  | [] => []
  | e :: es => entTop doc e ++ entTops doc es
end

section
variable {tn mn : Str → Str} {doc : Option Str → Bool}

mutual
theorem defsOf_path {path : List Str} (hp : path ≠ []) : ∀ e, ∀ d ∈ defsOf tn mn doc path e, d.1 ≠ []
  | .struct (.mk n c fs a ss), d, hd => by
    rw [defsOf] at hd
    rcases List.mem_cons.1 hd with rfl | hd
    · exact hp
    · have hq : path ++ [mn n] ≠ [] := by simp
      split at hd
      · rcases List.mem_cons.1 hd with rfl | hd
        · exact hp
        · rcases List.mem_append.1 hd with hd | hd
          · exact defsList_path hq ss d hd
          · exact defsFields_path hq fs d hd
      · cases hd
  | .tupleStruct (.mk n c t ss m f), d, hd => by
    rw [defsOf] at hd
    rcases List.mem_cons.1 hd with rfl | hd
    · exact hp
    · exact defsList_path hp ss d hd
  | .enum (.mk n cs c t ss s), d, hd => by
    rw [defsOf] at hd
    rcases List.mem_cons.1 hd with rfl | hd
    · exact hp
    · exact defsList_path hp ss d hd
  | .alias (.mk n o c s), d, hd => by
    rw [defsOf] at hd
    split at hd
    · obtain rfl := List.mem_singleton.1 hd; exact hp
    · cases hd
  | .structField f, d, hd => by
    rw [defsOf] at hd
    · cases hd
    all_goals (intros; rename_i h; cases h)
  | .enumCase f, d, hd => by
    rw [defsOf] at hd
    · cases hd
    all_goals (intros; rename_i h; cases h)
  | .import f, d, hd => by
    rw [defsOf] at hd
    · cases hd
    all_goals (intros; rename_i h; cases h)
theorem defsList_path {path : List Str} (hp : path ≠ []) : ∀ es, ∀ d ∈ defsList tn mn doc path es, d.1 ≠ []
  | [], d, hd => by rw [defsList] at hd; cases hd
  | e :: es, d, hd => by
    rw [defsList] at hd
    rcases List.mem_append.1 hd with hd | hd
    · exact defsOf_path hp e d hd
    · exact defsList_path hp es d hd
theorem defsFields_path {path : List Str} (hp : path ≠ []) : ∀ fs, ∀ d ∈ defsFields tn mn doc path fs, d.1 ≠ []
  | [], d, hd => by rw [defsFields] at hd; cases hd
  | .mk _ _ _ ss _ _ :: fs, d, hd => by
    rw [defsFields] at hd
    rcases List.mem_append.1 hd with hd | hd
    · exact defsList_path hp ss d hd
    · exact defsFields_path hp fs d hd
end

theorem topLevel_append (a b : List (List Str × DefKind × Str)) : topLevel (a ++ b) = topLevel a ++ topLevel b :=
  List.filterMap_append ..

theorem topLevel_deep {a : List (List Str × DefKind × Str)} (h : ∀ d ∈ a, d.1 ≠ []) : topLevel a = [] := by
  refine List.filterMap_eq_nil_iff.2 fun d hd => if_neg fun e => h d hd e.1

theorem topLevel_cons {k : DefKind} {n : Str} (hk : k ≠ .mod) (a : List (List Str × DefKind × Str)) :
    topLevel (([], k, n) :: a) = (k, n) :: topLevel a := by
  unfold topLevel
  rw [List.filterMap_cons_some]
  exact if_pos ⟨rfl, hk⟩

theorem topLevel_mod {n : Str} (a : List (List Str × DefKind × Str)) :
    topLevel (([], .mod, n) :: a) = topLevel a := by
  unfold topLevel
  rw [List.filterMap_cons_none]
  exact if_neg fun h => h.2 rfl

mutual
theorem topLevel_defsOf : ∀ e, topLevel (defsOf tn mn doc [] e) = (entTop doc e).map fun d => (d.1, tn d.2)
  | .struct (.mk n c fs a ss) => by
    rw [defsOf, entTop, topLevel_cons (by decide), List.map_singleton]
    congr 1
    split
    · rw [topLevel_mod]
      have hq : ([] : List Str) ++ [mn n] ≠ [] := by simp
      refine topLevel_deep fun d hd => ?_
      rcases List.mem_append.1 hd with hd | hd
      · exact defsList_path hq ss d hd
      · exact defsFields_path hq fs d hd
    · rfl
  | .tupleStruct (.mk n c t ss m f) => by
    rw [defsOf, entTop, topLevel_cons (by decide), List.map_cons, topLevel_defsList]
  | .enum (.mk n cs c t ss s) => by
    rw [defsOf, entTop, topLevel_cons (by decide), List.map_cons, topLevel_defsList]
  | .alias (.mk n o c s) => by
    rw [defsOf, entTop]
    split
    · rfl
    · rfl
  | .structField f => by
    rw [defsOf, entTop]
    · rfl
    all_goals (intros; rename_i h; cases h)
  | .enumCase f => by
    rw [defsOf, entTop]
    · rfl
    all_goals (intros; rename_i h; cases h)
  | .import f => by
    rw [defsOf, entTop]
    · rfl
    all_goals (intros; rename_i h; cases h)
theorem topLevel_defsList : ∀ es, topLevel (defsList tn mn doc [] es) = (entTops doc es).map fun d => (d.1, tn d.2)
  | [] => by rw [defsList, entTops]; rfl
  | e :: es => by rw [defsList, entTops, topLevel_append, List.map_append, topLevel_defsOf, topLevel_defsList]
end

theorem entTops_flatten (es : List RsEntity) : entTops doc es = (es.map (entTop doc)).flatten := by
  induction es with
  | nil => rw [entTops]; rfl
  | cons e es ih => rw [entTops, ih, List.map_cons, List.flatten_cons]

/-! ## The derivation step keeps them -/

theorem extendTop_top {map : Str → Option Nat} {es : List RsEntity} {i : Nat} {s s' : RStruct}
    (h : extendTop map es i s = .ok s') : entTop doc (.struct s') = entTop doc (.struct s) := by
  obtain ⟨n, c, fs, ag, sub⟩ := s
  unfold extendTop at h
  obtain ⟨fs', hfs, h⟩ := Res.bind_eq_ok.1 h
  obtain ⟨inh, hinh, h⟩ := Res.bind_eq_ok.1 h
  dsimp only at h
  obtain ⟨sub', hsub, h⟩ := Res.bind_eq_ok.1 h
  obtain ⟨gs, hgs, h⟩ := Res.bind_eq_ok.1 h
  obtain rfl := Res.ok.inj h
  rw [entTop, entTop]

theorem extendAll_top {map : Str → Option Nat} : ∀ {k i : Nat} {es es' : List RsEntity},
    extendAll map es i k = .ok es' → es'.map (entTop doc) = es.map (entTop doc)
  | 0, i, es, es', h => by rw [extendAll] at h; obtain rfl := Res.ok.inj h; rfl
  | k + 1, i, es, es', h => by
    unfold extendAll at h
    split at h
    · rename_i s hs
      obtain ⟨s', hs', h⟩ := Res.bind_eq_ok.1 h
      rw [extendAll_top h, List.map_set, extendTop_top hs']
      refine List.ext_getElem? fun j => ?_
      rw [List.getElem?_set]
      split
      · rename_i e
        subst e
        split
        · rw [List.getElem?_map, hs]; rfl
        · rename_i hlt
          rw [List.getElem?_eq_none (by omega)]
      · rfl
    · exact extendAll_top h

theorem extendFile_top {f g : RsFile} (h : extendFile f = .ok g) :
    g.types.map (entTop doc) = f.types.map (entTop doc) := by
  obtain ⟨es, hes, h⟩ := Res.bind_eq_ok.1 h
  obtain rfl := Res.ok.inj h
  show (es.take f.types.length).map (entTop doc) = _
  rw [List.map_take, extendAll_top hes, List.map_append, List.take_left' (by rw [List.length_map])]

end

/-! ## Simple types -/

theorem member_of_tag {n c : Node} (h : c ∈ n.children) {s : String} (ht : c.tag = s.toList) (hs : s.toList ≠ [])
    (ha : s.toList ≠ "annotation".toList) : c ∈ members n := by
  refine mem_members.2 ⟨h, ?_, by rw [ht]; exact ha⟩
  cases c with
  | element => rfl
  | text s' => exact absurd ht.symm hs
  | other => exact absurd ht.symm hs

theorem mem_withTags1 {n c : Node} {s : String} : c ∈ withTags n [s] ↔ c ∈ n.children ∧ c.tag = s.toList := by
  unfold withTags
  rw [List.mem_filter, List.any_cons, List.any_nil, Bool.or_false, decide_eq_true_iff]

/-- An enum or a wrapper, with this kind. -/
def Simple (k : DefKind) (e : RsEntity) : Prop :=
  (k = .enum ∧ ∃ s, e = .enum s) ∨ (k = .struct ∧ ∃ t, e = .tupleStruct t)

theorem simple_rename {doc : Option Str → Bool} {k : DefKind} {e : RsEntity} {ds : List Def} (hs : Simple k e)
    (h : entTop doc e = (k, e.name) :: ds) (nm : Str) :
    Simple k (e.setName nm) ∧ entTop doc (e.setName nm) = (k, nm) :: ds := by
  rcases hs with ⟨rfl, s, rfl⟩ | ⟨rfl, s, rfl⟩
  · cases s
    rw [entTop] at h
    refine ⟨.inl ⟨rfl, _, rfl⟩, ?_⟩
    rw [RsEntity.setName, entTop, (List.cons.inj h).2]
  · cases s
    rw [entTop] at h
    refine ⟨.inr ⟨rfl, _, rfl⟩, ?_⟩
    rw [RsEntity.setName, entTop, (List.cons.inj h).2]

theorem simple_redoc {doc : Option Str → Bool} {k : DefKind} {e : RsEntity} (hs : Simple k e) (c : Option Str) :
    Simple k (e.setComment c) ∧ entTop doc (e.setComment c) = entTop doc e ∧ (e.setComment c).name = e.name := by
  rcases hs with ⟨rfl, s, rfl⟩ | ⟨rfl, s, rfl⟩
  · cases s
    exact ⟨.inl ⟨rfl, _, rfl⟩, by rw [RsEntity.setComment, entTop, entTop], rfl⟩
  · cases s
    exact ⟨.inr ⟨rfl, _, rfl⟩, by rw [RsEntity.setComment, entTop, entTop], rfl⟩

theorem shape_own {U : UnicodeTable} {above : List Node} {n : Node} {own : Str} {ds : List Def}
    (h : SimpleShape U above n .struct own ds) : own = [] := by
  generalize hk : DefKind.struct = k at h
  cases h <;> first | rfl | cases hk

theorem union_shape {U : UnicodeTable} {doc : Option Str → Bool} {r p : Node} {above : List Node} :
    ∀ {cs : List Node} {i : Nat} {subs : List RsEntity},
    (∀ c ∈ cs, ∀ x, parseNode U c r (p :: above) = .ok x → ∃ k own ds, SimpleShape U (r :: p :: above) c k own ds ∧
      entTop doc x = (k, x.name) :: ds ∧ Simple k x) →
    List.Forall₂ (fun c s => ∃ x, parseNode U c.1 r (p :: above) = .ok x ∧
      Renamed ("EnumCaseType_".toList ++ numeral c.2) x s) (cs.zipIdx i) subs →
    UnionShape U (r :: p :: above) i cs (entTops doc subs)
  | [], i, subs, _, h => by
    rw [List.zipIdx_nil] at h
    cases h
    rw [entTops]
    exact .nil
  | c :: cs, i, subs, hc, h => by
    rw [List.zipIdx_cons] at h
    cases h with
    | @cons _ s _ subs h1 h2 =>
      obtain ⟨x, hx, hr⟩ := h1
      obtain ⟨k, own, ds, hs, ht, hk⟩ := hc c List.mem_cons_self x hx
      rw [renamed_iff.1 hr, entTops, (simple_rename hk ht _).2, List.cons_append]
      exact .cons hs (union_shape (fun c h => hc c (List.mem_cons_of_mem _ h)) h2)

/-- What a simple type becomes. -/
theorem simple_shape {U : UnicodeTable} {root : Node} (hg : Grammatical root) (doc : Option Str → Bool) (n p : Node)
    (above : List Node) (e : RsEntity) (hn : PartOf root n) (ht : n.tag = "simpleType".toList)
    (ha : ∀ a ∈ p :: above, NotFacet a) (h : parseNode U n p above = .ok e) :
    ∃ k own ds, SimpleShape U (p :: above) n k own ds ∧ entTop doc e = (k, e.name) :: ds ∧ Simple k e ∧
      (n.attr "name".toList = none → e.name = own) ∧ ∀ nm, n.attr "name".toList = some nm → e.name = nm := by
  obtain ⟨hname, -, r, x, y, hr, hx, hy, he⟩ := (simpleType_iff ht (ha p List.mem_cons_self)).1 h
  have hrm := List.mem_of_getLast? hr
  have hrp : PartOf root r := .child hn hrm
  have hnf : NotFacet n := notFacet_of (s := "simpleType") (by decide) ht
  -- it is enough to look at the member
  have key : ∀ k own ds, SimpleShape U (p :: above) n k own ds → entTop doc x = (k, x.name) :: ds → Simple k x →
      x.name = own → ∃ k own ds, SimpleShape U (p :: above) n k own ds ∧ entTop doc e = (k, e.name) :: ds ∧
        Simple k e ∧ (n.attr "name".toList = none → e.name = own) ∧
        ∀ nm, n.attr "name".toList = some nm → e.name = nm := by
    intro k own ds h1 h2 h3 h4
    refine ⟨k, own, ds, h1, ?_⟩
    rw [redocumented_iff.1 he]
    rw [renamedIf_iff.1 hy]
    cases hnm : n.attr "name".toList with
    | none =>
      obtain ⟨h5, h6, h7⟩ := simple_redoc (doc := doc) h3 (docOf n)
      exact ⟨by rw [setNameIf, h6, h7, h2], h5, fun _ => by rw [setNameIf, h7, h4], fun _ e => (by cases e)⟩
    | some nm =>
      obtain ⟨h8, h9⟩ := simple_rename h3 h2 nm
      obtain ⟨h5, h6, h7⟩ := simple_redoc (doc := doc) h8 (docOf n)
      have h10 : (x.setName nm).name = nm := deep_name _ rfl
      exact ⟨by rw [setNameIf, h6, h7, h9, h10], h5, fun e => (by cases e), fun m e => by
        obtain rfl := Option.some.inj e; rw [setNameIf, h7, h10]⟩
  have hinner : ∀ c ∈ withTags r ["simpleType"], ∀ z, (r.tag ≠ "schema".toList) → NotFacet r →
      parseNode U c r (n :: p :: above) = .ok z →
      ∃ k own ds, SimpleShape U (r :: n :: p :: above) c k own ds ∧ entTop doc z = (k, z.name) :: ds ∧ Simple k z ∧
        z.name = own := by
    intro c hc z hrs hrf hz
    obtain ⟨hc1, hc2⟩ := mem_withTags1.1 hc
    have hcm := member_of_tag hc1 hc2 (by decide) (by decide)
    have hfac : ∀ a ∈ r :: n :: p :: above, NotFacet a := by
      intro a ha'
      rcases List.mem_cons.1 ha' with rfl | ha'
      · exact hrf
      · rcases List.mem_cons.1 ha' with rfl | ha'
        · exact hnf
        · exact ha a ha'
    have h1 : sizeOf c < sizeOf r := child_size hc1
    have h2 : sizeOf r < sizeOf n := child_size (mem_members.1 hrm).1
    obtain ⟨k, own, ds, s1, s2, s3, s4, -⟩ := simple_shape hg doc c r (n :: p :: above) z (.child hrp hcm) hc2 hfac hz
    refine ⟨k, own, ds, s1, s2, s3, s4 ?_⟩
    obtain ⟨hno, -⟩ := (simpleType_iff hc2 hrf).1 hz
    cases hnm : c.attr "name".toList with
    | none => rfl
    | some v => exact absurd (hno.2 (by rw [hnm]; rfl)) hrs
  have htag := hg.rows ("simpleType", ["restriction", "list", "union"]) (by decide) n r hn ht hrm
  have htag : r.tag = "restriction".toList ∨ r.tag = "list".toList ∨ r.tag = "union".toList := by
    simpa using htag
  have hfac : ∀ a ∈ n :: p :: above, NotFacet a := by
    intro a ha'
    rcases List.mem_cons.1 ha' with rfl | ha'
    · exact hnf
    · exact ha a ha'
  rcases htag with htag | htag | htag
  · obtain ⟨base, fs, -, hfs, hro⟩ := (restriction_iff htag ht hfac).1 hx
    cases hro with
    | «enum» h1 h2 h3 => exact key _ _ _ (.enumeration hr htag hfs h1 h2 h3) rfl (.inl ⟨rfl, _, rfl⟩) rfl
    | wrapper h1 => exact key _ _ _ (.wrapper hr htag hfs h1) rfl (.inr ⟨rfl, _, rfl⟩) rfl
  · have hrs : r.tag ≠ "schema".toList := by rw [htag]; decide
    have hrf : NotFacet r := notFacet_of (s := "list") (by decide) htag
    rcases (list_iff htag).1 hx with ⟨t, h1, rfl⟩ | ⟨h1, c, z, hc, hz, hl⟩
    · exact key _ _ _ (.list hr htag h1) rfl (.inr ⟨rfl, _, rfl⟩) rfl
    · obtain ⟨k, own, ds, s1, s2, s3, s4⟩ := hinner c (List.mem_of_head? hc) z hrs hrf hz
      cases hl with
      | «enum» =>
        rcases s3 with ⟨rfl, -⟩ | ⟨-, _, e⟩
        · refine key _ _ _ (.listOfEnum hr htag h1 hc s1) ?_ (.inr ⟨rfl, _, rfl⟩) rfl
          rw [entTop, entTops, entTops, List.append_nil, s2, s4]
          rfl
        · cases e
      | wrapper =>
        rcases s3 with ⟨-, _, e⟩ | ⟨rfl, -⟩
        · cases e
        · obtain rfl := shape_own s1
          refine key _ _ _ (.listOfStruct hr htag h1 hc s1) ?_ (.inr ⟨rfl, _, rfl⟩) s4
          rw [entTop] at s2 ⊢
          rw [(List.cons.inj s2).2]
          rfl
  · have hrs : r.tag ≠ "schema".toList := by rw [htag]; decide
    have hrf : NotFacet r := notFacet_of (s := "union") (by decide) htag
    have hattr : withTags r ["attribute", "anyAttribute"] = [] := by
      refine List.eq_nil_iff_forall_not_mem.2 fun c hc => ?_
      obtain ⟨hc1, hc2⟩ := mem_withTags2.1 hc
      have hcm : c ∈ members r := by
        rcases hc2 with hc2 | hc2 <;> exact member_of_tag hc1 hc2 (by decide) (by decide)
      have := hg.rows ("union", ["simpleType"]) (by decide) r c hrp htag hcm
      rw [List.map_singleton, List.mem_singleton] at this
      rw [this] at hc2
      exact absurd hc2 (by decide)
    obtain ⟨-, ws, subs, -, hsubs, rfl⟩ := (union_iff htag hattr).1 hx
    refine key .enum [] (entTops doc subs) (.union hr htag ?_) rfl (.inl ⟨rfl, _, rfl⟩) rfl
    refine union_shape (fun c hc z hz => ?_) hsubs
    obtain ⟨k, own, ds, s1, s2, s3, -⟩ := hinner c hc z hrs hrf hz
    exact ⟨k, own, ds, s1, s2, s3⟩
termination_by sizeOf n

/-! ## Complex types -/

theorem content_kind {U : UnicodeTable} {root : Node} (hg : Grammatical root) {c n p : Node} {above : List Node}
    {x : RsEntity} (hc : PartOf root c) (ht : c.tag ∈ contentTags.map String.toList)
    (h : parseNode U c n (p :: above) = .ok x) :
    (c.tag = "choice".toList ∧ ∃ cs, x = .enum (.mk [] cs none "String".toList [] .choice)) ∨
      (c.tag ≠ "choice".toList ∧ ∃ s, x = .struct s) := by
  have hseq : ∀ d, parseSequence d = .ok x → ∃ s, x = .struct s := by
    intro d h
    obtain ⟨nm, -, h⟩ := Res.bind_eq_ok.1 h
    obtain ⟨fs, -, h⟩ := Res.bind_eq_ok.1 h
    exact ⟨_, (Res.ok.inj h).symm⟩
  have hder : ∀ {I content m}, Derived I content m x → ∃ s, x = .struct s := by
    intro I content m h
    cases h <;> exact ⟨_, rfl⟩
  have hmem : ∀ {m}, c.tag = "simpleContent".toList ∨ c.tag = "complexContent".toList →
      (members c).getLast? = some m → m.tag = "extension".toList ∨ m.tag = "restriction".toList := by
    intro m ht hm
    have := List.mem_of_getLast? hm
    rcases ht with ht | ht
    · simpa using hg.rows ("simpleContent", ["extension", "restriction"]) (by decide) c m hc ht this
    · simpa using hg.rows ("complexContent", ["extension", "restriction"]) (by decide) c m hc ht this
  have ht : c.tag = "all".toList ∨ c.tag = "choice".toList ∨ c.tag = "complexContent".toList ∨ c.tag = "group".toList ∨
      c.tag = "sequence".toList ∨ c.tag = "simpleContent".toList := by simpa [contentTags] using ht
  rcases ht with ht | ht | ht | ht | ht | ht
  · refine .inr ⟨by rw [ht]; decide, ?_⟩
    rw [parseNode_tag (s := "all") (t := .all) (by decide) ht] at h
    exact hseq _ h
  · refine .inl ⟨ht, ?_⟩
    rw [parseNode_tag (s := "choice") (t := .choice) (by decide) ht] at h
    have h : parseChoice _ = .ok x := h
    obtain ⟨ks, -, h⟩ := Res.bind_eq_ok.1 h
    obtain ⟨cs, -, h⟩ := Res.bind_eq_ok.1 h
    exact ⟨_, (Res.ok.inj h).symm⟩
  · refine .inr ⟨by rw [ht]; decide, ?_⟩
    obtain ⟨-, m, hm, hx⟩ := (content_iff (.inl ht)).1 h
    rcases hmem (.inr ht) hm with hmt | hmt
    · exact hder ((extension_iff hmt ht).1 hx).2
    · exact hder ((complexRestriction_iff hmt ht).1 hx).2
  · rw [parseNode_tag (s := "group") (t := .group) (by decide) ht] at h
    cases h
  · refine .inr ⟨by rw [ht]; decide, ?_⟩
    rw [parseNode_tag (s := "sequence") (t := .sequence) (by decide) ht] at h
    exact hseq _ h
  · refine .inr ⟨by rw [ht]; decide, ?_⟩
    obtain ⟨-, m, hm, hx⟩ := (content_iff (.inr ht)).1 h
    rcases hmem (.inl ht) hm with hmt | hmt
    · obtain ⟨-, base, attrs, ags, -, -, -, rfl⟩ := (simpleExtension_iff hmt ht).1 hx
      exact ⟨_, rfl⟩
    · rw [simpleRestriction_panic hmt ht] at hx
      cases hx

theorem mem_contentTags {n c : Node} (h : (withTags n contentTags).getLast? = some c) :
    c ∈ members n ∧ c.tag ∈ contentTags.map String.toList := by
  obtain ⟨h1, h2⟩ := List.mem_filter.1 (List.mem_of_getLast? h)
  obtain ⟨s, hs, ht⟩ := List.any_eq_true.1 h2
  have ht := of_decide_eq_true ht
  have hne : ∀ s ∈ contentTags, s.toList ≠ [] ∧ s.toList ≠ "annotation".toList := by decide
  exact ⟨member_of_tag h1 ht (hne s hs).1 (hne s hs).2, List.mem_map.2 ⟨s, hs, ht.symm⟩⟩

/-- What a complex type becomes. -/
theorem complex_shape {U : UnicodeTable} {root : Node} (hg : Grammatical root) {n p : Node} {above : List Node}
    {e : RsEntity} (hn : PartOf root n) (ht : n.tag = "complexType".toList) (ha : ∀ a ∈ p :: above, NotFacet a)
    (h : parseNode U n p above = .ok e) : ∃ nm, TypeName n p above nm ∧
      ((¬ ChoiceContent n ∧ ∃ cm fs ag sub, e = .struct (.mk nm cm fs ag sub)) ∨
       (ChoiceContent n ∧ ∃ cs cm t src cm' fs ag, e = .enum (.mk (nm ++ "Choice".toList) cs cm t
          [.struct (.mk nm cm' fs ag [])] src))) := by
  cases (complexType_iff ht ha).1 h with
  | @plain nm _ _ h1 _ _ _ h5 =>
    exact ⟨nm, h1, .inl ⟨fun ⟨c, hc, _, hne⟩ => hne (h5 c hc), _, _, _, _, rfl⟩⟩
  | @content nm attrs c x _ h1 h2 h3 h4 h5 h6 h7 =>
    refine ⟨nm, h1, ?_⟩
    obtain ⟨hm, htags⟩ := mem_contentTags h4
    rcases content_kind hg (.child hn hm) htags h6 with ⟨hc, cs, rfl⟩ | ⟨hc, s, rfl⟩
    · cases h7 with
      | «enum» => exact .inr ⟨⟨c, h4, hc, h5⟩, _, _, _, _, _, _, _, rfl⟩
      | other _ hno => exact absurd rfl (hno _)
    · have hno : ¬ ChoiceContent n := by
        rintro ⟨c', hc', ht', -⟩
        rw [h4] at hc'
        obtain rfl := Option.some.inj hc'
        exact hc ht'
      cases h7 with
      | struct => exact .inl ⟨hno, _, _, _, _, rfl⟩
      | other hno' => exact absurd rfl (hno' _)

/-! ## Comments -/

theorem hasDoc_iff (d : Option Str) : Gen.hasDoc d = true ↔ Documented d := by
  have hne : ∀ s, splitCommentLine s 80 0 ≠ [] := fun s => by
    unfold splitCommentLine
    exact List.append_ne_nil_of_right_ne_nil _ (List.cons_ne_nil _ _)
  unfold Gen.hasDoc Documented
  rw [decide_eq_true_iff]
  show defaultFormatComment d 80 0 ≠ [] ↔ _
  rw [Gen.comment_eq]
  constructor
  · intro h
    by_contra hno
    refine h (List.flatMap_eq_nil_iff.2 fun l hl => ?_)
    by_cases hk : Gen.keep (strTrim l) = true
    · cases d with
      | none =>
        have : Str.splitOn '\n' ((none : Option Str).getD []) = [[]] := rfl
        rw [this] at hl
        obtain rfl := List.mem_singleton.1 hl
        exact absurd hk (by decide)
      | some s =>
        refine absurd ⟨s, _, l, rfl, Gen.lines_lns s, hl, fun hd => ?_⟩ hno
        rw [(Gen.dropped_iff l).1 hd] at hk
        cases hk
    · rw [if_neg hk]
  · rintro ⟨s, ls, l, rfl, hls, hl, hd⟩ h
    rw [Gen.lines_unique hls] at hl
    have := List.flatMap_eq_nil_iff.1 h l hl
    by_cases hk : Gen.keep (strTrim l) = true
    · rw [if_pos hk] at this
      exact hne _ this
    · exact hd ((Gen.dropped_iff l).2 (by simpa using hk))

/-! ## Global declarations -/

theorem inline_mem {c t : Node} (h : inlineType c = some t) :
    t ∈ members c ∧ (t.tag = "simpleType".toList ∨ (c.tag = "element".toList ∧ t.tag = "complexType".toList)) := by
  unfold inlineType at h
  have := List.mem_of_getLast? h
  by_cases hc : c.tag = "element".toList
  · rw [if_pos hc] at this
    obtain ⟨h1, h2⟩ := mem_withTags2.1 this
    rcases h2 with h2 | h2
    · exact ⟨member_of_tag h1 h2 (by decide) (by decide), .inl h2⟩
    · exact ⟨member_of_tag h1 h2 (by decide) (by decide), .inr ⟨hc, h2⟩⟩
  · rw [if_neg hc] at this
    obtain ⟨h1, h2⟩ := mem_withTags1.1 this
    exact ⟨member_of_tag h1 h2 (by decide) (by decide), .inl h2⟩

theorem alias_top {nm t : Str} {d : Option Str} :
    (Documented d ∧ entTop Gen.hasDoc (.alias (.mk nm t d [])) = [(.type, nm)]) ∨
      (¬ Documented d ∧ entTop Gen.hasDoc (.alias (.mk nm t d [])) = []) := by
  rw [entTop]
  by_cases h : Documented d
  · rw [if_pos ((hasDoc_iff d).2 h)]; exact .inl ⟨h, rfl⟩
  · rw [if_neg fun e => h ((hasDoc_iff d).1 e)]; exact .inr ⟨h, rfl⟩

/-- The definitions for a global declaration. -/
theorem global_defs {U : UnicodeTable} {root c : Node} {e : RsEntity} (hg : Grammatical root) (hc : c ∈ globals root)
    (h : parseNode U c root [] = .ok e) : GlobalDefs U root c (entTop Gen.hasDoc e) := by
  obtain ⟨hcm, hng⟩ := List.mem_filter.1 hc
  have hng : c.tag ≠ "attributeGroup".toList := of_decide_eq_true hng
  have hcp : PartOf root c := .child .root hcm
  have hrf : NotFacet root := notFacet_of (s := "schema") (by decide) hg.schema
  have ha1 : ∀ a ∈ root :: ([] : List Node), NotFacet a := fun a ha => by
    obtain rfl := List.mem_singleton.1 ha; exact hrf
  have hdecl : c.tag ∈ ["element", "attribute"].map String.toList →
      (c.tag = "attribute".toList → c.attr "ref".toList = none) → ∀ doc,
      Global (fun t x => parseNode U t c [root] = .ok x)
        (if c.tag = "element".toList then ["simpleType", "complexType"] else ["simpleType"]) c doc e →
      GlobalDefs U root c (entTop Gen.hasDoc e) := by
    intro hct hcr doc hgl
    have hcf : NotFacet c := by
      have hct : c.tag = "element".toList ∨ c.tag = "attribute".toList := by simpa using hct
      rcases hct with hct | hct
      · exact notFacet_of (s := "element") (by decide) hct
      · exact notFacet_of (s := "attribute") (by decide) hct
    have hcs : c.tag ≠ "schema".toList := by
      intro e
      rw [e] at hct
      exact absurd hct (by decide)
    have ha2 : ∀ a ∈ c :: root :: ([] : List Node), NotFacet a := fun a ha => by
      rcases List.mem_cons.1 ha with rfl | ha
      · exact hcf
      · exact ha1 a ha
    cases hgl with
    | @typed nm t h1 h2 =>
      rcases alias_top (nm := nm) (t := t) (d := docOf c) with ⟨h3, h4⟩ | ⟨h3, h4⟩
      · rw [h4]; exact .typed hct hcr h1 h2 h3
      · rw [h4]; exact .typedSilent hct hcr h1 h2 h3
    | @inline nm t x _ h1 h2 h3 h4 h5 h6 =>
      have hin : inlineType c = some t := h4
      obtain ⟨htm, htt⟩ := inline_mem hin
      have htp : PartOf root t := .child hcp htm
      rw [renamed_iff.1 h6]
      by_cases hts : t.tag = "simpleType".toList
      · obtain ⟨k, own, ds, s1, s2, s3, -, -⟩ := simple_shape hg Gen.hasDoc t c [root] x htp hts ha2 h5
        rw [(simple_rename s3 s2 nm).2]
        exact .inlineSimple hct hcr h1 h2 hin hts s1
      · obtain ⟨hce, htt⟩ := htt.resolve_left hts
        obtain ⟨nm', hnm, hsh⟩ := complex_shape hg htp htt ha2 h5
        have hnm : nm' = nm := by
          cases hnm with
          | global hs _ => exact absurd hs hcs
          | inline _ ho =>
            cases ho with
            | schema hs => exact absurd hs hcs
            | named _ hn => rw [h1] at hn; exact (Option.some.inj hn).symm
            | up _ hn _ => rw [h1] at hn; cases hn
        subst hnm
        rcases hsh with ⟨hch, cm, fs, ag, sub, rfl⟩ | ⟨hch, cs, cm, t', src, cm', fs, ag, rfl⟩
        · rw [RsEntity.setName, entTop]
          exact .inlineComplex hce h1 h2 hin htt hch
        · rw [RsEntity.setName, entTop, entTops, entTops, entTop, List.append_nil]
          exact .inlineChoice hce h1 h2 hin htt hch
    | empty h1 h2 h3 h4 =>
      rw [entTop]
      exact .empty hct hcr h1 h2 h4
  have htag := hg.rows _ (List.mem_cons_self) root c .root hg.schema hcm
  have htag : c.tag = "include".toList ∨ c.tag = "import".toList ∨ c.tag = "redefine".toList ∨
      c.tag = "simpleType".toList ∨ c.tag = "complexType".toList ∨ c.tag = "group".toList ∨
      c.tag = "attributeGroup".toList ∨ c.tag = "element".toList ∨ c.tag = "attribute".toList ∨
      c.tag = "notation".toList := by simpa using htag
  have hns : root.tag = "schema".toList := hg.schema
  rcases htag with ht | ht | ht | ht | ht | ht | ht | ht | ht | ht
  · rw [parseNode_tag (s := "include") (t := .include) (by decide) ht] at h
    obtain rfl := Res.ok.inj h
    exact .import (by rw [ht]; decide)
  · rw [parseNode_tag (s := "import") (t := .import) (by decide) ht] at h
    obtain rfl := Res.ok.inj h
    exact .import (by rw [ht]; decide)
  · rw [parseNode_tag (s := "redefine") (t := .redefine) (by decide) ht] at h
    cases h
  · obtain ⟨k, own, ds, s1, s2, s3, s4, s5⟩ := simple_shape hg Gen.hasDoc c root [] e hcp ht ha1 h
    obtain ⟨hno, -⟩ := (simpleType_iff ht hrf).1 h
    obtain ⟨nm, hnm⟩ := Option.isSome_iff_exists.1 (hno.1 hg.schema)
    rw [s2, s5 nm hnm]
    exact .simpleType ht hnm s1
  · obtain ⟨nm, hnm, hsh⟩ := complex_shape hg hcp ht ha1 h
    have hnm : c.attr "name".toList = some nm := by
      cases hnm with
      | global _ h => exact h
      | inline hno _ => exact absurd hg.schema hno
    rcases hsh with ⟨hch, cm, fs, ag, sub, rfl⟩ | ⟨hch, cs, cm, t', src, cm', fs, ag, rfl⟩
    · rw [entTop]
      exact .complexType ht hnm hch
    · rw [entTop, entTops, entTops, entTop, List.append_nil]
      exact .choiceType ht hnm hch
  · rw [parseNode_tag (s := "group") (t := .group) (by decide) ht] at h
    cases h
  · exact absurd ht hng
  · refine hdecl (by rw [ht]; decide) (fun e => ?_) (docOf c) ?_
    · rw [ht] at e; exact absurd e (by decide)
    · rw [if_pos ht]
      exact (globalElement_iff ht hns).1 h
  · cases hr : c.attr "ref".toList with
    | none =>
      refine hdecl (by rw [ht]; decide) (fun _ => hr) none ?_
      rw [if_neg (by rw [ht]; decide)]
      exact (globalAttribute_iff ht hns hr).1 h
    | some r =>
      rw [parseNode_tag (s := "attribute") (t := .attribute) (by decide) ht] at h
      have h : parseAttribute _ = .ok e := h
      obtain ⟨pt, hpt, h⟩ := Res.bind_eq_ok.1 h
      have hs : pt = .schema :=
        Res.ok.inj (hpt.symm.trans ((type_iff (s := "schema") (t := .schema) (by decide)).2 hns))
      rw [if_pos hs] at h
      unfold parseGlobalAttribute at h
      rw [show attrRef (placeOf U c root []).node = some r from hr] at h
      obtain rfl := Res.ok.inj h
      show GlobalDefs U root c (entTop Gen.hasDoc (.alias (.mk r r (getDocumentation c) [])))
      rw [documentation_eq]
      rcases alias_top (nm := r) (t := r) (d := docOf c) with ⟨h3, h4⟩ | ⟨h3, h4⟩
      · rw [h4]; exact .reference ht hr h3
      · rw [h4]; exact .referenceSilent ht hr h3
  · rw [parseNode_tag (s := "notation") (t := .notation) (by decide) ht] at h
    cases h

/-! ## Everything is a definition -/

theorem item_deep : ∀ {e : RsEntity}, Deep Inside e → IsItem e → Deep IsItem e
  | _, .mk h hs, hi => .mk hi fun x hx => item_deep (hs x hx) (h.2 x hx)

theorem extendAll_items {map : Str → Option Nat} : ∀ {k i : Nat} {es es' : List RsEntity},
    (∀ e ∈ es, IsItem e) → extendAll map es i k = .ok es' → ∀ e ∈ es', IsItem e
  | 0, i, es, es', he, h => by rw [extendAll] at h; obtain rfl := Res.ok.inj h; exact he
  | k + 1, i, es, es', he, h => by
    unfold extendAll at h
    split at h
    · obtain ⟨s', -, h⟩ := Res.bind_eq_ok.1 h
      refine extendAll_items ?_ h
      intro e hmem
      rcases List.mem_or_eq_of_mem_set hmem with hmem | rfl
      · exact he e hmem
      · cases s'; trivial
    · exact extendAll_items he h

theorem placed_grammatical {root : Node} (hg : Grammatical root) : Placed (PartOf root) where
  hered n hn c hc := .child hn hc
  content {n c} hn ht hc := by
    have ht : n.tag = "simpleType".toList ∨ n.tag = "simpleContent".toList ∨ n.tag = "complexContent".toList := by
      simpa using ht
    have key : ∀ r ∈ grammarRows, r.1 ≠ "schema" → ∀ s ∈ r.2.map String.toList, s ∉ memberTags := by decide
    rcases ht with ht | ht | ht
    · exact key ("simpleType", ["restriction", "list", "union"]) (by decide) (by decide) _
        (hg.rows ("simpleType", ["restriction", "list", "union"]) (by decide) n c hn ht hc)
    · exact key ("simpleContent", ["extension", "restriction"]) (by decide) (by decide) _
        (hg.rows ("simpleContent", ["extension", "restriction"]) (by decide) n c hn ht hc)
    · exact key ("complexContent", ["extension", "restriction"]) (by decide) (by decide) _
        (hg.rows ("complexContent", ["extension", "restriction"]) (by decide) n c hn ht hc)

theorem global_item {root c : Node} (hg : Grammatical root) (hc : c ∈ members root) : ItemPlace c root := by
  have htag := hg.rows _ (List.mem_cons_self) root c .root hg.schema hc
  have key : ∀ s ∈ (grammarRows.head!).2.map String.toList, s ∉ memberTags ∨ s = "attribute".toList ∨
      s = "element".toList := by decide
  rcases key _ htag with h | h
  · exact .inl h
  · exact .inr ⟨hg.schema, h⟩

theorem forall₂_left {α β : Type _} {R : α → β → Prop} {as : List α} {bs : List β} (h : List.Forall₂ R as bs) :
    ∀ b ∈ bs, ∃ a ∈ as, R a b := by
  induction h with
  | nil => intro b hb; cases hb
  | @cons a b as bs hab _ ih =>
    intro x hx
    rcases List.mem_cons.1 hx with rfl | hx
    · exact ⟨a, List.mem_cons_self, hab⟩
    · obtain ⟨y, hy, hr⟩ := ih x hx
      exact ⟨y, List.mem_cons_of_mem _ hy, hr⟩

theorem forall₂_right {α β : Type _} {R : α → β → Prop} {as : List α} {bs : List β} (h : List.Forall₂ R as bs) :
    ∀ a ∈ as, ∃ b ∈ bs, R a b := by
  induction h with
  | nil => intro b hb; cases hb
  | @cons a b as bs hab _ ih =>
    intro x hx
    rcases List.mem_cons.1 hx with rfl | hx
    · exact ⟨b, List.mem_cons_self, hab⟩
    · obtain ⟨y, hy, hr⟩ := ih x hx
      exact ⟨y, List.mem_cons_of_mem _ hy, hr⟩

theorem parseFile_eq {U : UnicodeTable} {root : Node} {g : RsFile} (h : parseFile U root = .ok g) :
    ∃ f, parseSchema U root [] = .ok f ∧ extendFile f = .ok g := Res.bind_eq_ok.1 h

/-- Everything in a parsed file is a definition. -/
theorem parseFile_items {U : UnicodeTable} {root : Node} {g : RsFile} (hg : Grammatical root)
    (h : parseFile U root = .ok g) : ∀ x ∈ generatedList g.types, IsItem x := by
  obtain ⟨f, hf, h⟩ := parseFile_eq h
  obtain ⟨-, types, groups, h1, h2, rfl⟩ := schema_iff.1 hf
  have hitem : ∀ c ∈ members root, ∀ e, parseNode U c root [] = .ok e → Item e := fun c hc e he => by
    obtain ⟨h1, h2⟩ := parseNode_items (placed_grammatical hg) (.child .root hc) .root
      (fun a ha => absurd ha List.not_mem_nil) he
    exact ⟨h1, h2 (global_item hg hc)⟩
  have ht : ∀ e ∈ types, Item e := fun e he => by
    obtain ⟨c, hc, hce⟩ := forall₂_left h1 e he
    exact hitem c (List.mem_filter.1 hc).1 e hce
  have ha : ∀ e ∈ groups, Item e := fun e he => by
    obtain ⟨c, hc, hce⟩ := forall₂_left h2 e he
    obtain ⟨h1, h2⟩ := mem_withTags1.1 hc
    exact hitem c (member_of_tag h1 h2 (by decide) (by decide)) e hce
  have hd := (extendFile_deep fieldwise_inside (fun e he => (ht e he).1) (fun e he => (ha e he).1) h).1
  refine Deep.generatedList fun e he => item_deep (hd e he) ?_
  obtain ⟨es, hes, h⟩ := Res.bind_eq_ok.1 h
  obtain rfl := Res.ok.inj h
  exact extendAll_items (fun e he => (List.mem_append.1 he).elim (fun h => (ht e h).2) (fun h => (ha e h).2)) hes e
    (List.mem_of_mem_take he)

theorem forall₂_imp_map {α β γ : Type _} {R : α → β → Prop} {S : α → γ → Prop} {f : β → γ} {as : List α} {bs : List β}
    (h : List.Forall₂ R as bs) (hs : ∀ a ∈ as, ∀ b, R a b → S a (f b)) : List.Forall₂ S as (bs.map f) := by
  induction h with
  | nil => exact .nil
  | cons hab _ ih =>
    exact .cons (hs _ List.mem_cons_self _ hab) (ih fun a ha => hs a (List.mem_cons_of_mem _ ha))

/-- The definitions at the top level of a parsed file. -/
theorem parseFile_top {U : UnicodeTable} {root : Node} {g : RsFile} (hg : Grammatical root)
    (h : parseFile U root = .ok g) :
    List.Forall₂ (GlobalDefs U root) (globals root) (g.types.map (entTop Gen.hasDoc)) := by
  obtain ⟨f, hf, h⟩ := parseFile_eq h
  obtain ⟨-, types, groups, h1, h2, rfl⟩ := schema_iff.1 hf
  rw [extendFile_top h]
  exact forall₂_imp_map h1 fun c hc e he => global_defs hg hc he

end Verif.Lemmas.Parse
