import Verif.Lemmas.Distinct
import Verif.Lemmas.DocFields
import Verif.Lemmas.Denote
import Verif.Lemmas.ExtendInv

/-! # The types inside the types of a schema -/

namespace Verif.Lemmas.Dis

open Verif Verif.Model Verif.RoXml Verif.Spec Verif.Lemmas.Parse

variable {doc : Option Str → Bool} {Q : List StructField → Prop}

/-- No struct in the entity is changed by extension, and in each of them the inner types have different names. -/
def Settled (Q : List StructField → Prop) (doc : Option Str → Bool) (es : List RsEntity) : Prop := ∀ s, .struct s ∈ es →
  s.subtypes = [] ∧ (∀ f ∈ s.fields, f.name ≠ baseTag) ∧ Unlike (innerTops doc s) ∧ Q s.fields ∧ innerTops doc s = innerTypes s.fields

/-- The type of the field, if it has one of its own, is settled. -/
def FieldSettled (Q : List StructField → Prop) (doc : Option Str → Bool) (f : StructField) : Prop :=
  Settled Q doc (generatedList f.subtypes) ∧
  (entTops doc f.subtypes).map (·.2) = if f.subtypes.isEmpty then [] else [f.typeName]

/-- No types in the structs. -/
def Flat (Q : List StructField → Prop) (es : List RsEntity) : Prop :=
  ∀ s, .struct s ∈ es → s.subtypes = [] ∧ (∀ f ∈ s.fields, f.subtypes = []) ∧ Q s.fields

/-- What is shown of the entities of a document. -/
def Half (Q : List StructField → Prop) (doc : Option Str → Bool) (e : RsEntity) : Prop :=
  match e with
  | .struct s => s.subtypes = [] ∧ ∀ f ∈ s.fields, FieldSettled Q doc f
  | .structField _ => True
  | e => Flat Q (generated e)

theorem field_settled {f : StructField} (h : f.subtypes = []) : FieldSettled Q doc f := by
  unfold FieldSettled Settled
  rw [h, generatedList, entTops]
  exact ⟨fun _ h => absurd h List.not_mem_nil, rfl⟩

theorem innerTops_settled {s : RStruct} (h : Half Q doc (.struct s)) : innerTops doc s = innerTypes s.fields := by
  obtain ⟨h1, h2⟩ := h
  unfold innerTops innerTypes
  rw [h1, entTops, List.nil_append]
  clear h1
  generalize s.fields = fs at h2
  induction fs with
  | nil => rfl
  | cons f fs ih =>
    rw [List.flatMap_cons, List.map_append, ih fun g hg => h2 g (List.mem_cons_of_mem _ hg), (h2 f List.mem_cons_self).2,
      List.filter_cons]
    cases f.subtypes.isEmpty <;> simp

theorem mem_generatedFields {x : RsEntity} : ∀ {fs : List StructField}, x ∈ generatedFields fs ↔ ∃ f ∈ fs, x ∈ generatedList f.subtypes
  | [] => by rw [generatedFields]; simp
  | .mk n t c ss src ms :: fs => by
    rw [generatedFields, List.mem_append, mem_generatedFields]
    simp only [List.mem_cons, exists_eq_or_imp]
    rfl

theorem mem_generatedList {x : RsEntity} : ∀ {es : List RsEntity}, x ∈ generatedList es ↔ ∃ e ∈ es, x ∈ generated e
  | [] => by rw [generatedList]; simp
  | e :: es => by rw [generatedList, List.mem_append, mem_generatedList]; simp

/-- A struct with settled fields and without a base. -/
theorem settled_struct {s : RStruct} (h : Half Q doc (.struct s)) (hm : ∀ f ∈ s.fields, f.name ≠ baseTag)
    (hu : Unlike (innerTypes s.fields)) (hq : Q s.fields) : Settled Q doc (generated (.struct s)) := by
  have hi := innerTops_settled h
  obtain ⟨n, c, fs, ag, ss⟩ := s
  obtain ⟨h1, h2⟩ := h
  have h1 : ss = [] := h1
  subst h1
  intro s' hs'
  rw [generated, generatedList, List.nil_append] at hs'
  rcases List.mem_cons.1 hs' with e | hs'
  · cases e
    exact ⟨rfl, hm, hi ▸ hu, hq, hi⟩
  · obtain ⟨f, hf, hx⟩ := mem_generatedFields.1 hs'
    exact (h2 f hf).1 s' hx

/-! ## Extension -/

mutual
theorem extendStruct_same {look} : ∀ {s s' : RStruct}, Settled Q doc (generated (.struct s)) → extendStruct look s = .ok s' → s' = s
  | .mk n c fs ag sub, s', hs, h => by
    rw [generated] at hs
    obtain ⟨k1, k2, -⟩ := hs _ List.mem_cons_self
    have k1 : sub = [] := k1
    subst k1
    rw [extendStruct] at h
    obtain ⟨fs', hfs, h1⟩ := Res.bind_eq_ok.1 h
    clear h
    rw [extendFields_same (fun s hs' => hs s (List.mem_cons_of_mem _ (List.mem_append_right _ hs'))) hfs] at h1
    clear hfs fs'
    obtain ⟨inh, hinh, h2⟩ := Res.bind_eq_ok.1 h1
    clear h1
    obtain ⟨sub', hsub, h3⟩ := Res.bind_eq_ok.1 h2
    obtain rfl := Res.ok.inj h3
    rw [extendSubtypes] at hsub
    obtain rfl := Res.ok.inj hsub
    clear h2 h3 hsub
    have hb : inh = [] := by
      have k2 : ∀ f ∈ fs, f.name ≠ baseTag := k2
      clear * - k2 hinh
      revert inh
      induction fs with
      | nil => intro inh h; rw [baseFields] at h; exact (Res.ok.inj h).symm
      | cons f fs ih =>
        intro inh h
        rw [baseFields, if_neg (k2 f List.mem_cons_self)] at h
        exact ih (fun g hg => k2 g (List.mem_cons_of_mem _ hg)) inh h
    subst hb
    have : mergeBase fs [] = fs := by
      rw [mergeBase, List.filter_nil, List.append_nil]
      exact List.filter_eq_self.2 fun f hf => decide_eq_true (k2 f hf)
    rw [this]
termination_by structural x => x
theorem extendFields_same {look} : ∀ {fs fs' : List StructField}, Settled Q doc (generatedFields fs) →
    extendFields look fs = .ok fs' → fs' = fs
  | [], fs', _, h => by rw [extendFields] at h; exact (Res.ok.inj h).symm
  | f :: fs, fs', hs, h => by
    rw [extendFields] at h
    obtain ⟨g, hg, h⟩ := Res.bind_eq_ok.1 h
    obtain ⟨gs, hgs, h⟩ := Res.bind_eq_ok.1 h
    obtain rfl := Res.ok.inj h
    have hs' : ∀ s, .struct s ∈ generatedList f.subtypes ++ generatedFields fs →
        s.subtypes = [] ∧ (∀ f ∈ s.fields, f.name ≠ baseTag) ∧ Unlike (innerTops doc s) ∧ Q s.fields ∧
          innerTops doc s = innerTypes s.fields := by
      cases f; rw [generatedFields] at hs; exact hs
    rw [extendField_same (fun s h => hs' s (List.mem_append_left _ h)) hg, extendFields_same (fun s h => hs' s (List.mem_append_right _ h)) hgs]
termination_by structural x => x
theorem extendField_same {look} : ∀ {f f' : StructField}, Settled Q doc (generatedList f.subtypes) →
    extendField look f = .ok f' → f' = f
  | .mk n t c sub src ms, f', hs, h => by
    rw [extendField] at h
    obtain ⟨sub', hsub, h⟩ := Res.bind_eq_ok.1 h
    obtain rfl := Res.ok.inj h
    rw [extendSubtypes_same hs hsub]
    rfl
termination_by structural x => x
theorem extendSubtypes_same {look} : ∀ {es es' : List RsEntity}, Settled Q doc (generatedList es) →
    extendSubtypes look es = .ok es' → es' = es
  | [], es', _, h => by rw [extendSubtypes] at h; exact (Res.ok.inj h).symm
  | e :: es, es', hs, h => by
    rw [extendSubtypes] at h
    obtain ⟨g, hg, h⟩ := Res.bind_eq_ok.1 h
    obtain ⟨gs, hgs, h⟩ := Res.bind_eq_ok.1 h
    obtain rfl := Res.ok.inj h
    rw [generatedList] at hs
    rw [extendEntity_same (fun s h => hs s (List.mem_append_left _ h)) hg, extendSubtypes_same (fun s h => hs s (List.mem_append_right _ h)) hgs]
termination_by structural x => x
theorem extendEntity_same {look} : ∀ {e e' : RsEntity}, Settled Q doc (generated e) → extendEntity look e = .ok e' → e' = e
  | .struct s, e', hs, h => by
    rw [extendEntity] at h
    obtain ⟨g, hg, h⟩ := Res.bind_eq_ok.1 h
    obtain rfl := Res.ok.inj h
    rw [extendStruct_same hs hg]
  | .structField _, e', _, h => by rw [extendEntity] at h <;> first | exact (Res.ok.inj h).symm | simp
  | .tupleStruct _, e', _, h => by rw [extendEntity] at h <;> first | exact (Res.ok.inj h).symm | simp
  | .enum _, e', _, h => by rw [extendEntity] at h <;> first | exact (Res.ok.inj h).symm | simp
  | .enumCase _, e', _, h => by rw [extendEntity] at h <;> first | exact (Res.ok.inj h).symm | simp
  | .alias _, e', _, h => by rw [extendEntity] at h <;> first | exact (Res.ok.inj h).symm | simp
  | .import _, e', _, h => by rw [extendEntity] at h <;> first | exact (Res.ok.inj h).symm | simp
termination_by structural x => x
end

abbrev LookSettled (Q : List StructField → Prop) (doc : Option Str → Bool) (look : Str → Res (List StructField)) : Prop :=
  ∀ key fs, look key = .ok fs → ∀ f ∈ fs, FieldSettled Q doc f

theorem baseFields_settled {look} (hl : LookSettled Q doc look) : ∀ {fs r : List StructField}, baseFields look fs = .ok r →
    ∀ f ∈ r, FieldSettled Q doc f
  | [], r, h => by rw [baseFields] at h; obtain rfl := Res.ok.inj h; exact fun _ h => absurd h List.not_mem_nil
  | g :: fs, r, h => by
    rw [baseFields] at h
    split at h
    · obtain ⟨a, ha, h⟩ := Res.bind_eq_ok.1 h
      obtain ⟨b, hb, h⟩ := Res.bind_eq_ok.1 h
      obtain rfl := Res.ok.inj h
      intro f hf
      rcases List.mem_append.1 hf with hf | hf
      · exact hl _ _ ha f hf
      · exact baseFields_settled hl hb f hf
    · exact baseFields_settled hl h

theorem groupFields_settled {look} (hl : LookSettled Q doc look) : ∀ {as : List RAlias} {r : List StructField},
    groupFields look as = .ok r → ∀ f ∈ r, FieldSettled Q doc f
  | [], r, h => by rw [groupFields] at h; obtain rfl := Res.ok.inj h; exact fun _ h => absurd h List.not_mem_nil
  | g :: fs, r, h => by
    rw [groupFields] at h
    obtain ⟨a, ha, h⟩ := Res.bind_eq_ok.1 h
    obtain ⟨b, hb, h⟩ := Res.bind_eq_ok.1 h
    obtain rfl := Res.ok.inj h
    intro f hf
    rcases List.mem_append.1 hf with hf | hf
    · exact hl _ _ ha f hf
    · exact groupFields_settled hl hb f hf

theorem lookAt_settled {map : Str → Option Nat} {es : List RsEntity} {i : Nat} {own : Res (List StructField)}
    (he : ∀ e ∈ es, Half Q doc e) (ho : ∀ fs, own = .ok fs → ∀ f ∈ fs, FieldSettled Q doc f) : LookSettled Q doc (lookAt map es i own) := by
  intro key fs h
  unfold lookAt at h
  cases hm : map key with
  | none => rw [hm] at h; obtain rfl := Res.ok.inj h; exact fun _ h => absurd h List.not_mem_nil
  | some j =>
    rw [hm] at h
    dsimp only at h
    split at h
    · exact ho fs h
    · obtain rfl := Res.ok.inj h
      unfold fieldsAt
      split
      · rename_i s hs; exact (he _ (List.mem_of_getElem? hs)).2
      · exact fun _ h => absurd h List.not_mem_nil

theorem extendTop_half {map : Str → Option Nat} {es : List RsEntity} {i : Nat} {s s' : RStruct}
    (he : ∀ e ∈ es, Half Q doc e) (hs : Half Q doc (.struct s)) (h : extendTop map es i s = .ok s') : Half Q doc (.struct s') := by
  obtain ⟨n, c, fs, ag, sub⟩ := s
  obtain ⟨h1, h2⟩ := hs
  have h1 : sub = [] := h1
  subst h1
  unfold extendTop at h
  obtain ⟨fs', hfs, k1⟩ := Res.bind_eq_ok.1 h
  clear h
  rw [extendFields_same (Q := Q) (doc := doc) (fun s hs => by
    obtain ⟨f, hf, hx⟩ := mem_generatedFields.1 hs
    exact (h2 f hf).1 s hx) hfs] at k1
  clear hfs fs'
  obtain ⟨inh, hinh, k2⟩ := Res.bind_eq_ok.1 k1
  dsimp only at k2
  obtain ⟨sub', hsub, k3⟩ := Res.bind_eq_ok.1 k2
  obtain ⟨gs, hgs, k4⟩ := Res.bind_eq_ok.1 k3
  obtain rfl := Res.ok.inj k4
  rw [extendSubtypes] at hsub
  obtain rfl := Res.ok.inj hsub
  have h2 : ∀ f ∈ fs, FieldSettled Q doc f := h2
  have hi := baseFields_settled (lookAt_settled he fun _ e => Res.ok.inj e ▸ h2) hinh
  have hm : ∀ f ∈ mergeBase fs inh, FieldSettled Q doc f := by
    intro f hf
    rcases List.mem_append.1 (List.mem_filter.1 hf).1 with hf | hf
    · exact h2 f hf
    · exact hi f (List.mem_filter.1 hf).1
  have hg := groupFields_settled (lookAt_settled he fun _ e => Res.ok.inj e ▸ hm) hgs
  exact ⟨rfl, fun f hf => (List.mem_append.1 hf).elim (hm f) (hg f)⟩

theorem extendAll_half {map : Str → Option Nat} : ∀ {k i : Nat} {es es' : List RsEntity},
    (∀ e ∈ es, Half Q doc e) → extendAll map es i k = .ok es' → ∀ e ∈ es', Half Q doc e
  | 0, i, es, es', he, h => by rw [extendAll] at h; obtain rfl := Res.ok.inj h; exact he
  | k + 1, i, es, es', he, h => by
    unfold extendAll at h
    split at h
    · rename_i s hs
      obtain ⟨s', hs', h⟩ := Res.bind_eq_ok.1 h
      refine extendAll_half ?_ h
      intro e hm
      rcases List.mem_or_eq_of_mem_set hm with hm | rfl
      · exact he e hm
      · exact extendTop_half he (he _ (List.mem_of_getElem? hs)) hs'
    · exact extendAll_half he h

theorem extendFile_half {f g : RsFile} (ht : ∀ e ∈ f.types, Half Q doc e)
    (ha : ∀ e ∈ f.attributeGroups, Half Q doc e) (h : extendFile f = .ok g) : ∀ e ∈ g.types, Half Q doc e := by
  obtain ⟨es, hes, h⟩ := Res.bind_eq_ok.1 h
  obtain rfl := Res.ok.inj h
  have := extendAll_half (fun e he => (List.mem_append.1 he).elim (ht e) (ha e)) hes
  exact fun e he => this e (List.mem_of_mem_take he)


/-! ## Parsing -/

theorem flat_tuple {n : Str} {c : Option Str} {t : Str} {ss : List RsEntity} {m f} :
    Flat Q (generated (.tupleStruct (.mk n c t ss m f))) ↔ Flat Q (generatedList ss) := by
  unfold Flat
  rw [generated]
  simp

theorem flat_enum {n : Str} {cs : List EnumCase} {c : Option Str} {t : Str} {ss : List RsEntity} {src} :
    Flat Q (generated (.enum (.mk n cs c t ss src))) ↔ Flat Q (generatedList ss) := by
  unfold Flat
  rw [generated]
  simp

theorem flat_nil : Flat Q (generatedList []) := by rw [generatedList]; exact fun _ h => absurd h List.not_mem_nil

theorem half_alias {a : RAlias} : Half Q doc (.alias a) := by
  show Flat Q (generated (.alias a))
  rw [generated] <;> simp [Flat]

theorem half_import {i : Import} : Half Q doc (.import i) := by
  show Flat Q (generated (.import i))
  rw [generated] <;> simp [Flat]

theorem half_case {i : EnumCase} : Half Q doc (.enumCase i) := by
  show Flat Q (generated (.enumCase i))
  rw [generated] <;> simp [Flat]

theorem half_renamed {nm : Str} {x e : RsEntity} (hx : Half Q doc x) (h : Renamed nm x e) : Half Q doc e := by
  cases h with
  | struct => exact hx
  | tupleStruct => exact flat_tuple.2 (flat_tuple.1 hx)
  | enum => exact flat_enum.2 (flat_enum.1 hx)
  | enumCase => exact half_case
  | «alias» => exact half_alias
  | structField => trivial
  | «import» => exact half_import

theorem half_redocumented {nm : Option Str} {x e : RsEntity} (hx : Half Q doc x) (h : Redocumented nm x e) : Half Q doc e := by
  cases h with
  | struct => exact hx
  | tupleStruct => exact flat_tuple.2 (flat_tuple.1 hx)
  | enum => exact flat_enum.2 (flat_enum.1 hx)
  | enumCase => exact half_case
  | «alias» => exact half_alias
  | structField => trivial
  | «import» => exact half_import

theorem attrs_bare {n : Node} {fs : List StructField} (h : AttrFields n fs) : ∀ f ∈ fs, f.subtypes = [] := by
  intro f hf
  obtain ⟨c, -, hc⟩ := forall₂_left h f hf
  cases hc with
  | «attribute» _ h => cases h <;> rfl
  | any => rfl

/-- No inline types in a simple type. -/
def Bare (e : RsEntity) : Prop := (∃ n c t m f, e = .tupleStruct (.mk n c t [] m f)) ∨ ∃ n cs c t src, e = .enum (.mk n cs c t [] src)

theorem bare_settled {nm : Str} {e e' : RsEntity} (h : Bare e) (hr : Renamed nm e e') :
    Settled Q doc (generatedList [e']) ∧ (entTops doc [e']).map (·.2) = [nm] := by
  rcases h with ⟨n, c, t, m, f, rfl⟩ | ⟨n, cs, c, t, src, rfl⟩
  all_goals
    cases hr
    refine ⟨fun s hs => ?_, ?_⟩
    · rw [generatedList, generatedList, generated, generatedList] at hs
      simp at hs
    · rw [entTops, entTops, entTop, entTops]; rfl

theorem simple_bare {U : UnicodeTable} {root n p : Node} {above : List Node} {e : RsEntity} (hg : Grammatical root)
    (hf : ProperForms root) (hp : Located root n p above) (ht : Is n ["simpleType"]) (hn : ∀ r ∈ members n, withTags r ["simpleType"] = [])
    (h : parseNode U n p above = .ok e) : Bare e := by
  have tag : ∀ {l : List String}, Is n l → "simpleType".toList ∈ l.map String.toList := fun h => by
    unfold Is at h; rwa [is_one.1 ht] at h
  replace h := (step_iff hg hf hp).1 h
  cases h with
  | simpleType h1 h2 h3 h4 h5 h6 h7 =>
    rename_i c x y
    have hc := List.mem_of_getLast? h4
    have hb : Bare x := by
      have hnt : ¬ Is c ["element", "attribute", "any"] ∧ (Is c ["extension", "restriction"] → Is n ["simpleType", "simpleContent", "complexContent"]) := by
        have := hg.rows ("simpleType", ["restriction", "list", "union"]) (by decide) n c (.child hp.part hp.member) (is_one.1 ht) hc
        refine ⟨fun h => ?_, fun _ => ?_⟩
        · unfold Is at h
          revert this h
          generalize c.tag = z
          intro h h'
          have k : ∀ s ∈ ["restriction", "list", "union"].map String.toList, s ∉ ["element", "attribute", "any"].map String.toList := by decide
          exact k z h h'
        · exact is_of (is_one.1 ht) (by decide)
      have hl : Located root c n (p :: above) := hp.child (notFacet_of (s := "simpleType") (by decide) (is_one.1 ht)) hc hnt.1 hnt.2
      have hct := hg.rows ("simpleType", ["restriction", "list", "union"]) (by decide) n c (.child hp.part hp.member) (is_one.1 ht) hc
      have no : ∀ {l : List String}, Is c l → ∃ s ∈ ["restriction", "list", "union"].map String.toList, s ∈ l.map String.toList :=
        fun h => ⟨c.tag, hct, h⟩
      replace h5 := (step_iff hg hf hl).1 h5
      clear h6
      cases h5 with
      | restriction _ _ _ _ hr =>
        cases hr with
        | enum => exact .inr ⟨_, _, _, _, _, rfl⟩
        | wrapper => exact .inl ⟨_, _, _, _, _, rfl⟩
      | list => exact .inl ⟨_, _, _, _, _, rfl⟩
      | listOf _ _ h _ _ => rw [hn c hc] at h; cases h
      | union _ _ _ h =>
        rw [hn c hc] at h
        cases h
        exact .inr ⟨_, _, _, _, _, rfl⟩
      | «import» h => exact absurd (no h) (by decide)
      | element h => exact absurd (no h) (by decide)
      | «attribute» h => exact absurd (no h) (by decide)
      | attributeGroup h => exact absurd (no h) (by decide)
      | groupRef h => exact absurd (no h) (by decide)
      | anyAttribute h => exact absurd (no h) (by decide)
      | complexType h => exact absurd (no h) (by decide)
      | sequence h => exact absurd (no h) (by decide)
      | choice h => exact absurd (no h) (by decide)
      | content h => exact absurd (no h) (by decide)
      | simpleType h => exact absurd (no h) (by decide)
      | derived _ h => unfold Is at h; rw [is_one.1 ht] at h; exact absurd h (by decide)
      | simpleExtension h => exact absurd (no h) (by decide)
    have hb' : Bare y := by
      generalize n.attr _ = o at h6
      rcases hb with ⟨n, c, t, m, f, rfl⟩ | ⟨n, cs, c, t, src, rfl⟩
      · cases h6 with
        | none => exact .inl ⟨_, _, _, _, _, rfl⟩
        | some h => cases h; exact .inl ⟨_, _, _, _, _, rfl⟩
      · cases h6 with
        | none => exact .inr ⟨_, _, _, _, _, rfl⟩
        | some h => cases h; exact .inr ⟨_, _, _, _, _, rfl⟩
    rcases hb' with ⟨n, c, t, m, f, rfl⟩ | ⟨n, cs, c, t, src, rfl⟩
    · cases h7; exact .inl ⟨_, _, _, _, _, rfl⟩
    · cases h7; exact .inr ⟨_, _, _, _, _, rfl⟩
  | «import» h => exact absurd (tag h) (by decide)
  | element h => exact absurd (tag h) (by decide)
  | «attribute» h => exact absurd (tag h) (by decide)
  | attributeGroup h => exact absurd (tag h) (by decide)
  | groupRef h => exact absurd (tag h) (by decide)
  | anyAttribute h => exact absurd (tag h) (by decide)
  | complexType h => exact absurd (tag h) (by decide)
  | sequence h => exact absurd (tag h) (by decide)
  | choice h => exact absurd (tag h) (by decide)
  | content h => exact absurd (tag h) (by decide)
  | restriction h => exact absurd (tag h) (by decide)
  | list h => exact absurd (tag h) (by decide)
  | listOf h => exact absurd (tag h) (by decide)
  | union h => exact absurd (tag h) (by decide)
  | derived h => exact absurd (tag h) (by decide)
  | simpleExtension h => exact absurd (tag h) (by decide)

/-- What is shown of the parts inside a part. -/
abbrev HalfOf (Q : List StructField → Prop) (doc : Option Str → Bool) (U : UnicodeTable) (root t q : Node) (ab : List Node) (x : RsEntity) : Prop :=
  Located root t q ab ∧ parseNode U t q ab = .ok x ∧ Half Q doc x

theorem member_settled {U : UnicodeTable} {root s p c : Node} {above : List Node} {owner : Str} {f : StructField} (hg : Grammatical root)
    (hf : ProperForms root) (hr : RegularSchema root) (hs : Separate U root) (hq : FieldsAre Q root) (hp : PartOf root s) (hst : Is s ["sequence", "all"])
    (hc : c ∈ members s) (h : MemberField (fun t e => HalfOf Q doc U root t c (s :: p :: above) e) owner c f) : FieldSettled Q doc f := by
  cases h with
  | typed => exact field_settled rfl
  | ref => exact field_settled rfl
  | any => exact field_settled rfl
  | choice =>
    refine ⟨fun s hs => ?_, ?_⟩
    · change RsEntity.struct s ∈ generatedList [_] at hs
      rw [generatedList, generatedList, generated, generatedList] at hs
      simp at hs
    · show (entTops doc [_]).map _ = [_]
      rw [entTops, entTops, entTop, entTops]
      rfl
  | @inline n t e e' m ms h1 h2 h3 h4 h5 h6 h7 h8 h9 =>
    obtain ⟨k1, k2, k3⟩ := h6
    have hit : inlineType c = some t := by unfold inlineType; rw [if_pos h1]; exact h5
    have htw := (mem_withTags2.1 (List.mem_of_getLast? h5)).2
    have key : Settled Q doc (generatedList [e']) ∧ (entTops doc [e']).map (·.2) = [n ++ "Type".toList] := by
      by_cases htc : t.tag = "complexType".toList
      · obtain ⟨q1, q2⟩ := hs.complex s c t hp hst hc (is_one.2 h1) hit (is_one.2 htc)
        obtain ⟨nm, cm, fs, ag, -, rfl, r3⟩ := complex_fields hg hr k1.part k1.member htc k1.notFacet q1 k2
        obtain ⟨u1, u2⟩ := q2 _ _ _ r3
        have u3 := hq.complex s c t hp hst hc (is_one.2 h1) hit (is_one.2 htc) _ _ _ r3
        cases h7
        refine ⟨fun s hs => ?_, ?_⟩
        · rw [generatedList, generatedList, List.append_nil] at hs
          exact settled_struct (s := .mk (n ++ "Type".toList) cm fs ag []) k3 u2 u1 u3 s hs
        · rw [entTops, entTops, entTop]; rfl
      · have hts : Is t ["simpleType"] := by
          rcases htw with h | h
          · exact is_one.2 h
          · exact absurd h htc
        exact bare_settled (simple_bare hg hf k1 hts (hs.simple s c t hp hst hc (is_one.2 h1) hit hts) k2) h7
    exact ⟨key.1, key.2⟩

theorem content_tag {U : UnicodeTable} {R : Node → Node → List Node → RsEntity → Prop} {n c p : Node} {above : List Node} {t : REnum}
    (hc : c ∈ withTags n contentTags) (h : EntityOf U R c p above (.enum t)) : Is c ["choice", "simpleContent", "complexContent"] := by
  have ht : c.tag ∈ contentTags.map String.toList := by
    obtain ⟨s, hs, e⟩ := List.any_eq_true.1 (List.mem_filter.1 hc).2
    exact List.mem_map.2 ⟨s, hs, (of_decide_eq_true e).symm⟩
  have no : ∀ {l : List String}, Is c l → ∃ s ∈ contentTags.map String.toList, s ∈ l.map String.toList := fun h => ⟨c.tag, ht, h⟩
  generalize he : RsEntity.enum t = e at h
  cases h with
  | choice h => exact is_of (is_one.1 h) (by decide)
  | content h => rcases List.mem_cons.1 h with h | h
                 · exact is_of h (by decide)
                 · rcases List.mem_cons.1 h with h | h
                   · exact is_of h (by decide)
                   · cases h
  | sequence => cases he
  | «import» => cases he
  | attributeGroup => cases he
  | groupRef _ _ h => obtain ⟨r, -, rfl⟩ := h; cases he
  | anyAttribute => cases he
  | list => cases he
  | derived _ _ _ h => cases h <;> cases he
  | simpleExtension => cases he
  | element h => exact absurd (no h) (by decide)
  | «attribute» h => exact absurd (no h) (by decide)
  | complexType h => exact absurd (no h) (by decide)
  | restriction h => exact absurd (no h) (by decide)
  | listOf h => exact absurd (no h) (by decide)
  | union h => exact absurd (no h) (by decide)
  | simpleType h => exact absurd (no h) (by decide)

theorem half_struct {s : RStruct} (h1 : s.subtypes = []) (h2 : ∀ f ∈ s.fields, FieldSettled Q doc f) : Half Q doc (.struct s) := ⟨h1, h2⟩

theorem attrs_settled {n : Node} {fs : List StructField} (h : AttrFields n fs) : ∀ f ∈ fs, FieldSettled Q doc f :=
  fun f hf => field_settled (attrs_bare h f hf)

theorem half_global {I : Node → RsEntity → Prop} {l : List String} {n : Node} {d : Option Str} {e : RsEntity}
    (hI : ∀ c x, I c x → Half Q doc x) (h : Global I l n d e) : Half Q doc e := by
  cases h with
  | typed => exact half_alias
  | inline _ _ _ _ h5 h6 => exact half_renamed (hI _ _ h5) h6
  | empty => exact half_struct rfl fun _ h => absurd h List.not_mem_nil

theorem flat_list {es : List RsEntity} (h : ∀ e ∈ es, Flat Q (generated e)) : Flat Q (generatedList es) := by
  intro s hs
  obtain ⟨e, he, hx⟩ := mem_generatedList.1 hs
  exact h e he s hx

/-- What the parts of a document are. -/
theorem node_half {U : UnicodeTable} {root : Node} (hg : Grammatical root) (hf : ProperForms root) (hr : RegularSchema root)
    (hs : Separate U root) (hq : FieldsAre Q root) : ∀ k n p above e, sizeOf n < k → Located root n p above → parseNode U n p above = .ok e → Half Q doc e := by
  intro k
  induction k with
  | zero => intro n _ _ _ h; exact absurd h (Nat.not_lt_zero _)
  | succ k ih =>
    intro n p above e hk hp h
    have hE : EntityOf U (HalfOf Q doc U root) n p above e :=
      entity_mono hg hp (fun t q ab x h1 h2 h3 => ⟨h1, h3, ih t q ab x (by omega) h1 h3⟩) ((step_iff hg hf hp).1 h)
    clear h
    have hpart : PartOf root n := .child hp.part hp.member
    cases hE with
    | «import» => exact half_import
    | element _ _ h => exact half_global (fun c x hx => hx.2.2) h
    | «attribute» _ _ h => exact half_global (fun c x hx => hx.2.2) h
    | attributeGroup _ _ _ _ h => exact half_struct rfl (attrs_settled h)
    | groupRef => exact half_alias
    | anyAttribute => trivial
    | complexType hn h =>
      cases h with
      | plain _ _ h _ _ => exact half_struct rfl (attrs_settled h)
      | @content nm _ _ _ _ _ _ h hl _ hy hc =>
        have hx := hy.2.2
        cases hc with
        | struct =>
          obtain ⟨k1, k2⟩ := hx
          exact half_struct k1 fun f hf => (List.mem_append.1 hf).elim (k2 f) (attrs_settled h f)
        | enum _ =>
          have hQ := hq.choices n _ nm _ hpart hn hl
            (content_tag (List.mem_of_getLast? hl) ((step_iff hg hf hy.1).1 hy.2.1)) h
          refine flat_enum.2 (flat_list fun e he => ?_)
          obtain rfl := List.mem_singleton.1 he
          intro s hs
          rw [generated, generatedList, List.nil_append] at hs
          unfold choiceField at hQ
          generalize hgen : _ ++ [StructField.mk _ _ none [] .choice []] = gs at hs hQ
          have hb : ∀ f ∈ gs, f.subtypes = [] := by
            subst hgen
            exact fun f hf => (List.mem_append.1 hf).elim (attrs_bare h f) fun hf => by obtain rfl := List.mem_singleton.1 hf; rfl
          rcases List.mem_cons.1 hs with e | hs
          · cases e; exact ⟨rfl, hb, hQ⟩
          · obtain ⟨f, hf, hx⟩ := mem_generatedFields.1 hs
            rw [hb f hf, generatedList] at hx
            cases hx
        | other => exact hx
    | sequence h1 h2 h3 h4 =>
      refine half_struct rfl fun f hf' => ?_
      obtain ⟨c, hc, hcf⟩ := forall₂_left h4 f hf'
      exact member_settled hg hf hr hs hq hpart h1 hc hcf
    | choice => exact flat_enum.2 flat_nil
    | content _ _ _ h => exact h.2.2
    | derived _ _ _ h =>
      cases h with
      | without _ h =>
        exact half_struct rfl fun f hf => (List.mem_append.1 hf).elim (attrs_settled h f) fun hf => by
          obtain rfl := List.mem_singleton.1 hf; exact field_settled rfl
      | struct _ h _ hx =>
        obtain ⟨k1, k2⟩ := hx.2.2
        exact half_struct k1 fun f hf => (List.mem_append.1 hf).elim (k2 f) fun hf => (List.mem_append.1 hf).elim (attrs_settled h f) fun hf => by
          obtain rfl := List.mem_singleton.1 hf; exact field_settled rfl
      | lost _ h =>
        exact half_struct rfl fun f hf => (List.mem_append.1 hf).elim (attrs_settled h f) fun hf => by
          obtain rfl := List.mem_singleton.1 hf; exact field_settled rfl
    | simpleExtension _ _ _ _ h =>
      exact half_struct rfl fun f hf => (List.mem_append.1 hf).elim (attrs_settled h f) fun hf => by
        obtain rfl := List.mem_singleton.1 hf; exact field_settled rfl
    | simpleType _ _ _ _ hx hy he =>
      refine half_redocumented ?_ he
      generalize n.attr _ = o at hy
      cases hy with
      | none => exact hx.2.2
      | some h => exact half_renamed hx.2.2 h
    | restriction _ _ _ _ h =>
      cases h with
      | enum => exact flat_enum.2 flat_nil
      | wrapper => exact flat_tuple.2 flat_nil
    | list => exact flat_tuple.2 flat_nil
    | listOf _ _ _ hx h =>
      have hx := hx.2.2
      cases h with
      | enum =>
        refine flat_tuple.2 (flat_list fun e he => ?_)
        obtain rfl := List.mem_singleton.1 he
        exact hx
      | wrapper => exact flat_tuple.2 (flat_tuple.1 hx)
    | union _ _ _ h =>
      refine flat_enum.2 (flat_list fun e he => ?_)
      obtain ⟨c, hc, x, hx, hxe⟩ := forall₂_left h e he
      have hct := (mem_withTags1.1 (List.fst_mem_of_mem_zipIdx hc)).2
      obtain ⟨k, -, -, -, -, hk, -⟩ := simple_shape hg doc c.1 n _ x (.child hx.1.part hx.1.member) hct hx.1.notFacet hx.2.1
      have hh := half_renamed hx.2.2 hxe
      rcases hk with ⟨-, t, rfl⟩ | ⟨-, t, rfl⟩
      · cases hxe; exact hh
      · cases hxe; exact hh

/-! ## The file -/

theorem flat_none {s : RStruct} {es : List RsEntity} (h : Flat Q es) (hs : .struct s ∈ es) : innerTops doc s = [] := by
  obtain ⟨h1, h2, -⟩ := h s hs
  have : innerTops doc s = [] := by
    unfold innerTops
    rw [h1, entTops, List.nil_append]
    generalize s.fields = fs at h2
    induction fs with
    | nil => rfl
    | cons f fs ih =>
      rw [List.flatMap_cons, h2 f List.mem_cons_self, entTops, List.nil_append]
      exact ih fun g hg => h2 g (List.mem_cons_of_mem _ hg)
  exact this

theorem flat_unlike {s : RStruct} {es : List RsEntity} (h : Flat Q es) (hs : .struct s ∈ es) : Unlike (innerTops doc s) := by
  rw [flat_none h hs]
  exact List.Pairwise.nil

theorem half_scoped {e : RsEntity} (h : Half Q doc e) (hu : ∀ s, e = .struct s → Unlike (innerTypes s.fields)) :
    Scoped doc (generated e) := by
  intro s hs
  cases e with
  | struct s' =>
    have hi := innerTops_settled h
    obtain ⟨n, c, fs, ag, ss⟩ := s'
    obtain ⟨h1, h2⟩ := h
    have h1 : ss = [] := h1
    subst h1
    rw [generated, generatedList, List.nil_append] at hs
    rcases List.mem_cons.1 hs with e | hs
    · cases e
      rw [hi]
      exact hu _ rfl
    · obtain ⟨f, hf, hx⟩ := mem_generatedFields.1 hs
      exact ((h2 f hf).1 s hx).2.2.1
  | structField f =>
    have : generated (.structField f) = [.structField f] := by rw [generated] <;> simp
    rw [this] at hs
    cases List.mem_singleton.1 hs
  | tupleStruct t => exact flat_unlike h hs
  | enum t => exact flat_unlike h hs
  | enumCase t => exact flat_unlike h hs
  | «alias» t => exact flat_unlike h hs
  | «import» t => exact flat_unlike h hs

theorem half_fields {e : RsEntity} (h : Half Q doc e) (hq : ∀ s, e = .struct s → Q s.fields) :
    ∀ s, .struct s ∈ generated e → Q s.fields := by
  intro s hs
  cases e with
  | struct s' =>
    obtain ⟨n, c, fs, ag, ss⟩ := s'
    obtain ⟨h1, h2⟩ := h
    have h1 : ss = [] := h1
    subst h1
    rw [generated, generatedList, List.nil_append] at hs
    rcases List.mem_cons.1 hs with e | hs
    · cases e
      exact hq _ rfl
    · obtain ⟨f, hf, hx⟩ := mem_generatedFields.1 hs
      exact ((h2 f hf).1 s hx).2.2.2.1
  | structField f =>
    have : generated (.structField f) = [.structField f] := by rw [generated] <;> simp
    rw [this] at hs
    cases List.mem_singleton.1 hs
  | tupleStruct t => exact (h s hs).2.2
  | enum t => exact (h s hs).2.2
  | enumCase t => exact (h s hs).2.2
  | «alias» t => exact (h s hs).2.2
  | «import» t => exact (h s hs).2.2

theorem half_inner {e : RsEntity} (h : Half Q doc e) : ∀ s, .struct s ∈ generated e → ∀ v ∈ innerTops doc s, v ∈ innerTypes s.fields := by
  intro s hs
  cases e with
  | struct s' =>
    have hi := innerTops_settled h
    obtain ⟨n, c, fs, ag, ss⟩ := s'
    obtain ⟨h1, h2⟩ := h
    have h1 : ss = [] := h1
    subst h1
    rw [generated, generatedList, List.nil_append] at hs
    rcases List.mem_cons.1 hs with e | hs
    · cases e
      rw [hi]
      exact fun _ h => h
    · obtain ⟨f, hf, hx⟩ := mem_generatedFields.1 hs
      rw [((h2 f hf).1 s hx).2.2.2.2]
      exact fun _ h => h
  | structField f =>
    have : generated (.structField f) = [.structField f] := by rw [generated] <;> simp
    rw [this] at hs
    cases List.mem_singleton.1 hs
  | tupleStruct t => rw [flat_none h hs]; exact fun _ h => absurd h List.not_mem_nil
  | enum t => rw [flat_none h hs]; exact fun _ h => absurd h List.not_mem_nil
  | enumCase t => rw [flat_none h hs]; exact fun _ h => absurd h List.not_mem_nil
  | «alias» t => rw [flat_none h hs]; exact fun _ h => absurd h List.not_mem_nil
  | «import» t => rw [flat_none h hs]; exact fun _ h => absurd h List.not_mem_nil

/-- In each module for a type of a parsed file there are the types of its fields. -/
theorem parseFile_inner {U : UnicodeTable} {root : Node} {g : RsFile} (hg : Grammatical root) (hf : ProperForms root)
    (hr : RegularSchema root) (hs : Separate U root) (h : parseFile U root = .ok g) :
    ∀ s, .struct s ∈ generatedList g.types → ∀ v ∈ innerTops doc s, v ∈ innerTypes s.fields := by
  obtain ⟨f, hfp, h⟩ := parseFile_eq h
  obtain ⟨-, types, groups, h1, h2, rfl⟩ := schema_iff.1 hfp
  have hhalf : ∀ c ∈ members root, ∀ e, parseNode U c root [] = .ok e → Half (fun _ => True) doc e := fun c hc e he =>
    node_half hg hf hr hs ⟨fun _ _ _ _ _ _ _ _ _ _ _ _ _ => trivial, fun _ _ _ _ _ _ _ _ _ => trivial⟩
      _ c root [] e (Nat.lt_succ_self _) (global_located hg hc) he
  have hH := extendFile_half (Q := fun _ => True) (doc := doc)
    (fun e he => by
      obtain ⟨c, hc, hce⟩ := forall₂_left h1 e he
      exact hhalf c (List.mem_filter.1 hc).1 e hce)
    (fun e he => by
      obtain ⟨c, hc, hce⟩ := forall₂_left h2 e he
      obtain ⟨k1, k2⟩ := mem_withTags1.1 hc
      exact hhalf c (member_of_tag k1 k2 (by decide) (by decide)) e hce) h
  intro s hs'
  obtain ⟨e, he, hx⟩ := mem_generatedList.1 hs'
  exact half_inner (hH e he) s hx

/-- In each module for a type of a parsed file, the names differ; what holds of the fields. -/
theorem parseFile_scoped {U : UnicodeTable} {root : Node} {g : RsFile} (hg : Grammatical root) (hf : ProperForms root)
    (hr : RegularSchema root) (hs : Separate U root) (hq : FieldsAre Q root) (hq0 : Q [])
    (hqt : ∀ F, (∀ c nm n, Declares root c nm n → TypeFields root F c nm n (F c)) → ∀ c nm n, Declares root c nm n → Q (F c))
    (h : parseFile U root = .ok g) :
    Scoped doc (generatedList g.types) ∧ ∀ s, .struct s ∈ generatedList g.types → Q s.fields := by
  obtain ⟨F, hF⟩ := parseFile_fields hg hr h
  have hsep := hs.types F fun c nm n hd => (hF c nm n hd).1
  have hqt := hqt F fun c nm n hd => (hF c nm n hd).1
  obtain ⟨f, hfp, h⟩ := parseFile_eq h
  obtain ⟨-, types, groups, h1, h2, rfl⟩ := schema_iff.1 hfp
  have hhalf : ∀ c ∈ members root, ∀ e, parseNode U c root [] = .ok e → Half Q doc e := fun c hc e he =>
    node_half hg hf hr hs hq _ c root [] e (Nat.lt_succ_self _) (global_located hg hc) he
  have hH := extendFile_half (Q := Q) (doc := doc)
    (fun e he => by
      obtain ⟨c, hc, hce⟩ := forall₂_left h1 e he
      exact hhalf c (List.mem_filter.1 hc).1 e hce)
    (fun e he => by
      obtain ⟨c, hc, hce⟩ := forall₂_left h2 e he
      obtain ⟨k1, k2⟩ := mem_withTags1.1 hc
      exact hhalf c (member_of_tag k1 k2 (by decide) (by decide)) e hce) h
  obtain ⟨-, hlen, hgr, hext⟩ := Ext.extendFile_iff.1 h
  dsimp only at hlen hgr hext
  suffices key : ∀ e ∈ g.types, ∀ s, e = .struct s → Unlike (innerTypes s.fields) ∧ Q s.fields by
    refine ⟨fun s hs' => ?_, fun s hs' => ?_⟩ <;> obtain ⟨e, he, hx⟩ := mem_generatedList.1 hs'
    · exact half_scoped (hH e he) (fun s hs => (key e he s hs).1) s hx
    · exact half_fields (hH e he) (fun s hs => (key e he s hs).2) s hx
  rintro e he s rfl
  obtain ⟨i, hi⟩ := List.getElem?_of_mem he
  have hit := (List.getElem?_eq_some_iff.1 hi).1
  have hit' : i < types.length := by omega
  obtain ⟨c, hc, hp⟩ := forall₂_get h1 (List.getElem?_eq_getElem hit')
  have hst : ∃ t, types[i] = .struct t := by
    cases ht : types[i] with
    | struct t => exact ⟨t, rfl⟩
    | _ =>
      have := (hext i _ (List.getElem?_eq_getElem hit')).2 (by rw [ht]; simp)
      rw [hi, ht] at this
      cases this
  obtain ⟨t, ht⟩ := hst
  rw [ht] at hp
  have hti : types[i]? = some (.struct t) := by rw [List.getElem?_eq_getElem hit', ht]
  rcases declares_or hg hr (List.mem_of_getElem? hc) hp with ⟨nm, n, cm, fs, ag, k1, k2, k3⟩ | ⟨k1, k2 | ⟨nm, cm, k2, k3, k4⟩⟩
  · obtain ⟨-, j, cm', ag', q1, q2⟩ := hF c nm n k1
    have hdecl : ∀ {i : Nat} {c}, (globals root)[i]? = some c → (declarations root)[i]? = some c := by
      intro i c hc
      unfold declarations
      rw [List.getElem?_append_left]
      · exact hc
      · exact (List.getElem?_eq_some_iff.1 hc).1
    have := hr.distinct i j c c nm (hdecl hc) (hdecl q1) (declares_like k1) (declares_like k1) k1.2.1 k1.2.1
    subst this
    rw [hi] at q2
    cases q2
    exact ⟨hsep c nm n k1, hqt c nm n k1⟩
  · exact absurd rfl (k2 t)
  · cases k2
    obtain ⟨s'', r1, r2⟩ := (hext i _ hti).1 _ rfl
    rw [hi] at r1
    cases r1
    have : s.fields = [] := by
      cases r2 with
      | mk w1 w2 w3 w4 =>
        cases w1
        obtain ⟨ls, w2, rfl⟩ := w2
        obtain ⟨ls', w4, rfl⟩ := w4
        cases w2
        cases w4
        rfl
    rw [this]
    exact ⟨List.Pairwise.nil, hq0⟩

end Verif.Lemmas.Dis
