import Verif.Lemmas.RespellParse

/-! # The prefix of XML Schema: base types and generator -/

namespace Verif.Lemmas.Respell

open Verif Verif.Model Verif.Spec Verif.RoXml Verif.Lemmas Verif.Lemmas.Parse Verif.Lemmas.Gen Inflector
open Verif.Lemmas.Alike (SameRes forall₂_join)

variable {p p' : Option Str}

/-! ## Base types -/

theorem lastSegment_named {q : Option Str} {n : Str} (h : ':' ∉ n) : lastSegment (spell q n) = n := by
  cases q with
  | none => exact lastSegment_iff.2 ⟨h, .inl rfl⟩
  | some q => exact lastSegment_iff.2 ⟨h, .inr ⟨q, rfl⟩⟩

theorem lastSegment_rel {s s' : Str} (h : Spelled p p' s s') : lastSegment s = lastSegment s' := by
  cases h with
  | same => rfl
  | named h => rw [lastSegment_named (row_colon h), lastSegment_named (row_colon h)]

theorem typesMap_rel {es es' : List RsEntity} (h : List.Forall₂ (Like p p') es es') : typesMap es = typesMap es' := by
  induction h with
  | nil => rfl
  | @cons e e' es es' h1 _ ih =>
    funext key
    unfold typesMap
    rw [ih]
    cases h1 <;> rfl

theorem fieldLike_name {f f' : StructField} (h : FieldLike p p' f f') : f.name = f'.name := by cases h; rfl
theorem fieldLike_type {f f' : StructField} (h : FieldLike p p' f f') : Spelled p p' f.typeName f'.typeName := by
  cases h; assumption

abbrev LookLike (p p' : Option Str) (look look' : Str → Res (List StructField)) : Prop :=
  ∀ key, SameRes (List.Forall₂ (FieldLike p p')) (look key) (look' key)

theorem baseFields_rel {look look' : Str → Res (List StructField)} (hl : LookLike p p' look look') {fs fs' : List StructField}
    (h : List.Forall₂ (FieldLike p p') fs fs') :
    SameRes (List.Forall₂ (FieldLike p p')) (baseFields look fs) (baseFields look' fs') := by
  induction h with
  | nil => exact .nil
  | cons h1 _ ih =>
    unfold baseFields
    rw [← fieldLike_name h1, ← lastSegment_rel (fieldLike_type h1)]
    split
    · exact SameRes.then (hl _) fun a b hab => SameRes.then ih fun c d hcd => forall₂_join hab hcd
    · exact ih

theorem any_rel {fs fs' : List StructField} (h : List.Forall₂ (FieldLike p p') fs fs') (n : Str) :
    (fs.any fun g => decide (g.name = n)) = fs'.any fun g => decide (g.name = n) := by
  induction h with
  | nil => rfl
  | cons h1 _ ih => rw [List.any_cons, List.any_cons, ih, fieldLike_name h1]

theorem mergeBase_rel {fs fs' is is' : List StructField} (h : List.Forall₂ (FieldLike p p') fs fs')
    (hi : List.Forall₂ (FieldLike p p') is is') : List.Forall₂ (FieldLike p p') (mergeBase fs is) (mergeBase fs' is') := by
  unfold mergeBase
  refine forall₂_filter (forall₂_join h (forall₂_filter hi fun a b hab => ?_)) fun a b hab => by rw [fieldLike_name hab]
  rw [any_rel h, fieldLike_name hab]

theorem extend_rel {look look' : Str → Res (List StructField)} (hl : LookLike p p' look look') :
    (∀ {e e'}, Like p p' e e' → SameRes (Like p p') (extendEntity look e) (extendEntity look' e')) ∧
    (∀ {f f'}, FieldLike p p' f f' → SameRes (FieldLike p p') (extendField look f) (extendField look' f')) ∧
    (∀ {es es'}, AllLike p p' es es' → SameRes (AllLike p p') (extendSubtypes look es) (extendSubtypes look' es')) ∧
    (∀ {fs fs'}, FieldsLike p p' fs fs' → SameRes (FieldsLike p p') (extendFields look fs) (extendFields look' fs')) := by
  let M1 : ∀ e e', Like p p' e e' → Prop := fun e e' _ => SameRes (Like p p') (extendEntity look e) (extendEntity look' e')
  let M2 : ∀ f f', FieldLike p p' f f' → Prop := fun f f' _ => SameRes (FieldLike p p') (extendField look f) (extendField look' f')
  let M3 : ∀ es es', AllLike p p' es es' → Prop :=
    fun es es' _ => SameRes (AllLike p p') (extendSubtypes look es) (extendSubtypes look' es')
  let M4 : ∀ fs fs', FieldsLike p p' fs fs' → Prop :=
    fun fs fs' _ => SameRes (FieldsLike p p') (extendFields look fs) (extendFields look' fs')
  have c1 : ∀ {n c fs fs' ag ag' sub sub'} (h0 : Plain p p' n) (h1 : FieldsLike p p' fs fs')
      (h2 : List.Forall₂ (AliasLike p p') ag ag') (h3 : AllLike p p' sub sub'), M4 _ _ h1 → M3 _ _ h3 →
      M1 (.struct (.mk n c fs ag sub)) (.struct (.mk n c fs' ag' sub')) (.struct h0 h1 h2 h3) := by
    intro n c fs fs' ag ag' sub sub' h0 h1 h2 h3 i1 i3
    show SameRes _ (extendEntity look _) (extendEntity look' _)
    unfold extendEntity extendStruct
    refine SameRes.then (SameRes.then (S := fun s s' => Like p p' (.struct s) (.struct s')) i1 fun a b hab => ?_)
      fun s s' hs => hs
    refine SameRes.then (baseFields_rel hl (fieldsLike_iff.1 hab)) fun x y hxy => ?_
    exact SameRes.then i3 fun u v huv => .struct h0 (fieldsLike_iff.2 (mergeBase_rel (fieldsLike_iff.1 hab) hxy)) h2 huv
  have c2 : ∀ {f f'} (h : FieldLike p p' f f'), M2 f f' h → M1 (.structField f) (.structField f') (.field h) :=
    fun h _ => .field h
  have c3 : ∀ {n c t t' sub sub' ms fs} (h0 : Plain p p' n) (h1 : Spelled p p' t t') (h2 : AllLike p p' sub sub'), M3 _ _ h2 →
      M1 (.tupleStruct (.mk n c t sub ms fs)) (.tupleStruct (.mk n c t' sub' ms fs)) (.tuple h0 h1 h2) :=
    fun h0 h1 h2 _ => .tuple h0 h1 h2
  have c4 : ∀ {n cs cs' c t t' sub sub' src} (h0 : Plain p p' n) (h1 : List.Forall₂ (CaseLike p p') cs cs')
      (h2 : Spelled p p' t t') (h3 : AllLike p p' sub sub'), M3 _ _ h3 →
      M1 (.enum (.mk n cs c t sub src)) (.enum (.mk n cs' c t' sub' src)) (.enum h0 h1 h2 h3) :=
    fun h0 h1 h2 h3 _ => .enum h0 h1 h2 h3
  have c5 : ∀ {c c'} (h : CaseLike p p' c c'), M1 (.enumCase c) (.enumCase c') (.case h) := fun h => .case h
  have c6 : ∀ {a a'} (h : AliasLike p p' a a'), M1 (.alias a) (.alias a') (.alias h) := fun h => .alias h
  have c7 : ∀ {i}, M1 (.import i) (.import i) .import := .import
  have c8 : ∀ {n t t' c sub sub' src ms} (h1 : Spelled p p' t t') (h2 : sub ≠ [] → t = t') (h3 : AllLike p p' sub sub'),
      M3 _ _ h3 → M2 (.mk n t c sub src ms) (.mk n t' c sub' src ms) (.mk h1 h2 h3) := by
    intro n t t' c sub sub' src ms h1 h2 h3 i3
    show SameRes _ (extendField look _) (extendField look' _)
    unfold extendField
    have hs : sub = [] → ∀ u, extendSubtypes look sub = .ok u → u = [] := by
      rintro rfl u e
      unfold extendSubtypes at e
      cases e; rfl
    have i3 : SameRes (AllLike p p') (extendSubtypes look sub) (extendSubtypes look' sub') := i3
    generalize extendSubtypes look sub = x at i3 hs
    generalize extendSubtypes look' sub' = y at i3
    cases x <;> cases y <;> first | trivial | skip
    rename_i u v
    exact .mk h1 (fun hu => h2 fun e => hu (hs e u rfl)) i3
  have c9 : M3 [] [] .nil := by
    show SameRes _ (extendSubtypes look _) (extendSubtypes look' _)
    unfold extendSubtypes; exact .nil
  have c10 : ∀ {e e' es es'} (h1 : Like p p' e e') (h2 : AllLike p p' es es'), M1 _ _ h1 → M3 _ _ h2 →
      M3 (e :: es) (e' :: es') (.cons h1 h2) := by
    intro e e' es es' h1 h2 i1 i2
    show SameRes _ (extendSubtypes look _) (extendSubtypes look' _)
    unfold extendSubtypes
    exact SameRes.then i1 fun a b hab => SameRes.then i2 fun c d hcd => .cons hab hcd
  have c11 : M4 [] [] .nil := by
    show SameRes _ (extendFields look _) (extendFields look' _)
    unfold extendFields; exact .nil
  have c12 : ∀ {f f' fs fs'} (h1 : FieldLike p p' f f') (h2 : FieldsLike p p' fs fs'), M2 _ _ h1 → M4 _ _ h2 →
      M4 (f :: fs) (f' :: fs') (.cons h1 h2) := by
    intro e e' es es' h1 h2 i1 i2
    show SameRes _ (extendFields look _) (extendFields look' _)
    unfold extendFields
    exact SameRes.then i1 fun a b hab => SameRes.then i2 fun c d hcd => .cons hab hcd
  exact ⟨fun h => Like.rec (motive_1 := M1) (motive_2 := M2) (motive_3 := M3) (motive_4 := M4) c1 c2 c3 c4 c5 c6 c7 c8 c9 c10 c11 c12 h,
    fun h => FieldLike.rec (motive_1 := M1) (motive_2 := M2) (motive_3 := M3) (motive_4 := M4) c1 c2 c3 c4 c5 c6 c7 c8 c9 c10 c11 c12 h,
    fun h => AllLike.rec (motive_1 := M1) (motive_2 := M2) (motive_3 := M3) (motive_4 := M4) c1 c2 c3 c4 c5 c6 c7 c8 c9 c10 c11 c12 h,
    fun h => FieldsLike.rec (motive_1 := M1) (motive_2 := M2) (motive_3 := M3) (motive_4 := M4) c1 c2 c3 c4 c5 c6 c7 c8 c9 c10 c11 c12 h⟩

theorem get_rel {α β : Type} {R : α → β → Prop} {l : List α} {l' : List β} (h : List.Forall₂ R l l') (i : Nat) :
    Option.Rel R l[i]? l'[i]? := by
  induction h generalizing i with
  | nil => exact .none
  | cons h1 _ ih =>
    cases i with
    | zero => exact .some h1
    | succ i => simpa using ih i

theorem set_rel {α β : Type} {R : α → β → Prop} {l : List α} {l' : List β} (h : List.Forall₂ R l l') (i : Nat) {a : α} {b : β}
    (hab : R a b) : List.Forall₂ R (l.set i a) (l'.set i b) := by
  induction h generalizing i with
  | nil => exact .nil
  | cons h1 h2 ih =>
    cases i with
    | zero => exact .cons hab h2
    | succ i => exact .cons h1 (ih i)

theorem fieldsAt_rel {es es' : List RsEntity} (h : List.Forall₂ (Like p p') es es') (i : Nat) :
    List.Forall₂ (FieldLike p p') (fieldsAt es i) (fieldsAt es' i) := by
  have := get_rel h i
  unfold fieldsAt
  generalize es[i]? = x at this
  generalize es'[i]? = y at this
  cases this with
  | none => exact .nil
  | some h =>
    cases h with
    | struct _ h1 => exact fieldsLike_iff.1 h1
    | _ => exact .nil

theorem lookAt_rel (map : Str → Option Nat) {es es' : List RsEntity} (h : List.Forall₂ (Like p p') es es') (i : Nat)
    {own own' : Res (List StructField)} (ho : SameRes (List.Forall₂ (FieldLike p p')) own own') :
    LookLike p p' (lookAt map es i own) (lookAt map es' i own') := by
  intro key
  unfold lookAt
  cases map key with
  | none => exact .nil
  | some j =>
    dsimp only
    split
    · exact ho
    · exact fieldsAt_rel h j

theorem groupFields_rel {look look' : Str → Res (List StructField)} (hl : LookLike p p' look look') {as as' : List RAlias}
    (h : List.Forall₂ (AliasLike p p') as as') :
    SameRes (List.Forall₂ (FieldLike p p')) (groupFields look as) (groupFields look' as') := by
  induction h with
  | nil => exact .nil
  | cons h1 _ ih =>
    unfold groupFields
    cases h1 with
    | mk _ h2 =>
      dsimp only [RAlias.original]
      rw [← lastSegment_rel h2]
      exact SameRes.then (hl _) fun a b hab => SameRes.then ih fun c d hcd => forall₂_join hab hcd

theorem extendTop_rel (map : Str → Option Nat) {es es' : List RsEntity} (h : List.Forall₂ (Like p p') es es') (i : Nat)
    {s s' : RStruct} (hs : Like p p' (.struct s) (.struct s')) :
    SameRes (fun s s' => Like p p' (.struct s) (.struct s')) (extendTop map es i s) (extendTop map es' i s') := by
  cases hs with
  | struct h0 h1 h2 h3 =>
    unfold extendTop
    refine SameRes.then ((extend_rel (lookAt_rel map h i (own := .panic) (own' := .panic) trivial)).2.2.2 h1) fun fs fs' hf => ?_
    have hf := fieldsLike_iff.1 hf
    refine SameRes.then (baseFields_rel (lookAt_rel map h i (own := .ok _) (own' := .ok _) hf) hf) fun x y hxy => ?_
    have hm := mergeBase_rel hf hxy
    dsimp only
    refine SameRes.then ((extend_rel (lookAt_rel map h i (own := .ok _) (own' := .ok _) hm)).2.2.1 h3) fun u v huv => ?_
    exact SameRes.then (groupFields_rel (lookAt_rel map h i (own := .ok _) (own' := .ok _) hm) h2) fun a b hab =>
      .struct h0 (fieldsLike_iff.2 (forall₂_join hm hab)) h2 huv

theorem extendAll_rel (map : Str → Option Nat) : ∀ (k i : Nat) {es es' : List RsEntity}, List.Forall₂ (Like p p') es es' →
    SameRes (List.Forall₂ (Like p p')) (extendAll map es i k) (extendAll map es' i k)
  | 0, _, _, _, h => h
  | k + 1, i, es, es', h => by
    unfold extendAll
    have hg := get_rel h i
    generalize es[i]? = x at hg
    generalize es'[i]? = y at hg
    cases hg with
    | none => exact extendAll_rel map k (i + 1) h
    | some hg =>
      cases hg with
      | struct h0 h1 h2 h3 =>
        exact SameRes.then (extendTop_rel map h i (.struct h0 h1 h2 h3)) fun s s' hs =>
          extendAll_rel map k (i + 1) (set_rel h i hs)
      | _ => exact extendAll_rel map k (i + 1) h

theorem extendFile_rel {f f' : RsFile} (h : FileLike p p' f f') : SameRes (FileLike p p') (extendFile f) (extendFile f') := by
  unfold extendFile
  dsimp only
  have ha := forall₂_join h.types h.groups
  rw [← typesMap_rel ha, ← h.types.length_eq]
  refine SameRes.then (extendAll_rel _ _ _ ha) fun es es' he => ?_
  exact ⟨List.forall₂_take _ he, List.forall₂_drop _ he, h.target, h.xsd, h.xsd'⟩

theorem parseFile_rel (U : UnicodeTable) {root : Node} (h : Respellable root p p') :
    SameRes (FileLike p p') (parseFile U root) (parseFile U (respell p p' root)) :=
  SameRes.then (schema_rel U h [] fun _ h => absurd h List.not_mem_nil) fun _ _ => extendFile_rel

/-! ## The generator -/

/-- The generator's state for the two documents. -/
structure Ctx (p p' : Option Str) (g g' : GenCtx) : Prop where
  U : g'.U = g.U
  target : g'.targetNs = g.targetNs
  xsd : nsPrefix g.xsdNs = p
  xsd' : nsPrefix g'.xsdNs = p'
  clear : Clear p ∧ Clear p'

variable {g g' : GenCtx}

theorem matchBuiltIn_plain {q : Option Str} {s : Str} {ns : Option Namespace} (hn : nsPrefix ns = q)
    (h : ∀ n, Row n → s ≠ spell q n) : matchBuiltInType s ns = none := by
  cases e : matchBuiltInType s ns with
  | none => rfl
  | some r =>
    obtain ⟨row, h1, h2, -⟩ := (matchBuiltInType_iff ..).1 e
    rw [hn] at h2
    have key : ∀ m, Ref q m s → s = spell q m := by
      intro m hm
      cases hm <;> rfl
    exact absurd (key _ h2) (h _ (row_iff.2 ⟨row, h1, rfl⟩))

theorem typeName_named {g : GenCtx} {q : Option Str} {n : Str} (hn : nsPrefix g.xsdNs = q) (hq : Clear q) (h : Row n) :
    g.typeName (spell q n) = builtInRow n := by
  unfold GenCtx.typeName formatTypeName matchBuiltInType
  rw [splitName_iff.2 (ref_spell hq (row_colon h))]
  dsimp only
  rw [if_neg (by rw [hn]; exact fun h => h rfl), if_neg h]

theorem typeName_none (hc : Ctx p p' g g') {s : Str} (h1 : matchBuiltInType s g.xsdNs = none)
    (h2 : matchBuiltInType s g'.xsdNs = none) : g.typeName s = g'.typeName s := by
  unfold GenCtx.typeName formatTypeName
  rw [h1, h2, hc.U, hc.target]

theorem typeName_rel (hc : Ctx p p' g g') {s s' : Str} (h : Spelled p p' s s') : g.typeName s = g'.typeName s' := by
  cases h with
  | same h =>
    exact typeName_none hc (matchBuiltIn_plain hc.xsd fun n hn => (h n hn).1) (matchBuiltIn_plain hc.xsd' fun n hn => (h n hn).2)
  | named h => rw [typeName_named hc.xsd hc.clear.1 h, typeName_named hc.xsd' hc.clear.2 h]

theorem typeName_plain (hc : Ctx p p' g g') {s : Str} (h : Plain p p' s) : g.typeName s = g'.typeName s :=
  typeName_rel hc (.same h)

theorem name_rel (hc : Ctx p p' g g') (n : Str) : g.name n = g'.name n := by
  unfold GenCtx.name; rw [hc.U]

theorem field_rel (hc : Ctx p p' g g') {f f' : StructField} (hn : f.name = f'.name) (ht : g.typeName f.typeName = g'.typeName f'.typeName)
    (hco : f.comment = f'.comment) (hs : f.source = f'.source) (hm : f.typeModifiers = f'.typeModifiers) :
    genField g f = genField g' f' := by
  unfold genField fieldMacros fieldTypeName
  rw [hn, ht, hco, hs, hm, name_rel hc, hc.target]

theorem qualified_none {m t : Str} {ns : Option Namespace} (hm : ':' ∉ m) :
    matchBuiltInType (m ++ "::".toList ++ t) ns = none := by
  unfold matchBuiltInType
  rw [show m ++ "::".toList ++ t = m ++ ':' :: (':' :: t) by rw [List.append_assoc]; rfl, splitName_some.2 ⟨hm, rfl⟩]
  dsimp only
  split
  · rfl
  · rw [if_pos (builtInRow_colon t)]

theorem genField_rel (hc : Ctx p p' g g') {f f' : StructField} (h : FieldLike p p' f f') : genField g f = genField g' f' := by
  cases h with
  | mk h1 _ _ => exact field_rel hc rfl (typeName_rel hc h1) rfl rfl rfl

theorem qualify_rel (hc : Ctx p p' g g') {m : Str} (hm : ':' ∉ m) {f f' : StructField} (h : FieldLike p p' f f') :
    genField g (qualifyField m f) = genField g' (qualifyField m f') := by
  cases h with
  | mk h1 h2 h3 =>
    unfold qualifyField
    dsimp only
    rw [← h3.isEmpty]
    split
    · exact field_rel hc rfl (typeName_rel hc h1) rfl rfl rfl
    · rename_i hs
      obtain rfl := h2 fun e => hs (by rw [e]; rfl)
      exact field_rel hc rfl (typeName_none hc (qualified_none hm) (qualified_none hm)) rfl rfl rfl

theorem map_rel {α β γ : Type} {R : α → β → Prop} {f : α → γ} {f' : β → γ} {l : List α} {l' : List β} (h : List.Forall₂ R l l')
    (hf : ∀ a b, R a b → f a = f' b) : l.map f = l'.map f' := by
  induction h with
  | nil => rfl
  | cons h1 _ ih => rw [List.map_cons, List.map_cons, ih, hf _ _ h1]

theorem name_colon (n : Str) : ':' ∉ g.name n := name_no_colon n

theorem genFields_rel (hc : Ctx p p' g g') (n : Str) {fs fs' : List StructField} (h : FieldsLike p p' fs fs') :
    genFields g n fs = genFields g' n fs' := by
  unfold genFields
  rw [← name_rel hc, map_rel (fieldsLike_iff.1 h) fun a b hab => qualify_rel hc (name_colon n) hab]

/-- The names of the built-in types need no care as names of cases. -/
theorem sanitize_row (U : UnicodeTable) {n : Str} (h : Row n) :
    sanitize U (filterTypeName U (toPascalCase U n)) = filterTypeName U (toPascalCase U n) := by
  obtain ⟨row, h1, rfl⟩ := row_iff.1 h
  have ha : ∀ row ∈ readmeTable ++ undocumentedTable, ∀ c ∈ row.1.toList, c.toNat < 128 := by decide +kernel
  have hs : ∀ row ∈ readmeTable ++ undocumentedTable,
      sanitize .ascii ((toPascalCase .ascii row.1.toList).filter asciiAlnum) =
        (toPascalCase .ascii row.1.toList).filter asciiAlnum := by decide +kernel
  rw [typeName_eq, toPascalCase_ascii U (ha row h1), sanitize_ascii U, hs row h1]
  intro c hc
  exact alnum_lt (List.mem_filter.1 hc).2

theorem caseName_row {q : Option Str} (hq : Clear q) {g : GenCtx} {c : EnumCase} {n : Str} (h : Row n) (hc : c.name = spell q n) :
    caseName g c = filterTypeName g.U (toPascalCase g.U n) := by
  have k := caseName_eq (g := g) (c := c) (by rw [hc]; exact ref_spell hq (row_colon h))
  by_cases hx : q = none ∨ q = g.targetNs.bind (·.name)
  · rw [k.1 hx, sanitize_row g.U h]
  · exact k.2 hx

theorem caseName_rel (hc : Ctx p p' g g') {c c' : EnumCase} (h : CaseLike p p' c c') : caseName g c = caseName g' c' := by
  have hsame : c.name = c'.name → caseName g c = caseName g' c' := fun e => by
    unfold caseName; rw [e, hc.U, hc.target]
  rcases h.name with e | ⟨-, hs⟩
  · exact hsame e
  · generalize hx : c.name = x at hs
    generalize hy : c'.name = y at hs
    cases hs with
    | same => exact hsame (hx.trans hy.symm)
    | named hr => rw [caseName_row hc.clear.1 hr hx, caseName_row hc.clear.2 hr hy, hc.U]

theorem case_rel (hc : Ctx p p' g g') {c c' : EnumCase} (h : CaseLike p p' c c') : genCase g c = genCase g' c' := by
  have hm : caseMacros g c = caseMacros g' c' := by
    unfold caseMacros
    rw [← h.source]
    by_cases hs : c.source = .union
    · rw [if_pos hs, if_pos hs]
    · rw [if_neg hs, if_neg hs, ← caseName_rel hc h]
      rcases h.name with e | ⟨e, -⟩
      · rw [e]
      · exact absurd e hs
  unfold genCase
  rw [hm, caseName_rel hc h, h.comment, h.modifiers]
  have ht := h.type
  generalize c.typeName = x at ht
  generalize c'.typeName = y at ht
  cases ht with
  | none => rfl
  | some ht => dsimp only; rw [typeName_rel hc ht]

theorem generate_rel (hc : Ctx p p' g g') :
    (∀ {e e'}, Like p p' e e' → generate g e = generate g' e') ∧
    (∀ {es es'}, AllLike p p' es es' → genList g es = genList g' es') := by
  let M1 : ∀ e e', Like p p' e e' → Prop := fun e e' _ => generate g e = generate g' e'
  let M2 : ∀ f f', FieldLike p p' f f' → Prop := fun f f' _ => genList g f.subtypes = genList g' f'.subtypes
  let M3 : ∀ es es', AllLike p p' es es' → Prop := fun es es' _ => genList g es = genList g' es'
  let M4 : ∀ fs fs', FieldsLike p p' fs fs' → Prop := fun fs fs' _ => genFieldSubtypes g fs = genFieldSubtypes g' fs'
  have c1 : ∀ {n c fs fs' ag ag' sub sub'} (h0 : Plain p p' n) (h1 : FieldsLike p p' fs fs')
      (h2 : List.Forall₂ (AliasLike p p') ag ag') (h3 : AllLike p p' sub sub'), M4 _ _ h1 → M3 _ _ h3 →
      M1 (.struct (.mk n c fs ag sub)) (.struct (.mk n c fs' ag' sub')) (.struct h0 h1 h2 h3) := by
    intro n c fs fs' ag ag' sub sub' h0 h1 h2 h3 i1 i3
    show generate g _ = generate g' _
    have i1 : genFieldSubtypes g fs = genFieldSubtypes g' fs' := i1
    have i3 : genList g sub = genList g' sub' := i3
    unfold generate
    rw [← i1, ← i3]
    unfold structText structMacros structSubtypes
    rw [genFields_rel hc n h1, typeName_plain hc h0, name_rel hc, hc.target]
  have c2 : ∀ {f f'} (h : FieldLike p p' f f'), M2 f f' h → M1 (.structField f) (.structField f') (.field h) := by
    intro f f' h _
    show generate g _ = generate g' _
    unfold generate
    rw [genField_rel hc h]
  have c3 : ∀ {n c t t' sub sub' ms fs} (h0 : Plain p p' n) (h1 : Spelled p p' t t') (h2 : AllLike p p' sub sub'), M3 _ _ h2 →
      M1 (.tupleStruct (.mk n c t sub ms fs)) (.tupleStruct (.mk n c t' sub' ms fs)) (.tuple h0 h1 h2) := by
    intro n c t t' sub sub' ms fs h0 h1 h2 i2
    show generate g _ = generate g' _
    have i2 : genList g sub = genList g' sub' := i2
    unfold generate
    rw [← i2]
    unfold tupleText tupleTypeName
    rw [typeName_plain hc h0, typeName_rel hc h1]
  have c4 : ∀ {n cs cs' c t t' sub sub' src} (h0 : Plain p p' n) (h1 : List.Forall₂ (CaseLike p p') cs cs')
      (h2 : Spelled p p' t t') (h3 : AllLike p p' sub sub'), M3 _ _ h3 →
      M1 (.enum (.mk n cs c t sub src)) (.enum (.mk n cs' c t' sub' src)) (.enum h0 h1 h2 h3) := by
    intro n cs cs' c t t' sub sub' src h0 h1 h2 h3 i3
    show generate g _ = generate g' _
    have i3 : genList g sub = genList g' sub' := i3
    unfold generate
    rw [← i3]
    unfold enumText enumMacros
    dsimp only
    rw [typeName_plain hc h0, typeName_rel hc h2, hc.target, map_rel h1 fun a b hab => case_rel hc hab]
  have c5 : ∀ {c c'} (h : CaseLike p p' c c'), M1 (.enumCase c) (.enumCase c') (.case h) := by
    intro c c' h
    show generate g _ = generate g' _
    unfold generate
    rw [case_rel hc h]
  have c6 : ∀ {a a'} (h : AliasLike p p' a a'), M1 (.alias a) (.alias a') (.alias h) := by
    intro a a' h
    show generate g _ = generate g' _
    cases h with
    | mk h0 h1 =>
      unfold generate genAlias
      rw [typeName_plain hc h0, typeName_rel hc h1]
  have c7 : ∀ {i}, M1 (.import i) (.import i) .import := by
    intro i
    show generate g _ = generate g' _
    unfold generate; rfl
  have c8 : ∀ {n t t' c sub sub' src ms} (h1 : Spelled p p' t t') (h2 : sub ≠ [] → t = t') (h3 : AllLike p p' sub sub'),
      M3 _ _ h3 → M2 (.mk n t c sub src ms) (.mk n t' c sub' src ms) (.mk h1 h2 h3) := fun _ _ _ i => i
  have c9 : M3 [] [] .nil := by
    show genList g _ = genList g' _
    unfold genList; rfl
  have c10 : ∀ {e e' es es'} (h1 : Like p p' e e') (h2 : AllLike p p' es es'), M1 _ _ h1 → M3 _ _ h2 →
      M3 (e :: es) (e' :: es') (.cons h1 h2) := by
    intro e e' es es' h1 h2 i1 i2
    show genList g _ = genList g' _
    unfold genList
    rw [show generate g e = generate g' e' from i1, show genList g es = genList g' es' from i2]
  have c11 : M4 [] [] .nil := by
    show genFieldSubtypes g _ = genFieldSubtypes g' _
    unfold genFieldSubtypes; rfl
  have c12 : ∀ {f f' fs fs'} (h1 : FieldLike p p' f f') (h2 : FieldsLike p p' fs fs'), M2 _ _ h1 → M4 _ _ h2 →
      M4 (f :: fs) (f' :: fs') (.cons h1 h2) := by
    intro f f' fs fs' h1 h2 i1 i2
    show genFieldSubtypes g _ = genFieldSubtypes g' _
    cases h1 with
    | @mk n t t' c sub sub' src ms h1 _ h3 =>
      unfold genFieldSubtypes
      rw [show genList g sub = genList g' sub' from i1, show genFieldSubtypes g fs = genFieldSubtypes g' fs' from i2]
  exact ⟨fun h => Like.rec (motive_1 := M1) (motive_2 := M2) (motive_3 := M3) (motive_4 := M4) c1 c2 c3 c4 c5 c6 c7 c8 c9 c10 c11 c12 h,
    fun h => AllLike.rec (motive_1 := M1) (motive_2 := M2) (motive_3 := M3) (motive_4 := M4) c1 c2 c3 c4 c5 c6 c7 c8 c9 c10 c11 c12 h⟩

theorem file_rel (U : UnicodeTable) (hp : Clear p) (hp' : Clear p') {f f' : RsFile} (h : FileLike p p' f f') :
    (generateRsFile U f).1 = (generateRsFile U f').1 := by
  have hc : Ctx p p' ⟨U, f.targetNs, f.xsdNs⟩ ⟨U, f'.targetNs, f'.xsdNs⟩ := ⟨rfl, h.target, h.xsd, h.xsd', hp, hp'⟩
  unfold generateRsFile
  dsimp only
  rw [(generate_rel hc).2 (allLike_iff.2 h.types)]

theorem convert_rel (U : UnicodeTable) {root : Node} (h : Respellable root p p') :
    convertXsd U root = convertXsd U (respell p p' root) :=
  SameRes.bind (parseFile_rel U h) fun _ _ => file_rel U (clear_of h).1 (clear_of h).2

end Verif.Lemmas.Respell
