import Verif.Lemmas.SynItems
import Verif.Lemmas.Outline2

/-! # Generated code is Rust: members, checks and items -/

namespace Verif.Lemmas.Syn

open Verif Verif.Model Verif.Spec Verif.Spec.Syn

attribute [local irreducible] genBoundValidation genLenValidation structText enumText genField genCase

variable {g : GenCtx}

theorem tk {P : List Tok → Prop} {a b : List Tok} (h : P a) (e : a = b) : P b := e ▸ h

macro "tks" : tactic => `(tactic| first | rfl |
  (simp only [commas, List.append_assoc, List.cons_append, List.nil_append, List.append_nil, List.flatMap_cons, List.flatMap_nil]; done) |
  (simp only [commas, List.append_assoc, List.cons_append, List.nil_append, List.append_nil, List.flatMap_cons, List.flatMap_nil]; rfl))

/-! ## Members -/

theorem has_genField {f : StructField} (h : QuoteSafe f.name) (ht : SafeNamespace g.targetNs) (he : .empty ∉ f.typeModifiers)
    (hn : LegalIdent (g.name f.name)) (hty : TypeText (g.typeName f.typeName)) : Has Syn.Field (genField g f) := by
  obtain ⟨ts, h1, h2⟩ := typeText_modify hty f.typeModifiers
  obtain ⟨as, h3, h4⟩ := has_fieldMacros h ht
  have hp : Seg "    pub ".toList [kw "pub"] := seg_of 20 (by decide +kernel)
  have hc : Seg ": ".toList [pt ":"] := seg_of 20 (by decide +kernel)
  have hk : Seg ",".toList [pt ","] := seg_of 20 (by decide +kernel)
  have := (seg_doc f.comment 4).app (h3.app (hp.app (((opn_word hn).app hc ⟨':', rfl, by decide⟩).app ((opn_ty h1 h2).app hk ⟨',', rfl, by decide⟩))))
  refine ⟨_, seg_cast this ?_ rfl, ?_⟩
  · rw [genField, if_neg (by simpa using he)]
    simp only [List.append_assoc]
    rfl
  · exact tk (Syn.Field.mk h4 hn h2) (by tks)

theorem has_genCase {c : EnumCase} (h : QuoteSafe c.name) (hn : LegalIdent (caseName g c))
    (hty : ∀ t, c.typeName = some t → TypeText (g.typeName t)) : Has Variant (genCase g c) := by
  obtain ⟨as, h3, h4⟩ := has_caseMacros (g := g) h
  rw [genCase]
  cases ht : c.typeName with
  | none =>
    have hk : Seg ",".toList [pt ","] := seg_of 20 (by decide +kernel)
    have := (seg_doc c.comment 4).app (h3.app ((seg_spaces 4).app ((opn_word hn).app hk ⟨',', rfl, by decide⟩)))
    refine ⟨_, seg_cast this ?_ rfl, ?_⟩
    · simp only [List.append_assoc, List.nil_append]; rfl
    · exact tk (Variant.bare h4 hn) (by tks)
  | some t =>
    obtain ⟨ts, h1, h2⟩ := typeText_modify (hty t ht) c.typeModifiers
    have ho : Seg "(".toList [pt "("] := seg_of 20 (by decide +kernel)
    have hk : Seg "),".toList [pt ")", pt ","] := seg_of 20 (by decide +kernel)
    have := (seg_doc c.comment 4).app (h3.app ((seg_spaces 4).app (((opn_word hn).app ho ⟨'(', rfl, by decide⟩).app
      ((opn_ty h1 h2).app hk ⟨')', rfl, by decide⟩))))
    refine ⟨_, seg_cast this ?_ rfl, ?_⟩
    · simp only [List.append_assoc]; rfl
    · exact tk (Variant.with h4 hn h2) (by tks)

theorem has_join {P : List Tok → Prop} {s : Str} (hs : Seg s []) {xs : List Str} (h : ∀ x ∈ xs, Has (Many P) x) :
    Has (Many P) (joinWith s xs) := by
  cases xs with
  | nil => exact Has.nil
  | cons x xs =>
    rw [joinWith]
    refine (h x (by simp)).app ?_
    have h' := fun y hy => h y (List.mem_cons_of_mem x hy)
    clear h
    induction xs with
    | nil => exact Has.nil
    | cons y ys ih =>
      rw [List.flatMap_cons]
      exact (Has.silent hs (h' y (by simp))).app (ih fun z hz => h' z (by simp only [List.mem_cons] at hz ⊢; tauto))

theorem has_genFields {n : Str} {fs : List StructField} (h : ∀ f ∈ fs, FieldSafe f) (ht : SafeNamespace g.targetNs)
    (hw : ∀ f ∈ fs, .empty ∉ f.typeModifiers → LegalIdent (g.name f.name) ∧
        TypeText (g.typeName (if f.subtypes.isEmpty then f.typeName else g.name n ++ "::".toList ++ f.typeName))) :
    Has (Many Syn.Field) (genFields g n fs) := by
  have key : Has (Many Syn.Field) (joinWith "\n\n".toList ((fs.map fun f => genField g (qualifyField (g.name n) f)).filter (· ≠ []))) := by
    refine has_join (seg_of 5 (by decide +kernel)) ?_
    intro x hx
    obtain ⟨hx, hne⟩ := List.mem_filter.1 hx
    obtain ⟨f, hf, rfl⟩ := List.mem_map.1 hx
    have hne : genField g (qualifyField (g.name n) f) ≠ [] := by simpa using hne
    obtain ⟨q1, q2, q3, q4⟩ := Gen.qualifyField_props (g.name n) f
    rw [ne_eq, Gen.genField_nil, q2] at hne
    obtain ⟨k1, k2⟩ := hw f hf hne
    refine Has.one (has_genField ?_ ht (by rw [q2]; exact hne) ?_ ?_)
    · rw [q1]; exact (h f hf).1
    · rw [q1]; exact k1
    · rw [q4]; exact k2
  unfold genFields
  dsimp only
  split
  · exact key
  · exact Has.silent_end (Has.silent seg_nl key) seg_nl

/-! ## Checks -/

theorem opn_num {w : Str} (h : w ≠ []) (hd : ∀ d ∈ w, Syn.digit d = true) : Opn w [.num w] := by
  intro s us hf hs
  refine .num h hd (fun d hd => (hf d hd).1) ?_ hs
  intro d h0 _
  cases s with
  | nil => cases h0
  | cons c s => cases h0; exact absurd (hf '.' rfl) (by decide)

theorem self_zero : Operand [kw "self", pt ".", .num "0".toList] := .field (e := [kw "self"]) (.path (.keyword (by decide)))

theorem ret_err {e : List Tok} {m : Str} (h : Operand e) : Stmt (kw "return" :: kw "Err" :: pt "(" :: kw "format" :: pt "!" :: pt "(" :: .str m ::
    pt "," :: e ++ [pt ")", pt ")", pt ";"]) := by
  have h1 := Operand.macro (p := [kw "format"]) (as := [[.str m], e]) (path_of (by decide)) (by
    intro a ha
    simp only [List.mem_cons, List.not_mem_nil, or_false] at ha
    rcases ha with rfl | rfl
    · exact .str
    · exact h)
  have h2 := Operand.call (p := [kw "Err"]) (as := [_]) (path_of (by decide)) (by
    intro a ha; rw [List.mem_singleton.1 ha]; exact h1)
  have h3 := Stmt.ret h2
  exact tk h3 (by tks)

theorem has_bound {kind expect v t : Str} {o : String} (ho : o ∈ ["==", "!=", "<", ">", "<=", ">="])
    (hop : Seg ("\n        if self.".toList ++ ("0".toList ++ (" ".toList ++ (o.toList ++ " ".toList)))) [kw "if", kw "self", pt ".", .num "0".toList, pt o])
    (hk : quotedB kind = true) (he : quotedB expect = true) (hv : QuoteSafe v) (ht : TypeText t) :
    Has Stmt (genBoundValidation kind o.toList expect "0".toList v t) := by
  obtain ⟨ts, h1, h2⟩ := ht
  have hm : Quoted (kind ++ (" validation error: invalid value of ".toList ++ ("0".toList ++ ("! \\nExpected: ".toList ++ ("0".toList ++ (" ".toList ++
      (expect ++ (" ".toList ++ (v ++ (".\\nActual: ".toList ++ ("0".toList ++ " == {}".toList))))))))))) :=
by
    repeat' first | exact quoted_of hk | exact quoted_of he | exact quoted_safe hv | exact quoted_of (by decide +kernel) | apply Quoted.app
  have hp : Seg ".parse::".toList [pt ".", kw "parse", pt "::"] := seg_of 20 (by decide +kernel)
  have hu : Seg ">().unwrap() {\n            return Err(format!(".toList
      [pt ">", pt "(", pt ")", pt ".", kw "unwrap", pt "(", pt ")", pt "{", kw "return", kw "Err", pt "(", kw "format", pt "!", pt "("] :=
    seg_of 80 (by decide +kernel)
  have hz : Seg (", self.".toList ++ ("0".toList ++ "));\n        }".toList)) [pt ",", kw "self", pt ".", .num "0".toList, pt ")", pt ")", pt ";", pt "}"] :=
    seg_of 80 (by decide +kernel)
  have := (hop.app ((str_app (quoted_safe hv) hp ⟨'.', rfl, by decide⟩).appOpn (lt_ty h1 h2) |>.app hu ⟨'>', rfl, by decide⟩)).app
    (str_app hm hz ⟨',', rfl, by decide⟩)
  refine ⟨_, seg_cast this ?_ rfl, ?_⟩
  · delta genBoundValidation
    have e1 : " \"".toList = " ".toList ++ ['"'] := rfl
    have e2 : "\".parse::<".toList = '"' :: ".parse::".toList ++ ['<'] := rfl
    have e3 : ">().unwrap() {\n            return Err(format!(\"".toList = ">().unwrap() {\n            return Err(format!(".toList ++ ['"'] := rfl
    have e4 : " == {}\", self.".toList = " == {}".toList ++ '"' :: ", self.".toList := rfl
    simp -failIfUnchanged -implicitDefEqProofs only [e1, e2, e3, e4, List.append_assoc, List.cons_append, List.nil_append]
  · have k1 := Operand.methodAt (n := "parse".toList) (as := []) (Operand.str (w := v)) (legal_of (by decide)) h2 (by simp)
    have k2 := Operand.method (n := "unwrap".toList) (as := []) k1 (legal_of (by decide)) (by simp)
    have k3 := Stmt.cond .nil (Cond.mk self_zero ho k2) (many_one (ret_err (m := kind ++ (" validation error: invalid value of ".toList ++ ("0".toList ++ ("! \\nExpected: ".toList ++ ("0".toList ++ (" ".toList ++
      (expect ++ (" ".toList ++ (v ++ (".\\nActual: ".toList ++ ("0".toList ++ " == {}".toList))))))))))) self_zero))
    exact tk k3 (by tks)

theorem has_len {pre kind expect v : Str} {o : String} {as : List Tok} (ho : o ∈ ["==", "!=", "<", ">", "<=", ">="])
    (hpre : Seg pre as) (has : Many Attr as)
    (hop : Seg ("\n        if self.".toList ++ ("0".toList ++ (".len() ".toList ++ (o.toList ++ " ".toList))))
      [kw "if", kw "self", pt ".", .num "0".toList, pt ".", kw "len", pt "(", pt ")", pt o])
    (hk : quotedB kind = true) (he : quotedB expect = true) (hv : v ≠ []) (hd : ∀ d ∈ v, Syn.digit d = true) :
    Has Stmt (genLenValidation pre kind o.toList expect "0".toList v) := by
  have hsafe : QuoteSafe v := by
    intro c hc
    refine ⟨?_, ?_, ?_⟩ <;> rintro rfl <;> exact absurd (hd _ hc) (by decide)
  have hm : Quoted (kind ++ (" validation error. \\nExpected: ".toList ++ ("0".toList ++ (" length ".toList ++ (expect ++ (" ".toList ++ (v ++
      (" \\nActual: ".toList ++ ("0".toList ++ " length == {}".toList))))))))) :=
by
    repeat' first | exact quoted_of hk | exact quoted_of he | exact quoted_safe hsafe | exact quoted_of (by decide +kernel) | apply Quoted.app
  have hu : Seg " {\n            return Err(format!(".toList
      [pt "{", kw "return", kw "Err", pt "(", kw "format", pt "!", pt "("] :=
    seg_of 80 (by decide +kernel)
  have hz : Seg (", self.".toList ++ ("0".toList ++ ".len()));\n        }".toList)) [pt ",", kw "self", pt ".", .num "0".toList, pt ".", kw "len", pt "(", pt ")", pt ")", pt ")", pt ";", pt "}"] :=
    seg_of 80 (by decide +kernel)
  have := hpre.app (hop.app (((opn_num hv hd).app hu ⟨' ', rfl, by decide⟩).app (str_app hm hz ⟨',', rfl, by decide⟩)))
  refine ⟨_, seg_cast this ?_ rfl, ?_⟩
  · delta genLenValidation
    have e1 : " {\n            return Err(format!(\"".toList = " {\n            return Err(format!(".toList ++ ['"'] := rfl
    have e4 : " length == {}\", self.".toList = " length == {}".toList ++ '"' :: ", self.".toList := rfl
    simp -failIfUnchanged -implicitDefEqProofs only [e1, e4, List.append_assoc, List.cons_append, List.nil_append]
  · have k2 := Operand.method (n := "len".toList) (as := []) self_zero (legal_of (by decide)) (by simp)
    have k3 := Stmt.cond has (Cond.mk k2 ho (.num (w := v))) (many_one (ret_err (m := kind ++ (" validation error. \\nExpected: ".toList ++ ("0".toList ++ (" length ".toList ++ (expect ++ (" ".toList ++ (v ++
      (" \\nActual: ".toList ++ ("0".toList ++ " length == {}".toList))))))))) k2))
    exact tk k3 (by tks)

theorem natStr_digits (n : Nat) : Str.natStr n ≠ [] ∧ ∀ d ∈ Str.natStr n, Syn.digit d = true := by
  refine ⟨Str.natStr_ne_nil n, fun d hd => ?_⟩
  have := List.all_eq_true.1 (Str.allDigits_natStr n) d hd
  exact this

theorem has_facet {f : FacetType} {t r : Str} (hv : ∀ v, facetBound f = some v → QuoteSafe v) (ht : TypeText t)
    (h : genFacetValidation f "0".toList t = .ok r) : Has (Many Stmt) r := by
  have hempty : ∀ {r : Str}, Res.ok ([] : Str) = .ok r → Has (Many Stmt) r := by
    intro r h; obtain rfl := Res.ok.inj h; exact Has.nil
  cases f with
  | length v =>
    rw [genFacetValidation] at h
    obtain ⟨n, -, h⟩ := Res.bind_eq_ok.1 h
    obtain rfl := Res.ok.inj h
    exact Has.one (has_len (o := "!=") (by decide) Seg.nil .nil (seg_of 40 (by decide +kernel)) (by decide) (by decide) (natStr_digits n).1 (natStr_digits n).2)
  | maxLength v =>
    rw [genFacetValidation] at h
    obtain ⟨n, -, h⟩ := Res.bind_eq_ok.1 h
    obtain rfl := Res.ok.inj h
    exact Has.one (has_len (o := ">") (by decide) Seg.nil .nil (seg_of 40 (by decide +kernel)) (by decide) (by decide) (natStr_digits n).1 (natStr_digits n).2)
  | minLength v =>
    rw [genFacetValidation] at h
    obtain ⟨n, -, h⟩ := Res.bind_eq_ok.1 h
    split at h
    · exact hempty h
    · obtain rfl := Res.ok.inj h
      refine Has.one (has_len (o := "<") (as := [pt "#", pt "[", kw "allow", pt "(", kw "clippy", pt "::", kw "len_zero", pt ")", pt "]"]) (by decide)
        (seg_of 60 (by decide +kernel)) (many_one ?_) (seg_of 40 (by decide +kernel)) (by decide) (by decide) (natStr_digits n).1 (natStr_digits n).2)
      exact attr_list (s := "allow") (ms := [[kw "clippy", pt "::", kw "len_zero"]]) (by decide) (by
        intro m hm; obtain rfl := List.mem_singleton.1 hm
        exact .path (.more (path_of (s := "clippy") (by decide)) (legal_of (by decide))))
  | maxExclusive v =>
    rw [genFacetValidation] at h
    obtain rfl := Res.ok.inj h
    exact Has.one (has_bound (o := ">=") (by decide) (seg_of 40 (by decide +kernel)) (by decide) (by decide) (hv v rfl) ht)
  | maxInclusive v =>
    rw [genFacetValidation] at h
    obtain rfl := Res.ok.inj h
    exact Has.one (has_bound (o := ">") (by decide) (seg_of 40 (by decide +kernel)) (by decide) (by decide) (hv v rfl) ht)
  | minExclusive v =>
    rw [genFacetValidation] at h
    obtain rfl := Res.ok.inj h
    exact Has.one (has_bound (o := "<=") (by decide) (seg_of 40 (by decide +kernel)) (by decide) (by decide) (hv v rfl) ht)
  | minInclusive v =>
    rw [genFacetValidation] at h
    obtain rfl := Res.ok.inj h
    exact Has.one (has_bound (o := "<") (by decide) (seg_of 40 (by decide +kernel)) (by decide) (by decide) (hv v rfl) ht)
  | _ => exact hempty h

theorem has_facets {t : Str} (ht : TypeText t) : ∀ {fs : List Facet} {r : Str},
    (∀ f ∈ fs, ∀ v, facetBound f.facetType = some v → QuoteSafe v) → facetBodies t fs = .ok r → Has (Many Stmt) r
  | [], r, _, h => by rw [facetBodies] at h; obtain rfl := Res.ok.inj h; exact Has.nil
  | f :: fs, r, hv, h => by
    rw [facetBodies] at h
    obtain ⟨x, h1, h⟩ := Res.bind_eq_ok.1 h
    obtain ⟨y, h2, h⟩ := Res.bind_eq_ok.1 h
    obtain rfl := Res.ok.inj h
    exact (has_facet (hv f (by simp)) ht h1).app (has_facets ht (fun f' hf' => hv f' (by simp [hf'])) h2)

theorem has_validate {n b : Str} (hn : LegalIdent n) (hb : Has (Many Stmt) b) : Has Syn.Item (genValidateImpl n b) := by
  have hi : Seg "impl Validate for ".toList [kw "impl", kw "Validate", kw "for"] := seg_of 40 (by decide +kernel)
  obtain ⟨bs, h1, h2⟩ := hb
  rw [genValidateImpl]
  split
  · have := hi.app ((opn_word hn).app (seg_of 10 (t := " {}".toList) (ts := [pt "{", pt "}"]) (by decide +kernel)) ⟨' ', rfl, by decide⟩)
    refine ⟨_, seg_cast this (by simp only [List.append_assoc]) rfl, ?_⟩
    exact tk (Item.impl (path_of (s := "Validate") (by decide)) (.path (.one hn)) .nil) (by tks)
  · have hf : Seg " {\n    fn validate(&self) -> Result<(), String> { ".toList [pt "{", kw "fn", kw "validate", pt "(", pt "&", kw "self", pt ")",
        pt "->", kw "Result", pt "<", pt "(", pt ")", pt ",", kw "String", pt ">", pt "{"] := seg_of 80 (by decide +kernel)
    have he : Seg "\n        Ok(())\n    }\n}\n".toList [kw "Ok", pt "(", pt "(", pt ")", pt ")", pt "}", pt "}"] := seg_of 80 (by decide +kernel)
    have := hi.app (((opn_word hn).app hf ⟨' ', rfl, by decide⟩).app (h1.app he))
    refine ⟨_, seg_cast this (by simp only [List.append_assoc]) rfl, ?_⟩
    have k1 : Ty [kw "Result", pt "<", pt "(", pt ")", pt ",", kw "String", pt ">"] := by
      have := Ty.generic (as := [[pt "(", pt ")"], [kw "String"]]) (path_of (s := "Result") (by decide)) (by simp) (by
        intro a ha
        simp only [List.mem_cons, List.not_mem_nil, or_false] at ha
        rcases ha with rfl | rfl
        · exact .unit
        · exact ty_of (by decide))
      exact tk this (by tks)
    have k2 : Operand [kw "Ok", pt "(", pt "(", pt ")", pt ")"] := by
      have := Operand.call (as := [[pt "(", pt ")"]]) (path_of (s := "Ok") (by decide)) (by
        intro a ha; obtain rfl := List.mem_singleton.1 ha; exact .unit)
      exact tk this (by tks)
    have k3 := Func.mk (n := "validate".toList) (legal_of (by decide)) (.inr rfl) k1 h2 k2
    exact tk (Item.impl (path_of (s := "Validate") (by decide)) (.path (.one hn)) (many_one k3)) (by tks)

theorem has_default {n : Str} (hn : LegalIdent n) : Has Syn.Item (enumDefault n) := by
  have hi : Seg "impl Default for ".toList [kw "impl", kw "Default", kw "for"] := seg_of 40 (by decide +kernel)
  have hf : Seg (" {\n".toList ++ (GenCtx.indent ++ "fn default() -> ".toList)) [pt "{", kw "fn", kw "default", pt "(", pt ")", pt "->"] := seg_of 40 (by decide +kernel)
  have he : Seg (" {\n".toList ++ (GenCtx.indent ++ (GenCtx.indent ++ ("Self::__Unknown__(\"No valid variants\".into())\n".toList ++
      (GenCtx.indent ++ "}\n}".toList)))))
    [pt "{", kw "Self", pt "::", kw "__Unknown__", pt "(", .str "No valid variants".toList, pt ".", kw "into", pt "(", pt ")", pt ")", pt "}", pt "}"] :=
    seg_of 80 (by decide +kernel)
  have := hi.app (((opn_word hn).app hf ⟨' ', rfl, by decide⟩).app ((opn_word hn).app he ⟨' ', rfl, by decide⟩))
  refine ⟨_, seg_cast this ?_ rfl, ?_⟩
  · unfold enumDefault; simp only [List.append_assoc]
  · have k1 := Operand.method (n := "into".toList) (as := []) (Operand.str (w := "No valid variants".toList)) (legal_of (by decide)) (by simp)
    have k2 := Operand.call (as := [_]) (Path.more (p := [kw "Self"]) (n := "__Unknown__".toList) (.keyword (by decide)) (legal_of (by decide)))
      (by intro a ha; rw [List.mem_singleton.1 ha]; exact k1)
    have k3 := Func.mk (n := "default".toList) (ps := []) (legal_of (by decide)) (.inl rfl) (.path (.one hn)) .nil k2
    exact tk (Item.impl (path_of (s := "Default") (by decide)) (.path (.one hn)) (many_one k3)) (by tks)

/-! ## Items -/

theorem has_derive {ds : List String} {t : Str} (ht : Seg t (pt "#" :: pt "[" :: kw "derive" :: pt "(" :: commas (ds.map fun d => [kw d]) ++ [pt ")", pt "]"]))
    (hd : ∀ d ∈ ds, legalB d.toList = true) : Has Attr t := by
  refine ⟨_, ht, attr_list (by decide) ?_⟩
  intro m hm
  obtain ⟨d, hd', rfl⟩ := List.mem_map.1 hm
  exact meta_word (hd d hd')

/-- The attribute with the target namespace. -/
theorem has_nsAttr (ht : SafeNamespace g.targetNs) : Has Attr (match g.targetNs with
    | some ⟨some p, uri⟩ => "#[yaserde(prefix = \"".toList ++ p ++ "\", namespace = \"".toList ++ p ++ ": ".toList ++ uri ++ "\")]\n".toList
    | some ⟨none, uri⟩ => "#[yaserde(namespace = \"".toList ++ uri ++ "\")]\n".toList
    | none => "#[yaserde()]\n".toList) := by
  match hn : g.targetNs with
  | none =>
    refine ⟨_, seg_of 40 (ts := [pt "#", pt "[", kw "yaserde", pt "(", pt ")", pt "]"]) (by decide +kernel), ?_⟩
    exact attr_list (s := "yaserde") (ms := []) (by decide) (by simp)
  | some ⟨none, uri⟩ =>
    refine Has.cast (attr_one (pre := "#[yaserde(namespace = ".toList) (ms := []) (pk := "namespace") (ht _ hn).1
      (seg_of 50 (by decide +kernel)) (by decide) (by simp)) ?_
    simp only [List.append_assoc]; rfl
  | some ⟨some p, uri⟩ =>
    have hq : QuoteSafe (p ++ (": ".toList ++ uri)) := by
      intro c hc
      rcases List.mem_append.1 hc with h | h
      · exact (ht _ hn).2 p rfl c h
      rcases List.mem_append.1 h with h | h
      · rename_i k; clear k hc; revert h; revert c; decide
      · exact (ht _ hn).1 c h
    refine Has.cast (attr_two (pre := "#[yaserde(prefix = ".toList) (mid := ", namespace = ".toList)
      (ms := []) (pk := "prefix") (k2 := "namespace") ((ht _ hn).2 p rfl) hq
      (seg_of 50 (by decide +kernel)) (seg_of 50 (by decide +kernel)) rfl (by decide) (by decide) (by simp)) ?_
    simp only [List.append_assoc, List.cons_append]; rfl

theorem has_structMacros (ht : SafeNamespace g.targetNs) : Has (Many Attr) (structMacros g) := by
  have h := (Has.one (has_derive (ds := ["Default", "Clone", "PartialEq", "Debug", "YaSerialize", "YaDeserialize"])
    (t := "#[derive(Default, Clone, PartialEq, Debug, YaSerialize, YaDeserialize)]\n".toList) (seg_of 80 (by decide +kernel)) (by decide))).app
    (Has.one (has_nsAttr ht))
  refine Has.cast h ?_
  unfold structMacros
  dsimp only
  match g.targetNs with
  | none => rfl
  | some ⟨none, uri⟩ => simp only [List.append_assoc]
  | some ⟨some p, uri⟩ => simp only [List.append_assoc]

theorem has_enumMacros (ht : SafeNamespace g.targetNs) (src : EnumSource) : Has (Many Attr) (enumMacros g src) := by
  unfold enumMacros
  split
  · exact Has.one (has_derive (ds := ["PartialEq", "Debug", "UtilsUnionSerDe"]) (seg_of 80 (by decide +kernel)) (by decide))
  · have h := (Has.one (has_derive (ds := ["PartialEq", "Debug", "Clone", "YaSerialize", "YaDeserialize"])
      (t := "#[derive(PartialEq, Debug, Clone, YaSerialize, YaDeserialize)]".toList) (seg_of 80 (by decide +kernel)) (by decide))).app
      (Has.one (has_nsAttr ht))
    refine Has.cast h ?_
    dsimp only
    match g.targetNs with
    | none => rfl
    | some ⟨none, uri⟩ => simp only [List.append_assoc]
    | some ⟨some p, uri⟩ => simp only [List.append_assoc]

theorem has_struct {n : Str} {c : Option Str} {fs : List StructField} (hn : LegalIdent (g.typeName n)) (ht : SafeNamespace g.targetNs)
    (hf : Has (Many Syn.Field) (genFields g n fs)) :
    Has Syn.Item (GenCtx.formatComment c 0 ++ (structMacros g ++
        ("pub struct ".toList ++ (g.typeName n ++ (" {".toList ++ (genFields g n fs ++ "}\n\n".toList)))))) := by
  obtain ⟨as, h1, h2⟩ := has_structMacros ht
  obtain ⟨xs, h3, h4⟩ := hf
  have hp : Seg "pub struct ".toList [kw "pub", kw "struct"] := seg_of 40 (by decide +kernel)
  have ho : Seg " {".toList [pt "{"] := seg_of 40 (by decide +kernel)
  have hc : Seg "}\n\n".toList [pt "}"] := seg_of 40 (by decide +kernel)
  have := (seg_doc c 0).app (h1.app (hp.app (((opn_word hn).app ho ⟨' ', rfl, by decide⟩).app (h3.app hc))))
  exact ⟨_, seg_cast this (by simp only [List.append_assoc]) rfl, tk (Item.struct h2 hn h4) (by tks)⟩

theorem has_structSubtypes {n a b : Str} (hn : a ≠ [] ∨ b ≠ [] → LegalIdent (g.name n)) (ha : Has (Many Syn.Item) a) (hb : Has (Many Syn.Item) b) :
    Has (Many Syn.Item) (structSubtypes g n a b ++ "\n".toList) := by
  obtain ⟨xs, h1, h2⟩ := ha
  obtain ⟨ys, h3, h4⟩ := hb
  unfold structSubtypes
  by_cases h : a ≠ [] ∨ b ≠ []
  · rw [if_pos h]
    have hp : Seg "\npub mod ".toList [kw "pub", kw "mod"] := seg_of 40 (by decide +kernel)
    have hu : Seg (" {\n".toList ++ (GenCtx.indent ++ "use super::*;".toList)) [pt "{", kw "use", kw "super", pt "::", pt "*", pt ";"] := seg_of 40 (by decide +kernel)
    have hc : Seg "}\n".toList [pt "}"] := seg_of 40 (by decide +kernel)
    have := hp.app (((opn_word (hn h)).app hu ⟨' ', rfl, by decide⟩).app (h3.app (seg_nl.app ((seg_shift h1 4).app (hc.app seg_nl)))))
    refine Has.one ⟨_, seg_cast this ?_ rfl, ?_⟩
    · rw [show "\n}\n".toList = ['\n'] ++ "}\n".toList from rfl]
      simp only [List.append_assoc]
      rfl
    · have hi := Item.use (p := [kw "super"]) (.keyword (by decide))
      exact tk (Item.mod (hn h) (.cons hi (many_app h4 h2))) (by tks)
  · rw [if_neg h]
    simp only [not_or, not_not] at h
    obtain ⟨rfl, rfl⟩ := h
    exact ⟨[], seg_of 5 (by decide +kernel), .nil⟩

theorem has_structText {n : Str} {c : Option Str} {fs : List StructField} {a b : Str} (hn : LegalIdent (g.typeName n))
    (hm : a ≠ [] ∨ b ≠ [] → LegalIdent (g.name n)) (ht : SafeNamespace g.targetNs) (hf : Has (Many Syn.Field) (genFields g n fs))
    (ha : Has (Many Syn.Item) a) (hb : Has (Many Syn.Item) b) : Has (Many Syn.Item) (structText g n c fs a b) := by
  have h := (Has.one (has_struct (c := c) hn ht hf)).app ((Has.one (Has.silent_end (has_validate hn Has.nil) seg_nl)).app (has_structSubtypes (g := g) (n := n) hm ha hb))
  refine Has.cast h ?_
  delta structText
  simp only [List.append_assoc]
  rfl

theorem has_enumText {n t : Str} {cs : List EnumCase} {c : Option Str} {src : EnumSource} {a : Str} (hn : LegalIdent (g.typeName n))
    (htn : TypeText (g.typeName t)) (ht : SafeNamespace g.targetNs) (hc : ∀ c ∈ cs, Has Variant (genCase g c)) (ha : Has (Many Syn.Item) a) :
    Has (Many Syn.Item) (enumText g n cs c t src a) := by
  obtain ⟨as, h1, h2⟩ := has_enumMacros ht src
  obtain ⟨vs, h3, h4⟩ : Has (Many Variant) (joinWith "\n".toList (cs.map (genCase g))) := by
    refine has_join seg_nl ?_
    intro x hx
    obtain ⟨c, hc', rfl⟩ := List.mem_map.1 hx
    exact Has.one (hc c hc')
  obtain ⟨ts, h5, h6⟩ := htn
  have hp : Seg "\npub enum ".toList [kw "pub", kw "enum"] := seg_of 40 (by decide +kernel)
  have ho : Seg " {\n".toList [pt "{"] := seg_of 40 (by decide +kernel)
  have hu : Seg ("\n".toList ++ (GenCtx.indent ++ "__Unknown__(".toList)) [kw "__Unknown__", pt "("] := seg_of 40 (by decide +kernel)
  have hq : Seg "),\n}\n\n".toList [pt ")", pt ",", pt "}"] := seg_of 40 (by decide +kernel)
  have hi : Has Syn.Item _ := ⟨_, (seg_doc c 0).app (h1.app (hp.app (((opn_word hn).app ho ⟨' ', rfl, by decide⟩).app (h3.app (hu.app
    ((opn_ty h5 h6).app hq ⟨')', rfl, by decide⟩)))))),
    tk (Item.enum h2 hn (many_app h4 (many_one (Variant.with (n := "__Unknown__".toList) .nil (legal_of (by decide)) h6)))) (by tks)⟩
  have hnn : Seg "\n\n".toList [] := seg_of 5 (by decide +kernel)
  have h := (Has.one hi).app ((Has.one (Has.silent_end (has_default hn) hnn)).app ((Has.one (Has.silent_end (has_validate hn Has.nil) hnn)).app (Has.silent_end ha hnn)))
  refine Has.cast h ?_
  delta enumText
  simp only [List.append_assoc]

theorem has_tupleText {n : Str} {c : Option Str} {t : Str} {ms : List TypeModifier} {fs : List Facet} {sub : Str}
    (hn : LegalIdent (g.typeName n)) (ht : TypeText (g.typeName t))
    (hv : ∀ f ∈ fs, ∀ v, facetBound f.facetType = some v → QuoteSafe v) (ha : Has (Many Syn.Item) sub) {r : Str}
    (h : tupleText g n c t ms fs sub = .ok r) : Has (Many Syn.Item) r := by
  rw [tupleText] at h
  obtain ⟨body, hb, h⟩ := Res.bind_eq_ok.1 h
  obtain rfl := Res.ok.inj h
  have htn := typeText_modify ht ms
  have hbody := has_facets (t := tupleTypeName g t ms) htn hv hb
  obtain ⟨as, h1, h2⟩ := Has.one (has_derive (ds := ["Default", "Clone", "PartialEq", "Debug", "UtilsTupleIo", "UtilsDefaultSerde"])
    (t := "#[derive(Default, Clone, PartialEq, Debug, UtilsTupleIo, UtilsDefaultSerde)]\n".toList) (seg_of 80 (by decide +kernel)) (by decide))
  obtain ⟨ts, h5, h6⟩ := htn
  have hp : Seg "pub struct ".toList [kw "pub", kw "struct"] := seg_of 40 (by decide +kernel)
  have ho : Seg " (pub ".toList [pt "(", kw "pub"] := seg_of 40 (by decide +kernel)
  have hq : Seg ");\n".toList [pt ")", pt ";"] := seg_of 40 (by decide +kernel)
  have hi : Has Syn.Item _ := ⟨_, (seg_doc c 0).app (h1.app (hp.app (((opn_word hn).app ho ⟨' ', rfl, by decide⟩).app
    ((opn_ty h5 h6).app hq ⟨')', rfl, by decide⟩)))), tk (Item.tuple h2 hn h6) (by tks)⟩
  have h := (Has.one hi).app ((Has.silent_end ha seg_nl).app (Has.one (Has.silent_end (has_validate hn hbody) seg_nl)))
  refine Has.cast h ?_
  simp only [List.append_assoc]
  rfl

theorem has_genAlias {n o : Str} {c : Option Str} (hn : LegalIdent (g.typeName n)) (ho : TypeText (g.typeName o))
    (hnl : '\n' ∉ g.typeName n) (hol : '\n' ∉ g.typeName o) : Has (Many Syn.Item) (genAlias g n o c) := by
  obtain ⟨ls, e, h⟩ := comment_shape c 0
  unfold genAlias
  rw [e]
  obtain ⟨ts, h5, h6⟩ := ho
  cases ls with
  | nil =>
    refine ⟨[], seg_cast (seg_comment (l := " pub type ".toList ++ (g.typeName n ++ (" = ".toList ++ (g.typeName o ++ ";".toList)))) ?_ ?_ ?_) ?_ rfl, .nil⟩
    · exact Gen.nl_append (by decide) (Gen.nl_append hnl (Gen.nl_append (by decide) (Gen.nl_append hol (by decide))))
    · exact fun h => absurd (Option.some.inj h) (by decide)
    · exact fun h => absurd (Option.some.inj h) (by decide)
    · rw [List.flatMap_nil]
      simp only [List.append_assoc, List.cons_append, List.append_nil]
      rfl
  | cons l ls =>
    obtain ⟨k1, k2⟩ := h l (by simp)
    have hl : Seg ("//".toList ++ ("//".toList ++ l ++ ['\n'])) [] := by
      refine seg_cast (seg_comment (l := '/' :: '/' :: l) ?_ (fun h => absurd h (by simp)) (fun _ => rfl)) rfl rfl
      intro hm
      rcases List.mem_cons.1 hm with h | h
      · cases h
      rcases List.mem_cons.1 h with h | h
      · cases h
      exact k1 h
    have hls : Seg (ls.flatMap fun l => List.replicate 0 ' ' ++ ('/' :: '/' :: l) ++ ['\n']) [] := by
      have h' := fun m hm => h m (List.mem_cons_of_mem l hm)
      clear h e k1 k2 hl
      induction ls with
      | nil => exact Seg.nil
      | cons m ls ih =>
        rw [List.flatMap_cons]
        obtain ⟨h1, h2⟩ := h' m (by simp)
        refine Seg.app (as := []) (bs := []) ?_ (ih fun x hx => h' x (by simp [hx]))
        refine seg_cast (seg_comment h1 ?_ ?_) rfl rfl
        · rcases h2 with rfl | h2
          · exact fun h => nomatch h
          · rw [h2]; decide
        · rcases h2 with rfl | h2
          · exact fun h => nomatch h
          · rw [h2]; exact fun h => absurd h (by decide)
    have hp : Seg " pub type ".toList [kw "pub", kw "type"] := seg_of 40 (by decide +kernel)
    have he : Seg " = ".toList [pt "="] := seg_of 40 (by decide +kernel)
    have hs : Seg ";\n".toList [pt ";"] := seg_of 40 (by decide +kernel)
    have := hl.app (hls.app (hp.app (((opn_word hn).app he ⟨' ', rfl, by decide⟩).app ((opn_ty h5 h6).app hs ⟨';', rfl, by decide⟩))))
    refine Has.one ⟨_, seg_cast this ?_ rfl, tk (Item.type hn h6) (by tks)⟩
    rw [List.flatMap_cons]
    simp only [List.append_assoc, List.cons_append, List.nil_append]
    rfl

theorem has_genImport {i : Import} (h1 : '\n' ∉ i.location) (h2 : '\n' ∉ i.name) : Has (Many Syn.Item) (genImport i) := by
  refine ⟨[], seg_cast (seg_comment (l := "use ".toList ++ (i.location ++ ("  ".toList ++ (i.name ++ ";".toList)))) ?_ ?_ ?_) ?_ rfl, .nil⟩
  · exact Gen.nl_append (by decide) (Gen.nl_append h1 (Gen.nl_append (by decide) (Gen.nl_append h2 (by decide))))
  · exact fun h => absurd (Option.some.inj h) (by decide)
  · exact fun h => absurd (Option.some.inj h) (by decide)
  · unfold genImport
    simp only [List.append_assoc, List.cons_append]
    rfl

/-! ## The recursion -/

open Gen in
mutual
theorem generate_rust (ht : SafeNamespace g.targetNs) : ∀ (e : RsEntity) (r : Str),
    (∀ x ∈ generated e, SafeTexts x ∧ IsItem x ∧ WellNamed (GenCtx.naming g) x) → generate g e = .ok r → Has (Many Syn.Item) r
  | .struct (.mk n c fs a ss), r, hs, h => by
    rw [generate] at h
    obtain ⟨x, h1, h⟩ := Res.bind_eq_ok.1 h
    obtain ⟨y, h2, h⟩ := Res.bind_eq_ok.1 h
    obtain rfl := Res.ok.inj h
    have hself := hs (.struct (.mk n c fs a ss)) (by simp [generated])
    obtain ⟨-, hf2⟩ := genFieldSubtypes_defs ht fs x (fun z hz => ⟨(hs z (by simp [generated, hz])).1, (hs z (by simp [generated, hz])).2.1⟩) h1
    have hl := genList_defs ht ss y (fun z hz => ⟨(hs z (by simp [generated, hz])).1, (hs z (by simp [generated, hz])).2.1⟩) h2
    have k1 := genFieldSubtypes_rust ht fs x (fun z hz => hs z (by simp [generated, hz])) h1
    have k3 := has_join seg_nl (genList_rust ht ss y (fun z hz => hs z (by simp [generated, hz])) h2)
    have hi : (x.flatten ≠ [] ∨ joinWith "\n".toList y ≠ []) ↔ hasInner fs ss = true := by
      rw [ne_eq, ne_eq, hf2, good_join_nil hl, hasInner]
      simp only [List.map_eq_nil_iff, Bool.or_eq_true, Bool.not_eq_eq_eq_not, Bool.not_true, List.isEmpty_eq_false_iff,
        ne_eq, List.any_eq_true]
      rw [or_comm]
      simp
    exact has_structText hself.2.2.1 (fun h => hself.2.2.2.1 (hi.1 h)) ht
      (has_genFields hself.1.2 ht hself.2.2.2.2) k1 k3
  | .tupleStruct (.mk n c t ss m fs), r, hs, h => by
    rw [generate] at h
    obtain ⟨y, h2, h⟩ := Res.bind_eq_ok.1 h
    have hself := hs (.tupleStruct (.mk n c t ss m fs)) (by simp [generated])
    have k3 := has_join seg_nl (genList_rust ht ss y (fun z hz => hs z (by simp [generated, hz])) h2)
    exact has_tupleText hself.2.2.1 hself.2.2.2 hself.1.2.2 k3 h
  | .enum (.mk n cs c t ss src), r, hs, h => by
    rw [generate] at h
    obtain ⟨y, h2, h⟩ := Res.bind_eq_ok.1 h
    obtain rfl := Res.ok.inj h
    have hself := hs (.enum (.mk n cs c t ss src)) (by simp [generated])
    have k3 := has_join seg_nl (genList_rust ht ss y (fun z hz => hs z (by simp [generated, hz])) h2)
    refine has_enumText hself.2.2.1 hself.2.2.2.1 ht ?_ k3
    intro c hc
    exact has_genCase (hself.1.2.2 c hc).1 (hself.2.2.2.2 c hc).1 (hself.2.2.2.2 c hc).2
  | .structField f, r, hs, h => absurd (hs (.structField f) (by simp [generated])).2.1 fun h => h
  | .enumCase c, r, hs, h => absurd (hs (.enumCase c) (by simp [generated])).2.1 fun h => h
  | .alias (.mk n o c ss), r, hs, h => by
    rw [generate] at h
    obtain rfl := Res.ok.inj h
    have hself := hs (.alias (.mk n o c ss)) (by simp [generated])
    exact has_genAlias hself.2.2.1 hself.2.2.2 (typeName_word g hself.1.1).nl (typeName_word g hself.1.2).nl
  | .import i, r, hs, h => by
    rw [generate] at h
    obtain rfl := Res.ok.inj h
    have hself := hs (.import i) (by simp [generated])
    exact has_genImport hself.1.1 hself.1.2
theorem genList_rust (ht : SafeNamespace g.targetNs) : ∀ (es : List RsEntity) (rs : List Str),
    (∀ x ∈ generatedList es, SafeTexts x ∧ IsItem x ∧ WellNamed (GenCtx.naming g) x) → genList g es = .ok rs →
    ∀ r ∈ rs, Has (Many Syn.Item) r
  | [], rs, _, h => by rw [genList] at h; obtain rfl := Res.ok.inj h; simp
  | e :: es, rs, hs, h => by
    rw [genList] at h
    obtain ⟨x, h1, h⟩ := Res.bind_eq_ok.1 h
    obtain ⟨y, h2, h⟩ := Res.bind_eq_ok.1 h
    obtain rfl := Res.ok.inj h
    intro r hr
    rcases List.mem_cons.1 hr with rfl | hr
    · exact generate_rust ht e _ (fun z hz => hs z (by simp [generatedList, hz])) h1
    · exact genList_rust ht es y (fun z hz => hs z (by simp [generatedList, hz])) h2 r hr
theorem genFieldSubtypes_rust (ht : SafeNamespace g.targetNs) : ∀ (fs : List StructField) (rs : List Str),
    (∀ x ∈ generatedFields fs, SafeTexts x ∧ IsItem x ∧ WellNamed (GenCtx.naming g) x) → genFieldSubtypes g fs = .ok rs →
    Has (Many Syn.Item) rs.flatten
  | [], rs, _, h => by
    rw [genFieldSubtypes] at h; obtain rfl := Res.ok.inj h
    exact Has.nil
  | .mk n t c ss src m :: fs, rs, hs, h => by
    rw [genFieldSubtypes] at h
    obtain ⟨x, h1, h⟩ := Res.bind_eq_ok.1 h
    obtain ⟨y, h2, h⟩ := Res.bind_eq_ok.1 h
    obtain rfl := Res.ok.inj h
    have k1 := has_join seg_nl (genList_rust ht ss x (fun z hz => hs z (by simp [generatedFields, hz])) h1)
    have k3 := genFieldSubtypes_rust ht fs y (fun z hz => hs z (by simp [generatedFields, hz])) h2
    rw [List.flatten_cons]
    exact k1.app k3
end

/-- A generated file. -/
theorem file_has {U : UnicodeTable} {f : RsFile} {r : Str} (ht : SafeNamespace f.targetNs)
    (hs : ∀ x ∈ generatedList f.types, SafeTexts x ∧ IsItem x ∧ WellNamed (Gen.GenCtx.naming ⟨U, f.targetNs, f.xsdNs⟩) x)
    (h : (generateRsFile U f).1 = .ok r) : Has (Many Syn.Item) r := by
  obtain ⟨ts, h1, h2⟩ := Res.bind_eq_ok.1 h
  clear h
  obtain rfl := Res.ok.inj h2
  have hl := genList_rust (g := ⟨U, f.targetNs, f.xsdNs⟩) ht f.types ts hs h1
  clear h1 h2
  induction ts with
  | nil => exact Has.nil
  | cons t ts ih =>
    rw [List.flatten_cons]
    exact (hl t (by simp)).app (ih fun r hr => hl r (by simp [hr]))

theorem file_rust {U : UnicodeTable} {f : RsFile} {r : Str} (ht : SafeNamespace f.targetNs)
    (hs : ∀ x ∈ generatedList f.types, SafeTexts x ∧ IsItem x ∧ WellNamed (Gen.GenCtx.naming ⟨U, f.targetNs, f.xsdNs⟩) x)
    (h : (generateRsFile U f).1 = .ok r) : IsRust r := by
  obtain ⟨xs, k1, k2⟩ := file_has ht hs h
  exact ⟨xs, k1.lexed, k2⟩

end Verif.Lemmas.Syn
