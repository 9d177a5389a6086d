import Verif.Spec.Characters
import Verif.Lemmas.ExtendInv
import Verif.Lemmas.Pipeline
import Verif.Lemmas.GenLex

/-!
# Two Unicode tables which agree on the characters of a document
-/

namespace Verif.Lemmas.Chars

open Verif Verif.Model Verif.RoXml Verif.Spec Inflector

variable {U V : UnicodeTable}

/-! ## Names -/

/-- The tables agree on all characters of the text. -/
def Agreed (U V : UnicodeTable) (s : Str) : Prop := ∀ c ∈ s, SameClasses U V c

theorem same_ascii {c : Char} (h : c.toNat < 128) : SameClasses U V c where
  alphanumeric := by rw [U.alnum_ascii c h, V.alnum_ascii c h]
  numeric := by rw [U.numeric_ascii c h, V.numeric_ascii c h]
  lowercase := by rw [U.lower_ascii c h, V.lower_ascii c h]
  uppercase := by rw [U.upper_ascii c h, V.upper_ascii c h]

theorem agreed_ascii {s : Str} (h : ∀ c ∈ s, c.toNat < 128) : Agreed U V s := fun c hc => same_ascii (h c hc)

theorem agreed_append {s t : Str} : Agreed U V (s ++ t) ↔ Agreed U V s ∧ Agreed U V t := by
  unfold Agreed
  simp only [List.mem_append, or_imp, forall_and]

theorem agreed_cons {c : Char} {s : Str} : Agreed U V (c :: s) ↔ SameClasses U V c ∧ Agreed U V s := by
  unfold Agreed
  simp only [List.mem_cons, forall_eq_or_imp]

theorem agreed_nil : Agreed U V [] := fun _ h => by cases h

theorem small {c : Char} (n : Nat) (hn : n < 128) (h : c = Char.ofNat n) : c.toNat < 128 := by
  subst h
  have hv : n.isValidChar := Or.inl (by omega)
  unfold Char.ofNat
  rw [dif_pos hv]
  exact hn

theorem same_lower {c : Char} (h : SameClasses U V c) : SameClasses U V (toAsciiLower c) := by
  unfold toAsciiLower
  split
  · rename_i hu
    refine same_ascii (small _ ?_ rfl)
    have hc : c ≤ 'Z' := by
      unfold asciiUpper at hu
      simp only [Bool.and_eq_true, decide_eq_true_eq] at hu
      exact hu.2
    have : c.toNat ≤ 90 := hc
    omega
  · exact h

theorem same_upper {c : Char} (h : SameClasses U V c) : SameClasses U V (toAsciiUpper c) := by
  unfold toAsciiUpper
  split
  · rename_i hu
    refine same_ascii (small _ ?_ rfl)
    have hc : c ≤ 'z' := by
      unfold asciiLower at hu
      simp only [Bool.and_eq_true, decide_eq_true_eq] at hu
      exact hu.2
    have : c.toNat ≤ 122 := hc
    omega
  · exact h

theorem dropWhile_congr {p q : Char → Bool} {s : Str} (h : ∀ c ∈ s, p c = q c) : s.dropWhile p = s.dropWhile q := by
  induction s with
  | nil => rfl
  | cons c cs ih =>
    rw [List.dropWhile_cons, List.dropWhile_cons, h c List.mem_cons_self, ih fun d hd => h d (List.mem_cons_of_mem _ hd)]

theorem trimRight_same {s : Str} (h : Agreed U V s) : trimRight U s = trimRight V s := by
  unfold trimRight
  rw [dropWhile_congr fun c hc => by rw [(h c (List.mem_reverse.1 hc)).alphanumeric]]

theorem agreed_trimRight {s : Str} (h : Agreed U V s) : Agreed U V (trimRight U s) := by
  intro c hc
  unfold trimRight at hc
  exact h c (List.mem_reverse.1 ((List.dropWhile_sublist _).subset (List.mem_reverse.1 hc)))

theorem same_at {s : Str} (h : Agreed U V s) (i : Nat) : SameClasses U V (s[i]?.getD 'A') := by
  cases e : s[i]? with
  | none => exact same_ascii (by decide)
  | some c => exact h c (List.mem_of_getElem? e)

theorem snakeGo_same {s : Str} (hs : Agreed U V s) : ∀ (t : Str) (i : Nat) (first : Bool), Agreed U V t →
    snakeGo U s i first t = snakeGo V s i first t
  | [], _, _, _ => by rw [snakeGo, snakeGo]
  | c :: cs, i, first, h => by
    obtain ⟨h1, h2⟩ := agreed_cons.1 h
    have hl : nextOrPrevLower U s i = nextOrPrevLower V s i := by
      unfold nextOrPrevLower
      rw [(same_at hs (i + 1)).lowercase, (same_at hs (i - 1)).lowercase]
    rw [snakeGo, snakeGo, h1.alphanumeric, hl, snakeGo_same hs cs _ first h2, snakeGo_same hs cs _ true h2,
      snakeGo_same hs cs _ false h2]

theorem agreed_snakeGo {s : Str} : ∀ (t : Str) (i : Nat) (first : Bool), Agreed U V t → Agreed U V (snakeGo U s i first t)
  | [], _, _, _ => by rw [snakeGo]; exact agreed_nil
  | c :: cs, i, first, h => by
    obtain ⟨h1, h2⟩ := agreed_cons.1 h
    have hu : SameClasses U V '_' := same_ascii (by decide)
    rw [snakeGo]
    split
    · split
      · exact agreed_snakeGo cs _ _ h2
      · exact agreed_cons.2 ⟨hu, agreed_snakeGo cs _ _ h2⟩
    · split
      · exact agreed_cons.2 ⟨hu, agreed_cons.2 ⟨same_lower h1, agreed_snakeGo cs _ _ h2⟩⟩
      · exact agreed_cons.2 ⟨same_lower h1, agreed_snakeGo cs _ _ h2⟩

theorem pascalGo_same : ∀ (t : Str) (found word : Bool) (last : Char), SameClasses U V last → Agreed U V t →
    pascalGo U found word last t = pascalGo V found word last t
  | [], _, _, _, _, _ => by rw [pascalGo, pascalGo]
  | c :: cs, found, word, last, hl, h => by
    obtain ⟨h1, h2⟩ := agreed_cons.1 h
    rw [pascalGo, pascalGo, h1.alphanumeric, h1.numeric, h1.uppercase, hl.lowercase,
      pascalGo_same cs found true last hl h2, pascalGo_same cs found word last hl h2, pascalGo_same cs true true last hl h2,
      pascalGo_same cs true false last hl h2, pascalGo_same cs true word c h1 h2]

theorem agreed_pascalGo : ∀ (t : Str) (found word : Bool) (last : Char), Agreed U V t →
    Agreed U V (pascalGo U found word last t)
  | [], _, _, _, _ => by rw [pascalGo]; exact agreed_nil
  | c :: cs, found, word, last, h => by
    obtain ⟨h1, h2⟩ := agreed_cons.1 h
    rw [pascalGo]
    split
    · exact agreed_pascalGo cs _ _ _ h2
    · split
      · exact agreed_pascalGo cs _ _ _ h2
      · split
        · exact agreed_cons.2 ⟨h1, agreed_pascalGo cs _ _ _ h2⟩
        · split
          · exact agreed_cons.2 ⟨same_upper h1, agreed_pascalGo cs _ _ _ h2⟩
          · exact agreed_cons.2 ⟨same_lower h1, agreed_pascalGo cs _ _ _ h2⟩

theorem sanitize_same {s : Str} (h : Agreed U V s) : sanitize U s = sanitize V s := by
  cases s with
  | nil => rfl
  | cons c cs => unfold sanitize; dsimp only; rw [(agreed_cons.1 h).1.numeric]

theorem agreed_sanitize {s : Str} (h : Agreed U V s) : Agreed U V (sanitize U s) := by
  cases s with
  | nil => exact h
  | cons c cs =>
    unfold sanitize
    dsimp only
    split
    · exact agreed_cons.2 ⟨same_ascii (by decide), h⟩
    · exact h

theorem filterTypeName_same {s : Str} (h : Agreed U V s) : filterTypeName U s = filterTypeName V s := by
  unfold filterTypeName
  exact List.filter_congr fun c hc => by rw [(h c hc).alphanumeric]

theorem agreed_filter {s : Str} (p : Char → Bool) (h : Agreed U V s) : Agreed U V (s.filter p) :=
  fun c hc => h c (List.mem_filter.1 hc).1

theorem agreed_lastSegment {s : Str} (h : Agreed U V s) : Agreed U V (lastSegment s) := fun c hc => h c (Gen.mem_lastSegment hc)

theorem agreed_ref {s n : Str} {o : Option Str} (h : Agreed U V s) (hs : splitName s = (o, n)) :
    Agreed U V n ∧ ∀ p, o = some p → Agreed U V p := by
  have hr := Gen.splitName_iff.1 hs
  cases hr with
  | bare _ => exact ⟨h, fun _ h => by cases h⟩
  | prefixed _ =>
    obtain ⟨h1, h2⟩ := agreed_append.1 h
    exact ⟨(agreed_cons.1 h2).2, fun p e => by cases e; exact h1⟩

theorem formatName_same {s : Str} (h : Agreed U V s) : defaultFormatName U s = defaultFormatName V s := by
  have h := agreed_lastSegment h
  unfold defaultFormatName toSnakeCase
  rw [sanitize_same (agreed_snakeGo _ _ _ (agreed_trimRight h)), trimRight_same h,
    snakeGo_same h _ _ _ (trimRight_same h ▸ agreed_trimRight h)]

theorem agreed_formatName {s : Str} (h : Agreed U V s) : Agreed U V (defaultFormatName U s) :=
  agreed_sanitize (agreed_snakeGo _ _ _ (agreed_trimRight (agreed_lastSegment h)))

theorem formatType_same {s : Str} (h : Agreed U V s) (tns : Option Namespace) :
    defaultFormatType U s tns = defaultFormatType V s tns := by
  unfold defaultFormatType
  generalize hs : splitName s = x
  obtain ⟨o, n⟩ := x
  obtain ⟨h1, h2⟩ := agreed_ref h hs
  have hp : Agreed U V (toPascalCase U n) := agreed_pascalGo _ _ _ _ (agreed_trimRight h1)
  have e : filterTypeName U (toPascalCase U n) = filterTypeName V (toPascalCase V n) := by
    rw [filterTypeName_same hp]
    unfold toPascalCase
    rw [trimRight_same h1, pascalGo_same _ _ _ _ (same_ascii (by decide)) (trimRight_same h1 ▸ agreed_trimRight h1)]
  have ha : Agreed U V (filterTypeName V (toPascalCase V n)) := by
    rw [← e]
    exact agreed_filter _ hp
  dsimp only
  rw [e]
  generalize filterTypeName V (toPascalCase V n) = p at ha
  apply sanitize_same
  have hq : ∀ q, o = some q → Agreed U V (q ++ "::".toList ++ p) := fun q hq =>
    agreed_append.2 ⟨agreed_append.2 ⟨h2 q hq, agreed_ascii (by decide)⟩, ha⟩
  cases o with
  | none => exact ha
  | some q =>
    cases nsPrefix tns with
    | none => exact hq q rfl
    | some t =>
      dsimp only
      split
      · exact ha
      · exact hq q rfl

theorem formatTypeName_same {s : Str} (h : Agreed U V s) (tns xns : Option Namespace) :
    formatTypeName U tns xns s = formatTypeName V tns xns s := by
  unfold formatTypeName
  rw [formatType_same h]

/-! ## The generator -/

/-- The properties of the strings in the entities. -/
def charPreds (U V : UnicodeTable) : Parse.Preds where
  R := fun n t _ => Agreed U V n ∧ Agreed U V t
  N := Agreed U V
  T := Agreed U V
  C := Agreed U V
  F := fun f => ∀ v, f = .enumeration v → Agreed U V v
  J := fun _ => True
  L := fun _ => True

variable {tns xns : Option Namespace}

theorem genField_same {f : StructField} (hn : Agreed U V f.name) (ht : Agreed U V f.typeName) :
    genField ⟨U, tns, xns⟩ f = genField ⟨V, tns, xns⟩ f := by
  unfold genField fieldMacros fieldTypeName GenCtx.name GenCtx.typeName
  dsimp only
  rw [formatName_same hn, formatTypeName_same ht]

theorem caseName_same {c : EnumCase} (hn : Agreed U V c.name) : caseName ⟨U, tns, xns⟩ c = caseName ⟨V, tns, xns⟩ c := by
  unfold caseName
  dsimp only
  rw [formatType_same hn]

theorem genCase_same {c : EnumCase} (hn : Agreed U V c.name) (ht : ∀ t, c.typeName = some t → Agreed U V t) :
    genCase ⟨U, tns, xns⟩ c = genCase ⟨V, tns, xns⟩ c := by
  unfold genCase caseMacros
  rw [caseName_same hn]
  dsimp only
  cases e : c.typeName with
  | none => rfl
  | some t =>
    dsimp only
    unfold GenCtx.typeName
    dsimp only
    rw [formatTypeName_same (ht t e)]

theorem genFields_same {n : Str} {fs : List StructField} (hn : Agreed U V n) (hf : ∀ f ∈ fs, (charPreds U V).field f) :
    genFields ⟨U, tns, xns⟩ n fs = genFields ⟨V, tns, xns⟩ n fs := by
  unfold genFields
  have : fs.map (fun f => genField ⟨U, tns, xns⟩ (qualifyField (GenCtx.name ⟨U, tns, xns⟩ n) f)) =
      fs.map fun f => genField ⟨V, tns, xns⟩ (qualifyField (GenCtx.name ⟨V, tns, xns⟩ n) f) := by
    refine List.map_congr_left fun f hm => ?_
    have e : GenCtx.name ⟨U, tns, xns⟩ n = GenCtx.name ⟨V, tns, xns⟩ n := formatName_same hn
    have ha : Agreed U V (GenCtx.name ⟨U, tns, xns⟩ n) := agreed_formatName hn
    rw [← e]
    obtain ⟨h1, h2⟩ := hf f hm
    obtain ⟨a, t, c, s, src, ms⟩ := f
    unfold qualifyField
    dsimp only
    split
    · exact genField_same h1 h2
    · exact genField_same h1 (agreed_append.2 ⟨agreed_append.2 ⟨ha, agreed_ascii (by decide)⟩, h2⟩)
  dsimp only
  rw [this]

theorem typeName_same {s : Str} (h : Agreed U V s) : GenCtx.typeName ⟨U, tns, xns⟩ s = GenCtx.typeName ⟨V, tns, xns⟩ s :=
  formatTypeName_same h _ _

mutual
theorem generate_same : ∀ (e : RsEntity), Parse.Deep (charPreds U V).entity e →
    generate ⟨U, tns, xns⟩ e = generate ⟨V, tns, xns⟩ e
  | .struct (.mk n c fs ag ss), h => by
    obtain ⟨h1, -, h3, -⟩ := h.here
    have hg := genFields_same (tns := tns) (xns := xns) h1 h3
    have ht := typeName_same (tns := tns) (xns := xns) h1
    have hm : GenCtx.name ⟨U, tns, xns⟩ n = GenCtx.name ⟨V, tns, xns⟩ n := formatName_same h1
    dsimp only [RStruct.name, RStruct.fields] at hg ht
    rw [generate, generate, genFieldSubtypes_same fs fun f hf x hx => h.inside x
        (List.mem_append.2 (.inr (List.mem_flatMap.2 ⟨f, hf, hx⟩))),
      genList_same ss fun x hx => h.inside x (List.mem_append.2 (.inl hx))]
    unfold structText structSubtypes structMacros
    rw [hg, ht, hm]
  | .tupleStruct (.mk n c t ss ms fs), h => by
    obtain ⟨h1, h2, -, -⟩ := h.here
    rw [generate, generate, genList_same ss fun x hx => h.inside x hx]
    unfold tupleText tupleTypeName
    have k1 := typeName_same (tns := tns) (xns := xns) h1
    have k2 := typeName_same (tns := tns) (xns := xns) h2
    dsimp only [TupleStruct.name, TupleStruct.typeName] at k1 k2
    rw [k1, k2]
  | .enum (.mk n cs c t ss src), h => by
    obtain ⟨h1, h2, h3, -⟩ := h.here
    rw [generate, generate, genList_same ss fun x hx => h.inside x hx]
    unfold enumText enumMacros
    have : cs.map (genCase ⟨U, tns, xns⟩) = cs.map (genCase ⟨V, tns, xns⟩) :=
      List.map_congr_left fun x hx => genCase_same (h3 x hx).1 (h3 x hx).2
    have k1 := typeName_same (tns := tns) (xns := xns) h1
    have k2 := typeName_same (tns := tns) (xns := xns) h2
    dsimp only [REnum.name, REnum.typeName] at k1 k2
    rw [k1, k2, this]
  | .structField f, h => by
    rw [generate, generate, genField_same h.here.1 h.here.2]
  | .enumCase x, h => by
    rw [generate, generate, genCase_same h.here.1 h.here.2]
  | .alias (.mk n o c ss), h => by
    obtain ⟨h1, h2, -⟩ := h.here
    rw [generate, generate]
    unfold genAlias
    have k1 := typeName_same (tns := tns) (xns := xns) h1
    have k2 := typeName_same (tns := tns) (xns := xns) h2
    dsimp only [RAlias.name, RAlias.original] at k1 k2
    rw [k1, k2]
  | .import i, _ => by rw [generate, generate]
theorem genList_same : ∀ (es : List RsEntity), (∀ e ∈ es, Parse.Deep (charPreds U V).entity e) →
    genList ⟨U, tns, xns⟩ es = genList ⟨V, tns, xns⟩ es
  | [], _ => by rw [genList, genList]
  | e :: es, h => by
    rw [genList, genList, generate_same e (h e List.mem_cons_self), genList_same es fun x hx => h x (List.mem_cons_of_mem _ hx)]
theorem genFieldSubtypes_same : ∀ (fs : List StructField), (∀ f ∈ fs, ∀ e ∈ f.subtypes, Parse.Deep (charPreds U V).entity e) →
    genFieldSubtypes ⟨U, tns, xns⟩ fs = genFieldSubtypes ⟨V, tns, xns⟩ fs
  | [], _ => by rw [genFieldSubtypes, genFieldSubtypes]
  | .mk n t c ss src ms :: fs, h => by
    rw [genFieldSubtypes, genFieldSubtypes, genList_same ss fun x hx => h _ List.mem_cons_self x hx,
      genFieldSubtypes_same fs fun f hf => h f (List.mem_cons_of_mem _ hf)]
end

theorem generateRsFile_same {f : RsFile} (h : ∀ e ∈ f.types, Parse.Deep (charPreds U V).entity e) :
    (generateRsFile U f).1 = (generateRsFile V f).1 := by
  unfold generateRsFile
  dsimp only
  rw [genList_same f.types h]

end Verif.Lemmas.Chars
