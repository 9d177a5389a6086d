import Verif.Spec.Respell
import Verif.Lemmas.Alike
import Verif.Lemmas.Denote
import Verif.Lemmas.GenText
import Verif.Lemmas.GenAfter

/-! # The prefix of XML Schema: names, elements and entities -/

namespace Verif.Lemmas.Respell

open Verif Verif.Model Verif.Spec Verif.RoXml Verif.Lemmas Verif.Lemmas.Parse Verif.Lemmas.Gen
open Verif.Lemmas.Alike (SameRes forall₂_join)

/-! ## Results -/

theorem SameRes.then {α β γ δ : Type} {R : α → β → Prop} {S : γ → δ → Prop} {x : Res α} {y : Res β} {f : α → Res γ}
    {g : β → Res δ} (h : SameRes R x y) (hf : ∀ a b, R a b → SameRes S (f a) (g b)) :
    SameRes S (x.bind f) (y.bind g) := by
  cases x <;> cases y <;> first | exact hf _ _ h | trivial

theorem SameRes.same {α : Type} {R : α → α → Prop} {x : Res α} (h : ∀ a, x = .ok a → R a a) : SameRes R x x := by
  cases x with
  | ok a => exact h a rfl
  | _ => trivial

theorem SameRes.eq {α : Type} {x y : Res α} (h : SameRes Eq x y) : x = y := by
  cases x <;> cases y <;> first | exact congrArg _ h | rfl | exact absurd h id

theorem SameRes.imp {α β : Type} {R S : α → β → Prop} {x : Res α} {y : Res β} (h : SameRes R x y) (hi : ∀ a b, R a b → S a b) :
    SameRes S x y := by
  cases x <;> cases y <;> first | exact hi _ _ h | trivial

theorem mapM'_rel {α β γ δ : Type} {R : α → β → Prop} {S : γ → δ → Prop} {f : α → Res γ} {g : β → Res δ} {l : List α}
    {l' : List β} (h : List.Forall₂ R l l') (hf : ∀ a b, R a b → SameRes S (f a) (g b)) :
    SameRes (List.Forall₂ S) (Res.mapM' f l) (Res.mapM' g l') := by
  induction h with
  | nil => exact .nil
  | cons h1 _ ih =>
    rw [Res.mapM', Res.mapM']
    exact SameRes.then (hf _ _ h1) fun a b hab => SameRes.then ih fun as bs hs => .cons hab hs

theorem forall₂_filter {α β : Type} {R : α → β → Prop} {q : α → Bool} {q' : β → Bool} {l : List α} {l' : List β}
    (h : List.Forall₂ R l l') (hq : ∀ a b, R a b → q a = q' b) : List.Forall₂ R (l.filter q) (l'.filter q') := by
  induction h with
  | nil => exact .nil
  | @cons a b l l' h1 _ ih =>
    rw [List.filter_cons, List.filter_cons, hq a b h1]
    split
    · exact .cons h1 ih
    · exact ih

/-! ## Names -/

abbrev Row (n : Str) : Prop := builtInRow n ≠ []

theorem row_iff {n : Str} : Row n ↔ IsBuiltIn n := by
  constructor
  · intro h
    obtain ⟨row, h1, h2, -⟩ := (builtInRow_iff n (builtInRow n)).1 ⟨rfl, h⟩
    exact ⟨row, h1, h2.symm⟩
  · rintro ⟨row, h1, rfl⟩ h
    have := (builtInRow_iff row.1.toList row.2.toList).2 ⟨row, h1, rfl, rfl⟩
    exact this.2 (this.1.symm.trans h)

theorem row_colon {n : Str} (h : Row n) : ':' ∉ n := by
  obtain ⟨row, h1, rfl⟩ := row_iff.1 h
  have : ∀ row ∈ readmeTable ++ undocumentedTable, ':' ∉ row.1.toList := by decide
  exact this row h1

theorem row_nil : ¬ Row [] := fun h => h (by decide +kernel)

theorem row_suffix {s t : Str} (ht : ∀ row ∈ readmeTable ++ undocumentedTable, t.isSuffixOf row.1.toList = false) : ¬ Row (s ++ t) := by
  intro h
  obtain ⟨row, h1, h2⟩ := row_iff.1 h
  have := ht row h1
  rw [← h2] at this
  have h3 : t.isSuffixOf (s ++ t) = true := List.isSuffixOf_iff_suffix.2 ⟨s, rfl⟩
  rw [h3] at this; cases this

theorem row_prefix {s t : Str} (ht : ∀ row ∈ readmeTable ++ undocumentedTable, t.isPrefixOf row.1.toList = false) : ¬ Row (t ++ s) := by
  intro h
  obtain ⟨row, h1, h2⟩ := row_iff.1 h
  have := ht row h1
  rw [← h2] at this
  have h3 : t.isPrefixOf (t ++ s) = true := List.isPrefixOf_iff_prefix.2 ⟨s, rfl⟩
  rw [h3] at this; cases this

variable {p p' : Option Str}

/-- The prefix can be told from the rest. -/
def Clear (q : Option Str) : Prop := ∀ x, q = some x → ':' ∉ x

theorem ref_spell {q : Option Str} (hq : Clear q) {n : Str} (hn : ':' ∉ n) : Ref q n (spell q n) := by
  cases q with
  | none => exact .bare hn
  | some x => exact .prefixed (hq x rfl)

/-- Not a built-in type under either prefix. -/
def Plain (p p' : Option Str) (s : Str) : Prop := ∀ n, Row n → s ≠ spell p n ∧ s ≠ spell p' n

theorem plain_of {s : Str} (h : ':' ∉ s) (hr : p = none ∨ p' = none → ¬ Row s) : Plain p p' s := by
  intro n hn
  constructor
  · cases p with
    | none => exact fun e => hr (.inl rfl) (e ▸ hn)
    | some x => exact fun e => h (by rw [e]; simp [spell])
  · cases p' with
    | none => exact fun e => hr (.inr rfl) (e ▸ hn)
    | some x => exact fun e => h (by rw [e]; simp [spell])

theorem plain_lit {s : Str} (h : ':' ∉ s ∧ ¬ Row s) : Plain p p' s := plain_of h.1 fun _ => h.2

theorem plain_nil : Plain p p' [] := plain_lit ⟨by simp, row_nil⟩

/-- A name which is neither taken for a built-in type, nor is the type made for its content. -/
def Tame (p p' : Option Str) (s : Str) : Prop :=
  ':' ∉ s ∧ (p = none ∨ p' = none → ¬ Row s ∧ ¬ Row (s ++ "Type".toList))

theorem Tame.plain {s : Str} (h : Tame p p' s) : Plain p p' s := plain_of h.1 fun hn => (h.2 hn).1

theorem colon_append {s t : Str} (h : ':' ∉ s) (ht : ':' ∉ t) : ':' ∉ s ++ t := by
  intro hm
  rcases List.mem_append.1 hm with hm | hm
  · exact h hm
  · exact ht hm

theorem Tame.type {s : Str} (h : Tame p p' s) : Plain p p' (s ++ "Type".toList) :=
  plain_of (colon_append h.1 (by decide)) fun hn => (h.2 hn).2

theorem plain_choice {s : Str} (h : ':' ∉ s) : Plain p p' (s ++ "Choice".toList) :=
  plain_lit ⟨colon_append h (by decide), row_suffix (by decide)⟩

theorem plain_enum {s : Str} (h : ':' ∉ s) : Plain p p' (s ++ "Enum".toList) :=
  plain_lit ⟨colon_append h (by decide), row_suffix (by decide)⟩

theorem plain_case {s : Str} (h : ':' ∉ s) : Plain p p' ("EnumCaseType_".toList ++ s) :=
  plain_lit ⟨colon_append (by decide) h, row_prefix (by decide)⟩

/-- The same type under the two prefixes. -/
inductive Spelled (p p' : Option Str) : Str → Str → Prop where
  | same {s} : Plain p p' s → Spelled p p' s s
  | named {n} : Row n → Spelled p p' (spell p n) (spell p' n)

theorem Spelled.of_named {n s s' : Str} (h : Row n) (e : s = spell p n) (e' : s' = spell p' n) : Spelled p p' s s' := by
  subst e; subst e'; exact .named h

theorem spell_ne_nil {q : Option Str} {n : Str} (h : n ≠ []) : spell q n ≠ [] := by
  cases q with
  | none => exact h
  | some x => simp [spell]

theorem Spelled.ne_nil {s s' : Str} (h : Spelled p p' s s') (hs : s ≠ []) : s' ≠ [] := by
  cases h with
  | same => exact hs
  | named h => exact spell_ne_nil fun e => row_nil (e ▸ h)

theorem respellName_pos {q : Str} (n : Str) : respellName (some q) p' (q ++ ':' :: n) = spell p' n := by
  unfold respellName
  dsimp only
  rw [if_pos]
  · rw [show q ++ ':' :: n = (q ++ [':']) ++ n by simp, List.drop_left' (by simp)]
  · rw [List.isPrefixOf_iff_prefix]; exact ⟨n, by simp⟩

theorem respellName_neg {q v : Str} (h : ∀ n, v ≠ q ++ ':' :: n) : respellName (some q) p' v = v := by
  unfold respellName
  dsimp only
  rw [if_neg]
  intro hp
  obtain ⟨n, hn⟩ := List.isPrefixOf_iff_prefix.1 hp
  exact h n (by rw [← hn]; simp)

theorem spelled_ref {v : Str} (hp : Clear p) (hp' : Clear p') (h : ProperRef p p' v) : Spelled p p' v (respellName p p' v) := by
  have h2 : ∀ n, Row n → v ≠ spell p' n := fun n hn e => h.2 n (e ▸ ref_spell hp' (row_colon hn))
  cases p with
  | none =>
    by_cases hv : ':' ∈ v
    · rw [show respellName none p' v = v from if_pos (.inl hv)]
      exact .same fun n hn => ⟨fun e => row_colon hn (by rw [show v = n from e] at hv; exact hv), h2 n hn⟩
    · have hr := row_iff.2 (h.1 v (.bare hv))
      rw [show respellName none p' v = spell p' v from if_neg (by
        rintro (h | h)
        · exact hv h
        · rw [h] at hr; exact row_nil hr)]
      exact .of_named hr rfl rfl
  | some q =>
    by_cases hv : ∃ n, v = q ++ ':' :: n
    · obtain ⟨n, rfl⟩ := hv
      rw [respellName_pos]
      exact .of_named (row_iff.2 (h.1 n (.prefixed (hp q rfl)))) rfl rfl
    · push Not at hv
      rw [respellName_neg hv]
      exact .same fun n hn => ⟨hv n, h2 n hn⟩

theorem splitOn_join {c : Char} : ∀ {ws : List Str}, ws ≠ [] → (∀ w ∈ ws, c ∉ w) →
    Str.splitOn c ([c].intercalate ws) = ws
  | [], h, _ => absurd rfl h
  | [w], _, h => by
    rw [show [c].intercalate [w] = w by simp]
    exact splitOn_of_not_mem (h w (by simp))
  | w :: w' :: ws, _, h => by
    rw [List.intercalate_cons_cons, show w ++ [c] ++ [c].intercalate (w' :: ws) = w ++ c :: [c].intercalate (w' :: ws) by simp,
      splitOn_append (h w (by simp)), splitOn_join (by simp) fun x hx => h x (by simp [hx])]

theorem spell_blank (hb : ∀ q, p' = some q → ' ' ∉ q) {w : Str} (h : ' ' ∉ w) : ' ' ∉ spell p' w := by
  cases p' with
  | none => exact h
  | some q =>
    intro hm
    rcases List.mem_append.1 hm with hm | hm
    · exact hb q rfl hm
    · rcases List.mem_cons.1 hm with hm | hm
      · cases hm
      · exact h hm

theorem respellName_blank (hb : ∀ q, p' = some q → ' ' ∉ q) {w : Str} (h : ' ' ∉ w) : ' ' ∉ respellName p p' w := by
  cases p with
  | none =>
    unfold respellName
    dsimp only
    split
    · exact h
    · exact spell_blank hb h
  | some q =>
    unfold respellName
    dsimp only
    split
    · exact spell_blank hb fun hm => h (List.mem_of_mem_drop hm)
    · exact h

theorem respellName_nil : respellName p p' [] = [] := by
  cases p with
  | none => unfold respellName; dsimp only; rw [if_pos (.inr rfl)]
  | some q => exact respellName_neg fun n e => by simp at e

theorem words_eq (hb : ∀ q, p' = some q → ' ' ∉ q) {v : Str}
    (hw : ∀ w ∈ (Str.splitOn ' ' v).filter (· ≠ []), Spelled p p' w (respellName p p' w)) :
    (Str.splitOn ' ' (respellNames p p' v)).filter (· ≠ []) = ((Str.splitOn ' ' v).filter (· ≠ [])).map (respellName p p') := by
  unfold respellNames
  rw [splitOn_join (by simpa using Str.splitOn_ne_nil ' ' v), List.filter_map]
  · congr 1
    apply List.filter_congr
    intro w hm
    simp only [Function.comp, decide_eq_decide]
    refine not_congr ⟨fun e => ?_, fun e => by rw [e]; exact respellName_nil⟩
    by_contra hne
    exact (hw w (List.mem_filter.2 ⟨hm, decide_eq_true hne⟩)).ne_nil hne e
  · intro w hw
    obtain ⟨x, hx, rfl⟩ := List.mem_map.1 hw
    exact respellName_blank hb (splitOn_not_mem x hx)

/-! ## Elements -/

@[simp] theorem tag_respell (n : Node) : (respell p p' n).tag = n.tag := by cases n <;> rfl
@[simp] theorem isElement_respell (n : Node) : (respell p p' n).isElement = n.isElement := by cases n <;> rfl

theorem respellAll_eq : ∀ cs : List Node, respellAll p p' cs = cs.map (respell p p')
  | [] => rfl
  | c :: cs => by rw [respellAll, List.map_cons, respellAll_eq cs]

theorem children_respell (n : Node) : (respell p p' n).children = n.children.map (respell p p') := by
  cases n with
  | element u t as ns cs => exact respellAll_eq cs
  | _ => rfl

theorem attrs_respell (n : Node) : (respell p p' n).attrs = n.attrs.map (respellAttr p p') := by
  cases n <;> rfl

theorem namespaces_respell (n : Node) : (respell p p' n).namespaces = n.namespaces.map (respellNs p p') := by
  cases n <;> rfl

theorem respellAttr_name (a : Attr) : (respellAttr p p' a).name = a.name ∧ (respellAttr p p' a).uri = a.uri := by
  unfold respellAttr
  split
  · exact ⟨rfl, rfl⟩
  · split <;> exact ⟨rfl, rfl⟩

theorem attr_find (n : Node) (a : Str) :
    (respell p p' n).attr a = (n.attrs.find? fun b => b.uri = none ∧ b.name = a).map fun b => (respellAttr p p' b).value := by
  unfold Node.attr
  rw [attrs_respell, List.find?_map, Option.map_map]
  congr 2
  funext b
  simp [respellAttr_name]

theorem attr_same (n : Node) {a : Str} (h : a ∉ ["type", "base", "itemType"].map String.toList) (h' : a ≠ "memberTypes".toList) :
    (respell p p' n).attr a = n.attr a := by
  rw [attr_find]
  unfold Node.attr
  cases hf : n.attrs.find? fun b => decide (b.uri = none ∧ b.name = a) with
  | none => rfl
  | some b =>
    have hb := List.find?_some hf
    simp only [decide_eq_true_eq] at hb
    simp only [Option.map_some]
    unfold respellAttr
    rw [if_neg (by rw [hb.2]; exact fun e => h e.2), if_neg (by rw [hb.2]; exact fun e => h' e.2)]

theorem attr_type (n : Node) {a : Str} (h : a ∈ ["type", "base", "itemType"].map String.toList) :
    (respell p p' n).attr a = (n.attr a).map (respellName p p') := by
  rw [attr_find]
  unfold Node.attr
  cases hf : n.attrs.find? fun b => decide (b.uri = none ∧ b.name = a) with
  | none => rfl
  | some b =>
    have hb := List.find?_some hf
    simp only [decide_eq_true_eq] at hb
    simp only [Option.map_some]
    unfold respellAttr
    rw [if_pos (by rw [hb.2]; exact ⟨hb.1, h⟩)]

theorem attr_members (n : Node) :
    (respell p p' n).attr "memberTypes".toList = (n.attr "memberTypes".toList).map (respellNames p p') := by
  rw [attr_find]
  unfold Node.attr
  cases hf : n.attrs.find? fun b => decide (b.uri = none ∧ b.name = "memberTypes".toList) with
  | none => rfl
  | some b =>
    have hb := List.find?_some hf
    simp only [decide_eq_true_eq] at hb
    simp only [Option.map_some]
    unfold respellAttr
    rw [if_neg (by rw [hb.2]; exact fun e => absurd e.2 (by decide)), if_pos hb]

theorem find_respell (n : Node) (t : Str) : findChild (respell p p' n) t = (findChild n t).map (respell p p') := by
  unfold findChild
  rw [children_respell, List.find?_map]
  congr 2
  funext b
  simp

theorem firstText_respell (n : Node) : (respell p p' n).firstText = n.firstText := by
  unfold Node.firstText
  rw [children_respell]
  cases n.children with
  | nil => rfl
  | cons c cs => cases c <;> rfl

theorem doc_respell (n : Node) : getDocumentation (respell p p' n) = getDocumentation n := by
  unfold getDocumentation
  rw [find_respell]
  cases findChild n "annotation".toList with
  | none => rfl
  | some a =>
    simp only [Option.map_some, Option.bind_some]
    rw [find_respell]
    cases findChild a "documentation".toList with
    | none => rfl
    | some d => exact firstText_respell d

theorem name_respell (n : Node) : attrName (respell p p' n) = attrName n := attr_same n (by decide) (by decide)
theorem ref_respell (n : Node) : attrRef (respell p p' n) = attrRef n := attr_same n (by decide) (by decide)
theorem value_respell (n : Node) : attrValue (respell p p' n) = attrValue n := attr_same n (by decide) (by decide)
theorem type_respell (n : Node) : attrType (respell p p' n) = (attrType n).map (respellName p p') := attr_type n (by decide)
theorem base_respell (n : Node) : attrBase (respell p p' n) = (attrBase n).map (respellName p p') := attr_type n (by decide)

theorem xsdType_respell (n : Node) (t : Option Str) : xsdType t (respell p p' n) = xsdType t n := by
  have e1 : ∀ f, valueFacet (respell p p' n) f = valueFacet n f := fun f => by unfold valueFacet; rw [value_respell]
  have e2 : whiteSpaceFacet (respell p p' n) = whiteSpaceFacet n := by unfold whiteSpaceFacet; rw [value_respell]
  unfold xsdType
  dsimp only
  rw [tag_respell, e2]
  simp only [e1]

theorem modifier_respell (n : Node) : elementModifier (respell p p' n) = elementModifier n := by
  have e1 : minOccurs (respell p p' n) = minOccurs n := by
    unfold minOccurs; rw [attr_same n (by decide) (by decide)]
  have e2 : maxOccurs (respell p p' n) = maxOccurs n := by
    unfold maxOccurs; rw [attr_same n (by decide) (by decide)]
  unfold elementModifier
  rw [e1, e2]

theorem use_respell (n : Node) : attrUse (respell p p' n) = attrUse n := by
  unfold attrUse; rw [attr_same n (by decide) (by decide)]

theorem elements_respell (n : Node) :
    ((respell p p' n).children.filter Node.isElement).length = (n.children.filter Node.isElement).length := by
  rw [children_respell, List.filter_map, List.length_map]
  congr 2
  funext b
  simp

/-! ## Entities -/

/-- The same case under the two prefixes. -/
structure CaseLike (p p' : Option Str) (c c' : EnumCase) : Prop where
  name : c.name = c'.name ∨ (c.source = .union ∧ Spelled p p' c.name c'.name)
  comment : c.comment = c'.comment
  value : c.value = c'.value
  type : Option.Rel (Spelled p p') c.typeName c'.typeName
  modifiers : c.typeModifiers = c'.typeModifiers
  source : c.source = c'.source

/-- The same alias. -/
inductive AliasLike (p p' : Option Str) : RAlias → RAlias → Prop where
  | mk {n o o' c s s'} : Plain p p' n → Spelled p p' o o' → AliasLike p p' (.mk n o c s) (.mk n o' c s')

mutual
/-- The same entity under the two prefixes. -/
inductive Like (p p' : Option Str) : RsEntity → RsEntity → Prop where
  | struct {n c fs fs' ag ag' sub sub'} : Plain p p' n → FieldsLike p p' fs fs' → List.Forall₂ (AliasLike p p') ag ag' →
      AllLike p p' sub sub' → Like p p' (.struct (.mk n c fs ag sub)) (.struct (.mk n c fs' ag' sub'))
  | field {f f'} : FieldLike p p' f f' → Like p p' (.structField f) (.structField f')
  | tuple {n c t t' sub sub' ms fs} : Plain p p' n → Spelled p p' t t' → AllLike p p' sub sub' →
      Like p p' (.tupleStruct (.mk n c t sub ms fs)) (.tupleStruct (.mk n c t' sub' ms fs))
  | enum {n cs cs' c t t' sub sub' src} : Plain p p' n → List.Forall₂ (CaseLike p p') cs cs' → Spelled p p' t t' →
      AllLike p p' sub sub' → Like p p' (.enum (.mk n cs c t sub src)) (.enum (.mk n cs' c t' sub' src))
  | case {c c'} : CaseLike p p' c c' → Like p p' (.enumCase c) (.enumCase c')
  | alias {a a'} : AliasLike p p' a a' → Like p p' (.alias a) (.alias a')
  | import {i} : Like p p' (.import i) (.import i)
inductive FieldLike (p p' : Option Str) : StructField → StructField → Prop where
  | mk {n t t' c sub sub' src ms} : Spelled p p' t t' → (sub ≠ [] → t = t') → AllLike p p' sub sub' →
      FieldLike p p' (.mk n t c sub src ms) (.mk n t' c sub' src ms)
inductive AllLike (p p' : Option Str) : List RsEntity → List RsEntity → Prop where
  | nil : AllLike p p' [] []
  | cons {e e' es es'} : Like p p' e e' → AllLike p p' es es' → AllLike p p' (e :: es) (e' :: es')
inductive FieldsLike (p p' : Option Str) : List StructField → List StructField → Prop where
  | nil : FieldsLike p p' [] []
  | cons {f f' fs fs'} : FieldLike p p' f f' → FieldsLike p p' fs fs' → FieldsLike p p' (f :: fs) (f' :: fs')
end

theorem fieldsLike_iff {fs fs' : List StructField} : FieldsLike p p' fs fs' ↔ List.Forall₂ (FieldLike p p') fs fs' := by
  constructor
  · intro h
    induction fs generalizing fs' with
    | nil => cases h; exact .nil
    | cons f fs ih => cases h with | cons h1 h2 => exact .cons h1 (ih h2)
  · intro h
    induction h with
    | nil => exact .nil
    | cons h1 _ ih => exact .cons h1 ih

theorem allLike_iff {es es' : List RsEntity} : AllLike p p' es es' ↔ List.Forall₂ (Like p p') es es' := by
  constructor
  · intro h
    induction es generalizing es' with
    | nil => cases h; exact .nil
    | cons f fs ih => cases h with | cons h1 h2 => exact .cons h1 (ih h2)
  · intro h
    induction h with
    | nil => exact .nil
    | cons h1 _ ih => exact .cons h1 ih

theorem AllLike.isEmpty {es es' : List RsEntity} (h : AllLike p p' es es') : es.isEmpty = es'.isEmpty := by
  cases h <;> rfl

theorem fieldLike_simple {n t t' : Str} {c : Option Str} {src : FieldSource} {ms : List TypeModifier} (h : Spelled p p' t t') :
    FieldLike p p' (.mk n t c [] src ms) (.mk n t' c [] src ms) := .mk h (fun h => absurd rfl h) .nil

theorem Like.setName {e e' : RsEntity} (h : Like p p' e e') {n : Str} (hn : Plain p p' n) :
    Like p p' (e.setName n) (e'.setName n) := by
  cases h with
  | struct _ h1 h2 h3 => exact .struct hn h1 h2 h3
  | field h1 => cases h1 with | mk h1 h2 h3 => exact .field (.mk h1 h2 h3)
  | tuple _ h1 h2 => exact .tuple hn h1 h2
  | enum _ h1 h2 h3 => exact .enum hn h1 h2 h3
  | case h1 => exact .case ⟨.inl rfl, h1.comment, h1.value, h1.type, h1.modifiers, h1.source⟩
  | «alias» h1 => cases h1 with | mk _ h1 => exact .alias (.mk hn h1)
  | «import» => exact .import

theorem Like.setComment {e e' : RsEntity} (h : Like p p' e e') (c : Option Str) :
    Like p p' (e.setComment c) (e'.setComment c) := by
  cases h with
  | struct h0 h1 h2 h3 => exact .struct h0 h1 h2 h3
  | field h1 => cases h1 with | mk h1 h2 h3 => exact .field (.mk h1 h2 h3)
  | tuple h0 h1 h2 => exact .tuple h0 h1 h2
  | enum h0 h1 h2 h3 => exact .enum h0 h1 h2 h3
  | case h1 => exact .case ⟨h1.name, rfl, h1.value, h1.type, h1.modifiers, h1.source⟩
  | «alias» h1 => cases h1 with | mk h0 h1 => exact .alias (.mk h0 h1)
  | «import» => exact .import

theorem setName_name (e : RsEntity) (n : Str) : (e.setName n).name = n := by
  cases e with
  | struct s => cases s; rfl
  | structField s => cases s; rfl
  | tupleStruct s => cases s; rfl
  | enum s => cases s; rfl
  | enumCase c => rfl
  | «alias» s => cases s; rfl
  | «import» i => rfl

end Verif.Lemmas.Respell
