import Verif.Lemmas.SynLex
import Verif.Spec.WellNamed

/-! # Generated code is Rust -/

namespace Verif.Lemmas.Syn

open Verif Verif.Model Verif.Spec Verif.Spec.Syn

attribute [local irreducible] genBoundValidation genLenValidation structText enumText genField genCase

variable {g : GenCtx}

/-- Has tokens with the property. -/
def Has (P : List Tok → Prop) (t : Str) : Prop := ∃ ts, Seg t ts ∧ P ts

theorem many_app {P : List Tok → Prop} {a b : List Tok} (h1 : Many P a) (h2 : Many P b) : Many P (a ++ b) := by
  induction h1 with
  | nil => exact h2
  | cons h _ ih => rw [List.append_assoc]; exact .cons h ih

theorem many_one {P : List Tok → Prop} {a : List Tok} (h : P a) : Many P a := by
  have := Many.cons h .nil
  rwa [List.append_nil] at this

theorem Has.nil {P : List Tok → Prop} : Has (Many P) [] := ⟨[], Seg.nil, .nil⟩

theorem Has.app {P : List Tok → Prop} {a b : Str} (h1 : Has (Many P) a) (h2 : Has (Many P) b) : Has (Many P) (a ++ b) := by
  obtain ⟨ts, h1, k1⟩ := h1
  obtain ⟨us, h2, k2⟩ := h2
  exact ⟨ts ++ us, h1.app h2, many_app k1 k2⟩

theorem Has.one {P : List Tok → Prop} {a : Str} (h : Has P a) : Has (Many P) a := by
  obtain ⟨ts, h1, h2⟩ := h
  exact ⟨ts, h1, many_one h2⟩

theorem Has.silent {P : List Tok → Prop} {a b : Str} (h1 : Seg a []) (h2 : Has P b) : Has P (a ++ b) := by
  obtain ⟨ts, h2, k2⟩ := h2
  exact ⟨ts, h1.app h2, k2⟩

theorem Has.silent_end {P : List Tok → Prop} {a b : Str} (h1 : Has P a) (h2 : Seg b []) : Has P (a ++ b) := by
  obtain ⟨ts, h1, k1⟩ := h1
  refine ⟨ts, ?_, k1⟩
  have := h1.app h2
  rwa [List.append_nil] at this

theorem Has.cast {P : List Tok → Prop} {a b : Str} (h : Has P a) (e : b = a) : Has P b := e ▸ h

/-! ## Names which are given -/

def legalB : Str → Bool
  | [] => false
  | c :: cs => (asciiUpper c || asciiLower c || decide (c = '_')) && cs.all (fun d => asciiAlnum d || decide (d = '_')) &&
    decide (c :: cs ≠ ['_']) && rustKeywords.all fun k => decide (c :: cs ≠ k.toList)

theorem legal_of {s : Str} (h : legalB s = true) : LegalIdent s := by
  cases s with
  | nil => cases h
  | cons c cs =>
    simp only [legalB, Bool.and_eq_true, Bool.or_eq_true, decide_eq_true_eq, List.all_eq_true] at h
    obtain ⟨⟨⟨h1, h2⟩, h3⟩, h4⟩ := h
    exact ⟨⟨c, cs, rfl, by tauto, h2, h3⟩, h4⟩

theorem path_of {s : String} (h : legalB s.toList = true) : Path [kw s] := .one (legal_of h)

theorem ty_of {s : String} (h : legalB s.toList = true) : Ty [kw s] := .path (path_of h)

/-! ## Comments -/

theorem seg_comment {l : Str} (h : '\n' ∉ l) (h1 : l.head? ≠ some '!') (h2 : l.head? = some '/' → l[1]? = some '/') :
    Seg ('/' :: '/' :: l ++ ['\n']) [] := by
  intro s us hs
  rw [show '/' :: '/' :: l ++ ['\n'] ++ s = '/' :: '/' :: l ++ '\n' :: s by simp]
  exact .comment h h1 h2 hs

theorem comment_shape (doc : Option Str) (i : Nat) : ∃ ls : List Str, GenCtx.formatComment doc i =
    ls.flatMap (fun l => List.replicate i ' ' ++ ('/' :: '/' :: l) ++ ['\n']) ∧
    ∀ l ∈ ls, '\n' ∉ l ∧ (l = [] ∨ l.head? = some ' ') := by
  obtain ⟨per, h1, h2, h3⟩ := Props.C34_comment doc 80 i
  have hw : ∀ p ∈ per, ∀ g ∈ p.2, ∀ w ∈ g, Word w := by
    intro p hp g hg w hw
    by_cases hd : Dropped p.1
    · rw [(h3 p hp).2.1 hd] at hg; cases hg
    · obtain ⟨ws, k1, k2⟩ := (h3 p hp).2.2 hd
      refine Gen.words_word k1 w ?_
      rw [← k2.2.1]
      exact List.mem_flatten.2 ⟨g, hg, hw⟩
  refine ⟨per.flatMap fun p => p.2.map fun g => g.flatMap (' ' :: ·), ?_, ?_⟩
  · rw [show GenCtx.formatComment doc i = _ from h2, List.flatMap_assoc]
    congr 1
    funext p
    rw [List.flatMap_map]
    congr 1
    funext g
    rw [commentLine]
    simp only [List.append_assoc, List.cons_append, List.nil_append]
  · intro l hl
    obtain ⟨p, hp, hl⟩ := List.mem_flatMap.1 hl
    obtain ⟨gs, hg, rfl⟩ := List.mem_map.1 hl
    constructor
    · intro hm
      obtain ⟨w, hw', hm⟩ := List.mem_flatMap.1 hm
      rcases List.mem_cons.1 hm with h | h
      · cases h
      · exact absurd ((hw p hp gs hg w hw').2 _ h) (by simp [Space])
    · cases gs with
      | nil => exact .inl rfl
      | cons w gs => exact .inr rfl

theorem seg_doc (doc : Option Str) (i : Nat) : Seg (GenCtx.formatComment doc i) [] := by
  obtain ⟨ls, e, h⟩ := comment_shape doc i
  rw [e]
  clear e
  induction ls with
  | nil => exact Seg.nil
  | cons l ls ih =>
    rw [List.flatMap_cons]
    obtain ⟨h1, h2⟩ := h l (by simp)
    refine Seg.app (as := []) (bs := []) ?_ (ih fun m hm => h m (by simp [hm]))
    rw [List.append_assoc]
    refine Seg.app (as := []) (bs := []) (seg_spaces i) (seg_comment h1 ?_ ?_)
    · rcases h2 with rfl | h2
      · exact fun h => nomatch h
      · rw [h2]; decide
    · rcases h2 with rfl | h2
      · exact fun h => nomatch h
      · rw [h2]; exact fun h => absurd h (by decide)

/-! ## Strings -/

theorem str_app {w b : Str} {bs : List Tok} (h : Quoted w) (hb : Seg b bs) (hd : ∃ d, b.head? = some d ∧ wordChar d = false) :
    Seg ('"' :: w ++ '"' :: b) (.str w :: bs) := by
  intro s us hs
  rw [show '"' :: w ++ '"' :: b ++ s = '"' :: w ++ '"' :: (b ++ s) by simp]
  refine .str h ?_ (hb s us hs)
  obtain ⟨d, hd, hw⟩ := hd
  intro d' hd'
  cases b with
  | nil => cases hd
  | cons c b => cases hd; cases hd'; exact hw

/-! ## Attributes -/

theorem meta_word {s : String} (h : legalB s.toList = true) : Meta [kw s] := .path (path_of h)
theorem meta_value {s : String} {v : Str} (h : legalB s.toList = true) : Meta [kw s, pt "=", .str v] := .value (path_of h)

theorem attr_list {s : String} {ms : List (List Tok)} (h : legalB s.toList = true) (hm : ∀ m ∈ ms, Meta m) :
    Attr (pt "#" :: pt "[" :: kw s :: pt "(" :: commas ms ++ [pt ")", pt "]"]) := by
  have := Attr.mk (Meta.list (path_of h) hm)
  simpa using this

theorem attr_one {pre : Str} {pk : String} {ms : List (List Tok)} {v : Str} (hv : QuoteSafe v)
    (hpre : Seg pre (pt "#" :: pt "[" :: kw "yaserde" :: pt "(" :: (ms.flatMap fun m => m ++ [pt ","]) ++ [kw pk, pt "="]))
    (hk : legalB pk.toList = true) (hm : ∀ m ∈ ms, Meta m) :
    Has Attr (pre ++ ('"' :: v ++ '"' :: ")]\n".toList)) := by
  refine ⟨_, hpre.app (str_app (quoted_safe hv) (seg_of 10 (ts := [pt ")", pt "]"]) (by decide +kernel)) ⟨')', rfl, by decide⟩), ?_⟩
  have := attr_list (s := "yaserde") (ms := ms ++ [[kw pk, pt "=", .str v]]) (by decide) (by
    intro m hm'
    rcases List.mem_append.1 hm' with h | h
    · exact hm m h
    · obtain rfl := List.mem_singleton.1 h; exact meta_value hk)
  have e : ∀ (ms : List (List Tok)) (x : List Tok), commas (ms ++ [x]) = (ms.flatMap fun m => m ++ [pt ","]) ++ x := by
    intro ms x
    cases ms with
    | nil => simp [commas]
    | cons a as =>
      rw [List.cons_append, commas, List.flatMap_append, List.flatMap_cons]
      have : ∀ as : List (List Tok), (as.flatMap (pt "," :: ·)) ++ [pt ","] = pt "," :: as.flatMap fun m => m ++ [pt ","] := by
        intro as
        induction as with
        | nil => rfl
        | cons b as ih => rw [List.flatMap_cons, List.flatMap_cons, List.append_assoc, ih]; simp
      have h2 := this as
      simp only [List.flatMap_cons, List.flatMap_nil, List.append_nil, List.append_assoc]
      rw [show pt "," :: x = [pt ","] ++ x from rfl, ← List.append_assoc (as.flatMap _), h2]
      simp
  rw [e] at this
  simpa using this

theorem attr_two {pre mid : Str} {pk k2 : String} {ms : List (List Tok)} {u v : Str} (hu : QuoteSafe u) (hv : QuoteSafe v)
    (hpre : Seg pre (pt "#" :: pt "[" :: kw "yaserde" :: pt "(" :: (ms.flatMap fun m => m ++ [pt ","]) ++ [kw pk, pt "="]))
    (hmid : Seg mid [pt ",", kw k2, pt "="]) (hmid' : mid.head? = some ',')
    (hk : legalB pk.toList = true) (hk2 : legalB k2.toList = true) (hm : ∀ m ∈ ms, Meta m) :
    Has Attr (pre ++ ('"' :: u ++ '"' :: mid) ++ ('"' :: v ++ '"' :: ")]\n".toList)) := by
  refine attr_one (ms := ms ++ [[kw pk, pt "=", .str u]]) (pk := k2) hv ?_ hk2 ?_
  · refine seg_cast (hpre.app (str_app (quoted_safe hu) hmid ⟨',', hmid', by decide⟩)) rfl ?_
    simp
  · intro m hm'
    rcases List.mem_append.1 hm' with h | h
    · exact hm m h
    · obtain rfl := List.mem_singleton.1 h; exact meta_value hk

theorem has_fieldMacros {f : StructField} (h : QuoteSafe f.name) (ht : SafeNamespace g.targetNs) : Has (Many Attr) (fieldMacros g f) := by
  rw [fieldMacros]
  cases f.source with
  | choice =>
    dsimp only
    refine Has.one ⟨_, seg_of 40 (ts := [pt "#", pt "[", kw "yaserde", pt "(", kw "flatten", pt ")", pt "]"]) (by decide +kernel), ?_⟩
    exact attr_list (s := "yaserde") (ms := [[kw "flatten"]]) (by decide) (by
      intro m hm; obtain rfl := List.mem_singleton.1 hm; exact meta_word (by decide))
  | «attribute» =>
    dsimp only
    rw [yaserdeForAttribute]
    have hm : ∀ m ∈ [[kw "attribute"]], Meta m := by
      intro m hm; obtain rfl := List.mem_singleton.1 hm; exact meta_word (by decide)
    cases hs : splitName f.name with
    | mk o m =>
      obtain ⟨h1, h2⟩ := h.split hs
      cases o with
      | none =>
        refine Has.one (Has.cast (attr_one (pre := "    #[yaserde(attribute, rename = ".toList) (ms := [[kw "attribute"]]) (pk := "rename") h
          (seg_of 50 (by decide +kernel)) (by decide) hm) ?_)
        simp only [List.append_assoc]; rfl
      | some p =>
        refine Has.one (Has.cast (attr_two (pre := "    #[yaserde(attribute, prefix = ".toList) (mid := ", rename = ".toList)
          (ms := [[kw "attribute"]]) (pk := "prefix") (k2 := "rename") (h2 p rfl) h1
          (seg_of 50 (by decide +kernel)) (seg_of 50 (by decide +kernel)) rfl (by decide) (by decide) hm) ?_)
        simp only [List.append_assoc, List.cons_append]; rfl
  | element =>
    dsimp only
    rw [yaserdeForElement]
    have hp : ∀ p n : Str, QuoteSafe p → QuoteSafe n →
        Has (Many Attr) (GenCtx.indent ++ "#[yaserde(prefix = \"".toList ++ p ++ "\", rename = \"".toList ++ n ++ "\")]\n".toList) := by
      intro p n h1 h2
      refine Has.one (Has.cast (attr_two (pre := "    #[yaserde(prefix = ".toList) (mid := ", rename = ".toList)
          (ms := []) (pk := "prefix") (k2 := "rename") h1 h2
          (seg_of 50 (by decide +kernel)) (seg_of 50 (by decide +kernel)) rfl (by decide) (by decide) (by simp)) ?_)
      simp only [List.append_assoc, List.cons_append]; rfl
    cases hs : splitName f.name with
    | mk o m =>
      obtain ⟨h1, h2⟩ := h.split hs
      cases o with
      | some p => exact hp p m (h2 p rfl) h1
      | none =>
        dsimp only
        cases hq : nsPrefix g.targetNs with
        | some p => exact hp p f.name (ht.pre hq) h
        | none =>
          refine Has.one (Has.cast (attr_one (pre := "    #[yaserde(rename = ".toList) (ms := []) (pk := "rename") h
            (seg_of 50 (by decide +kernel)) (by decide) (by simp)) ?_)
          simp only [List.append_assoc]; rfl
  | base => exact Has.nil
  | na => exact Has.nil

theorem has_caseMacros {c : EnumCase} (h : QuoteSafe c.name) : Has (Many Attr) (caseMacros g c) := by
  cases hs : splitName c.name with
  | mk o m =>
    obtain ⟨h1, h2⟩ := h.split hs
    rw [caseMacros, hs]
    by_cases hu : c.source = .union
    · rw [if_pos hu]; exact Has.nil
    · rw [if_neg hu]
      cases o with
      | some p =>
        refine Has.one (Has.cast (attr_two (pre := "    #[yaserde(prefix = ".toList) (mid := ", rename = ".toList)
          (ms := []) (pk := "prefix") (k2 := "rename") (h2 p rfl) h1
          (seg_of 50 (by decide +kernel)) (seg_of 50 (by decide +kernel)) rfl (by decide) (by decide) (by simp)) ?_)
        simp only [List.append_assoc, List.cons_append]; rfl
      | none =>
        dsimp only
        by_cases hm : m = caseName g c
        · rw [if_pos hm]; exact Has.nil
        · rw [if_neg hm]
          refine Has.one (Has.cast (attr_one (pre := "    #[yaserde(rename = ".toList) (ms := []) (pk := "rename") h1
            (seg_of 50 (by decide +kernel)) (by decide) (by simp)) ?_)
          simp only [List.append_assoc]; rfl

/-! ## Types -/

theorem ty_head {ts : List Tok} (h : Ty ts) (w : Str) : ts.head? ≠ some (.op ('=' :: w)) := by
  have hp : ∀ {p : List Tok}, Path p → ∀ r, ∃ x, (p ++ r).head? = some (.word x) := by
    intro p hp
    induction hp with
    | one _ => exact fun _ => ⟨_, rfl⟩
    | keyword _ => exact fun _ => ⟨_, rfl⟩
    | more _ _ ih => intro r; rw [List.append_assoc]; exact ih _
  cases h with
  | unit => intro h; cases h
  | path h => obtain ⟨x, hx⟩ := hp h []; rw [List.append_nil] at hx; rw [hx]; intro h; cases h
  | generic h => obtain ⟨x, hx⟩ := hp h _; rw [List.append_assoc, hx]; intro h; cases h

theorem lexed_head {s : Str} {ts : List Tok} (h : Lexed s ts) (he : s.head? = some '=') : ∃ w, ts.head? = some (.op ('=' :: w)) := by
  cases h with
  | nil => cases he
  | space h _ => cases he; simp at h
  | comment => cases he
  | word h => cases he; exact absurd h (by decide)
  | @num w _ _ h h2 =>
    cases w with
    | nil => exact absurd rfl h
    | cons c w => cases he; exact absurd (h2 '=' (by simp)) (by decide)
  | str => cases he
  | double => cases he; exact ⟨_, rfl⟩
  | single => cases he; exact ⟨_, rfl⟩

theorem lt_ty {s : Str} {ts : List Tok} (h : Lexed s ts) (ht : Ty ts) : Opn ('<' :: s) (pt "<" :: ts) := by
  refine lexed_opn ?_ (.inr ?_)
  · refine .single (by decide) ?_ h
    intro b hb
    refine ⟨?_, fun h => absurd h (by decide)⟩
    intro hm
    have : b = '=' := by
      simp only [doubles, List.map_cons, List.map_nil, List.mem_cons, List.not_mem_nil, or_false] at hm
      simpa using hm
    obtain ⟨w, hw⟩ := lexed_head h (this ▸ hb)
    exact ty_head ht w hw
  · have := ty_ending ht
    cases ts with
    | nil => rcases this with ⟨w, h⟩ | h | h <;> cases h
    | cons t ts => simpa [Ending, List.getLast?_cons_cons] using this

theorem typeText_wrap {p : String} {s : Str} (h : TypeText s) (hp : legalB p.toList = true) :
    TypeText (p.toList ++ '<' :: s ++ ">".toList) := by
  obtain ⟨ts, h1, h2⟩ := h
  refine ⟨kw p :: pt "<" :: ts ++ [pt ">"], ?_, ?_⟩
  · have h3 : Opn (">".toList) [pt ">"] := lexed_opn (.single (by decide) (by simp) .nil) (.inr (.inr (.inl rfl)))
    have := ((opn_word (legal_of hp)).opn (lt_ty h1 h2) ⟨'<', rfl, by decide⟩).opn h3 ⟨'>', rfl, by decide⟩
    have := this [] [] (by simp) .nil
    simpa using this
  · have := Ty.generic (as := [ts]) (path_of hp) (by simp) (by simpa using h2)
    simpa [commas] using this

theorem typeText_modify {s : Str} (h : TypeText s) (ms : List TypeModifier) : TypeText (defaultModifyType s ms) := by
  rw [defaultModifyType]
  split
  · exact ⟨[pt "(", pt ")"], (seg_of 10 (by decide +kernel)).lexed, .unit⟩
  split
  · exact typeText_wrap h (p := "Vec") (by decide)
  · induction ms generalizing s with
    | nil => exact h
    | cons m ms ih =>
      rw [List.foldl_cons]
      refine ih ?_ (by simp_all) (by simp_all)
      cases m with
      | array => exact typeText_wrap h (p := "Vec") (by decide)
      | option => exact typeText_wrap h (p := "Option") (by decide)
      | _ => exact h


end Verif.Lemmas.Syn
