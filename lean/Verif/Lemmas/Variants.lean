import Verif.Lemmas.XmlEverywhere
import Verif.Lemmas.GenNames
import Verif.Spec.Distinct

/-! # The variants of all enums -/

namespace Verif.Lemmas.Dis

open Verif Verif.Model Verif.Spec Verif.RoXml Verif.Lemmas.Parse Verif.Lemmas.Xml Verif.Lemmas.Gen

theorem bare_ref {o : Option Str} {n v : Str} (h : Ref o n v) (hc : ':' ∉ v) : n = v := by
  cases h with
  | bare _ => rfl
  | prefixed _ => exact absurd (List.mem_append_right _ List.mem_cons_self) hc

theorem numbered_inj {a b : Nat} (h : skeleton asciiAlnum ("EnumCase_".toList ++ numeral a) =
    skeleton asciiAlnum ("EnumCase_".toList ++ numeral b)) : a = b := by
  have e : ∀ n, skeleton asciiAlnum ("EnumCase_".toList ++ numeral n) = skeleton asciiAlnum "EnumCase_".toList ++ Str.natStr n := by
    intro n
    have hd : ∀ d ∈ Str.natStr n, 48 ≤ d.toNat ∧ d.toNat ≤ 57 := fun d hd =>
      Str.isAsciiDigit_iff.1 (List.all_eq_true.1 (Str.allDigits_natStr n) d hd)
    have h1 : (Str.natStr n).filter asciiAlnum = Str.natStr n :=
      List.filter_eq_self.2 fun d h => asciiAlnum_iff.2 (.inl (hd d h))
    have h2 : (Str.natStr n).map toAsciiLower = Str.natStr n :=
      (List.map_congr_left fun d h => if_neg fun hu => by
        have := hd d h; have := asciiUpper_iff.1 hu; omega).trans (List.map_id _)
    rw [numeral_eq, skeleton, List.filter_append, List.map_append, h1, h2]; rfl
  rw [e, e] at h
  rw [← Str.digitsVal_natStr a, ← Str.digitsVal_natStr b, List.append_cancel_left h]

/-- Simple values are names without prefix. -/
theorem values_unlike {U : UnicodeTable} {vs : List Str} (hv : ∀ v ∈ vs, SimpleValue U v) (hu : Unlike vs) : UnlikeNames vs := by
  have hcol : ∀ v ∈ vs, ':' ∉ v := by
    intro v hv' hc
    rcases (hv v hv').2 _ hc with h | h
    · rw [U.alnum_ascii ':' (by decide)] at h; exact absurd h (by decide)
    · exact absurd h (by decide)
  refine List.Pairwise.imp_of_mem (fun {a b} ha hb k o n p m ra rb => ?_) hu
  rw [bare_ref ra (hcol a ha), bare_ref rb (hcol b hb)]
  exact k

theorem union_unlike {ws : List Str} {l : Nat} (h1 : UnlikeNames ws)
    (h2 : ∀ w ∈ ws, ∀ o n k, Ref o n w → k < l → skeleton asciiAlnum n ≠ skeleton asciiAlnum ("EnumCase_".toList ++ numeral k)) :
    UnlikeNames (ws ++ (List.range l).map fun k => "EnumCase_".toList ++ numeral k) := by
  have ref : ∀ {k o n}, Ref o n ("EnumCase_".toList ++ numeral k) → n = "EnumCase_".toList ++ numeral k := by
    intro k o n hr
    refine bare_ref hr fun hm => ?_
    rw [numeral_eq] at hm
    exact (List.mem_append.1 hm).elim (by decide) fun hd => absurd (List.all_eq_true.1 (Str.allDigits_natStr k) _ hd) (by decide)
  refine List.pairwise_append.2 ⟨h1, ?_, ?_⟩
  · refine List.pairwise_map.2 ((List.nodup_range (n := l)).imp fun {a b} hab o n p m ra rb e => hab ?_)
    rw [ref ra, ref rb] at e
    exact numbered_inj e
  · intro w hw x hx o n p m ra rb
    obtain ⟨k, hk, rfl⟩ := List.mem_map.1 hx
    rw [ref rb]
    exact h2 w hw o n k ra (List.mem_range.1 hk)

/-- The cases of an enum have different names. -/
def Varied : RsEntity → Prop
  | .struct s => s.subtypes = []
  | .enum (.mk _ cs _ _ _ _) => UnlikeNames (cs.map (·.name))
  | _ => True

theorem varied_fieldwise : Fieldwise Varied where
  noSub h := h
  field _ _ _ := trivial
  struct _ _ := rfl
  retype _ _ := trivial

theorem varied_renamed {nm : Str} {x e : RsEntity} (hx : Renamed nm x e) (h : Deep Varied x) : Deep Varied e := by
  cases hx <;> exact .mk h.here h.inside

theorem varied_redocumented {d : Option Str} {x e : RsEntity} (hx : Redocumented d x e) (h : Deep Varied x) : Deep Varied e := by
  cases hx <;> exact .mk h.here h.inside

/-- The types of the fields are fine. -/
def InnerOk (fs : List StructField) : Prop := ∀ f ∈ fs, ∀ x ∈ f.subtypes, Deep Varied x

theorem InnerOk.append {a b : List StructField} (h1 : InnerOk a) (h2 : InnerOk b) : InnerOk (a ++ b) :=
  fun f hf => (List.mem_append.1 hf).elim (h1 f) (h2 f)

theorem InnerOk.one {f : StructField} (h : f.subtypes = []) : InnerOk [f] := fun g hg x hx => by
  obtain rfl := List.mem_singleton.1 hg
  rw [h] at hx; cases hx

theorem inner_attrs {root n : Node} {fs : List StructField} (hn : PartOf root n) (h : AttrFields n fs) : InnerOk fs :=
  fun f hf x hx => by rw [(attr_from hn h f hf).1] at hx; cases hx

theorem InnerOk.struct {fs : List StructField} (h : InnerOk fs) {n : Str} {c : Option Str} {ag : List RAlias} :
    Deep Varied (.struct (.mk n c fs ag [])) := by
  refine .mk rfl fun x hx => ?_
  obtain ⟨f, hf, hx⟩ := List.mem_flatMap.1 (show x ∈ fs.flatMap StructField.subtypes from hx)
  exact h f hf x hx

theorem inner_struct {n : Str} {c : Option Str} {fs : List StructField} {ag : List RAlias} {sub : List RsEntity}
    (h : Deep Varied (.struct (.mk n c fs ag sub))) : sub = [] ∧ InnerOk fs :=
  ⟨h.here, fun f hf x hx => h.inside x (List.mem_append_right _ (List.mem_flatMap.2 ⟨f, hf, hx⟩))⟩

theorem choice_varied {U : UnicodeTable} {root c : Node} {cs : List EnumCase} (hs : SeparateVariants U root) (hc : PartOf root c)
    (ht : Is c ["choice"]) (h : List.Forall₂ ChoiceCase (withTags c ["element"]) cs) : UnlikeNames (cs.map (·.name)) := by
  refine hs.choices c _ hc ht ?_
  generalize withTags c ["element"] = es at h
  induction h with
  | nil => exact .nil
  | cons h _ ih =>
    refine .cons ?_ ih
    cases h with
    | ref h => exact .inl h
    | named h1 h2 => exact .inr ⟨h1, h2⟩

theorem members_varied {U : UnicodeTable} {root n : Node} {o : Str} {fs : List StructField} {R : Node → Node → RsEntity → Prop}
    (hs : SeparateVariants U root) (hn : PartOf root n)
    (h : List.Forall₂ (fun c f => MemberField (fun t e => R c t e) o c f) (members n) fs)
    (hR : ∀ c t e, PartOf root c → PartOf root t → R c t e → Deep Varied e) : InnerOk fs := by
  intro f hf
  obtain ⟨c, hc, hm⟩ := forall₂_left h f hf
  have hcp : PartOf root c := .child hn hc
  intro x hx
  cases hm with
  | typed h1 h2 => exact nomatch hx
  | ref h1 h2 h3 => exact nomatch hx
  | any h1 h2 => exact nomatch hx
  | choice h1 h2 h3 =>
    obtain rfl := List.mem_singleton.1 hx
    exact .mk (choice_varied hs hcp (is_one.2 h1) h3) fun y hy => nomatch hy
  | inline h1 _ h3 _ h5 h6 h7 =>
    obtain rfl := List.mem_singleton.1 hx
    exact varied_renamed h7 (hR c _ _ hcp (part_withTags hcp (by decide) (List.mem_of_getLast? h5)) h6)

theorem reads_varied (U : UnicodeTable) {root : Node} (hs : SeparateVariants U root) : ∀ (k : Nat) {n p : Node} {above : List Node}
    {e : RsEntity}, PartOf root n → (∀ a ∈ p :: above, PartOf root a) → ReadsIn U k n p above e → Deep Varied e
  | 0, _, _, _, _, _, _, h => h.elim
  | k + 1, n, p, above, e, hn, ha, h => by
    have ha' : ∀ a ∈ n :: p :: above, PartOf root a := fun a h => by
      rcases List.mem_cons.1 h with rfl | h
      · exact hn
      · exact ha a h
    have ih : ∀ {c e}, PartOf root c → ReadsIn U k c n (p :: above) e → Deep Varied e := fun hc h => reads_varied U hs k hc ha' h
    have glob : ∀ {types doc e}, (∀ s ∈ types, s.toList ≠ [] ∧ s.toList ≠ "annotation".toList) →
        Global (fun c x => ReadsIn U k c n (p :: above) x) types n doc e → Deep Varied e := by
      intro types doc e ht h
      cases h with
      | typed => exact .mk trivial fun _ k => absurd k List.not_mem_nil
      | inline _ _ _ h4 h5 h6 => exact varied_renamed h6 (ih (part_withTags hn ht (List.mem_of_getLast? h4)) h5)
      | empty => exact InnerOk.struct fun _ k => absurd k List.not_mem_nil
    cases h with
    | «import» => exact .mk trivial fun _ k => absurd k List.not_mem_nil
    | element _ _ h => exact glob (by decide) h
    | «attribute» _ _ h => exact glob (by decide) h
    | attributeGroup _ _ _ _ h => exact (inner_attrs hn h).struct
    | groupRef _ _ h =>
      obtain ⟨r, -, rfl⟩ := h
      exact .mk trivial fun _ k => absurd k List.not_mem_nil
    | anyAttribute => exact .mk trivial fun _ k => nomatch k
    | complexType h0 h =>
      cases h with
      | plain _ _ h3 => exact (inner_attrs hn h3).struct
      | content h1 _ h3 h4 _ h6 h7 =>
        have hx := ih (.child hn (mem_contentTags h4).1) h6
        cases h7 with
        | struct =>
          obtain ⟨rfl, hfs⟩ := inner_struct hx
          exact (hfs.append (inner_attrs hn h3)).struct
        | enum =>
          refine .mk hx.here fun x hx => ?_
          obtain rfl := List.mem_singleton.1 hx
          exact ((inner_attrs hn h3).append (InnerOk.one rfl)).struct
        | other => exact hx
    | sequence h1 h2 _ h4 =>
      exact (members_varied hs hn h4 fun c t e hc ht h => reads_varied U hs k ht (fun a h => by
        rcases List.mem_cons.1 h with rfl | h
        · exact hc
        · exact ha' a h) h).struct
    | choice h1 _ h3 => exact .mk (choice_varied hs hn h1 h3) fun _ k => absurd k List.not_mem_nil
    | content _ _ h3 h4 => exact ih (.child hn (List.mem_of_getLast? h3)) h4
    | derived h1 _ _ h =>
      cases h with
      | without _ h2 => exact ((inner_attrs hn h2).append (InnerOk.one rfl)).struct
      | struct _ h2 h3 h4 =>
        have hx := ih (part_withTags hn (by unfold derivedTags; split <;> decide) (List.mem_of_getLast? h3)) h4
        obtain ⟨rfl, hfs⟩ := inner_struct hx
        exact (hfs.append ((inner_attrs hn h2).append (InnerOk.one rfl))).struct
      | lost _ h2 => exact ((inner_attrs hn h2).append (InnerOk.one rfl)).struct
    | simpleExtension h1 _ _ _ h5 => exact ((inner_attrs hn h5).append (InnerOk.one rfl)).struct
    | simpleType _ _ _ h4 h5 h6 h7 =>
      refine varied_redocumented h7 ?_
      have hx := ih (.child hn (List.mem_of_getLast? h4)) h5
      generalize n.attr "name".toList = o at h6
      cases h6 with
      | none => exact hx
      | some h => exact varied_renamed h hx
    | restriction h1 _ _ h4 h5 =>
      cases h5 with
      | enum _ hv =>
        refine .mk ?_ fun _ k => absurd k List.not_mem_nil
        show UnlikeNames (((enumValues _).map _).map _)
        rw [List.map_map]
        refine values_unlike (U := U) (fun v hm => ?_) (hs.values n _ hn h1 h4 hv)
        obtain ⟨w, hw, rfl⟩ := List.mem_map.1 hm
        exact hv w hw
      | wrapper => exact .mk trivial fun _ k => absurd k List.not_mem_nil
    | list => exact .mk trivial fun _ k => absurd k List.not_mem_nil
    | listOf _ _ h3 h4 h5 =>
      have hx := ih (part_withTags hn (by decide) (List.mem_of_mem_head? h3)) h4
      cases h5 with
      | enum =>
        refine .mk trivial fun x hm => ?_
        obtain rfl := List.mem_singleton.1 hm
        exact hx
      | wrapper => exact .mk trivial hx.inside
    | union h1 _ h3 h4 =>
      refine .mk ?_ fun x hx => ?_
      · obtain ⟨k1, k2⟩ := hs.unions n _ hn h1 h3
        have := union_unlike k1 k2
        have hl := h4.length_eq
        rw [List.length_zipIdx] at hl
        rw [hl] at this
        show UnlikeNames ((unionCasesOf _ _).map _)
        rw [unionCasesOf, List.map_append, List.map_map, List.map_map]
        rw [show ((fun c : EnumCase => c.name) ∘ fun w => (⟨w, none, [], some w, [], .union⟩ : EnumCase)) = id from rfl, List.map_id]
        exact this
      · obtain ⟨c, hc, y, h5, h6⟩ := forall₂_left h4 x hx
        have hc' : c.1 ∈ withTags n ["simpleType"] := (List.mem_zipIdx' hc).2 ▸ List.getElem_mem _
        exact varied_renamed h6 (ih (part_withTags hn (by decide) hc') h5)

end Verif.Lemmas.Dis
