import Verif.Lemmas.FieldsUnique

/-! # The definitions for a schema are determined -/

namespace Verif.Lemmas.Parse

open Verif Verif.Model Verif.RoXml Verif.Spec

section
variable {U : UnicodeTable}

private theorem last_tag {n r r' : Node} {s s' : String} (h : (members n).getLast? = some r) (h' : (members n).getLast? = some r')
    (ht : r.tag = s.toList) (ht' : r'.tag = s'.toList) (hne : s.toList ≠ s'.toList) {P : Prop} : P := by
  obtain rfl := Option.some.inj (h.symm.trans h')
  exact absurd (ht.symm.trans ht') hne

theorem kindOf_unique {p : Option Str} {n : Node} {t t' : ElementType} (h : KindOf p n t) (h' : KindOf p n t') : t = t' :=
  Res.ok.inj ((kind_xsdType h).symm.trans (kind_xsdType h'))

theorem facetsOf_unique {p : Str} : ∀ {cs : List Node} {fs fs' : List Facet}, FacetsOf p cs fs → FacetsOf p cs fs' → fs = fs'
  | [], _, _, .nil, .nil => rfl
  | c :: cs, _, _, .facet h1 h2, .facet k1 k2 => by
    have := kindOf_unique h1 k1
    cases this
    rw [facetsOf_unique h2 k2]
  | c :: cs, _, _, .facet h1 h2, .skip k1 k2 k3 => absurd (kindOf_unique k1 h1) (k2 _)
  | c :: cs, _, _, .skip h1 h2 h3, .facet k1 k2 => absurd (kindOf_unique h1 k1) (h2 _)
  | c :: cs, _, _, .skip h1 h2 h3, .skip k1 k2 k3 => facetsOf_unique h3 k3

mutual
theorem simpleShape_unique : ∀ {above n k own ds k' own' ds'}, SimpleShape U above n k own ds → SimpleShape U above n k' own' ds' →
    k = k' ∧ own = own' ∧ ds = ds'
  | _, _, _, _, _, _, _, _, .enumeration h1 h2 h3 h4 h5 h6, h' => by
    cases h' with
    | enumeration k1 k2 k3 k4 k5 k6 => obtain rfl := ownerName_unique h6 k6; exact ⟨rfl, rfl, rfl⟩
    | wrapper k1 k2 k3 k4 =>
      obtain rfl := Option.some.inj (h1.symm.trans k1)
      obtain rfl := facetsOf_unique h3 k3
      rcases k4 with k4 | ⟨v, hv, k4⟩
      · exact absurd k4 h4
      · exact absurd (h5 v hv) k4
    | list k1 k2 => exact last_tag h1 k1 h2 k2 (by decide)
    | listOfEnum k1 k2 => exact last_tag h1 k1 h2 k2 (by decide)
    | listOfStruct k1 k2 => exact last_tag h1 k1 h2 k2 (by decide)
    | union k1 k2 => exact last_tag h1 k1 h2 k2 (by decide)
  | _, _, _, _, _, _, _, _, .wrapper h1 h2 h3 h4, h' => by
    cases h' with
    | enumeration k1 k2 k3 k4 k5 k6 =>
      obtain rfl := Option.some.inj (h1.symm.trans k1)
      obtain rfl := facetsOf_unique h3 k3
      rcases h4 with h4 | ⟨v, hv, h4⟩
      · exact absurd h4 k4
      · exact absurd (k5 v hv) h4
    | wrapper => exact ⟨rfl, rfl, rfl⟩
    | list k1 k2 => exact last_tag h1 k1 h2 k2 (by decide)
    | listOfEnum k1 k2 => exact last_tag h1 k1 h2 k2 (by decide)
    | listOfStruct k1 k2 => exact last_tag h1 k1 h2 k2 (by decide)
    | union k1 k2 => exact last_tag h1 k1 h2 k2 (by decide)
  | _, _, _, _, _, _, _, _, .list h1 h2 h3, h' => by
    cases h' with
    | enumeration k1 k2 => exact last_tag h1 k1 h2 k2 (by decide)
    | wrapper k1 k2 => exact last_tag h1 k1 h2 k2 (by decide)
    | list => exact ⟨rfl, rfl, rfl⟩
    | listOfEnum k1 k2 k3 => obtain rfl := Option.some.inj (h1.symm.trans k1); rw [h3] at k3; cases k3
    | listOfStruct k1 k2 k3 => obtain rfl := Option.some.inj (h1.symm.trans k1); rw [h3] at k3; cases k3
    | union k1 k2 => exact last_tag h1 k1 h2 k2 (by decide)
  | _, _, _, _, _, _, _, _, .listOfEnum h1 h2 h3 h4 h5, h' => by
    cases h' with
    | enumeration k1 k2 => exact last_tag h1 k1 h2 k2 (by decide)
    | wrapper k1 k2 => exact last_tag h1 k1 h2 k2 (by decide)
    | list k1 k2 k3 => obtain rfl := Option.some.inj (h1.symm.trans k1); rw [h3] at k3; cases k3
    | listOfEnum k1 k2 k3 k4 k5 =>
      obtain rfl := Option.some.inj (h1.symm.trans k1)
      obtain rfl := Option.some.inj (h4.symm.trans k4)
      obtain ⟨-, rfl, rfl⟩ := simpleShape_unique h5 k5
      exact ⟨rfl, rfl, rfl⟩
    | listOfStruct k1 k2 k3 k4 k5 =>
      obtain rfl := Option.some.inj (h1.symm.trans k1)
      obtain rfl := Option.some.inj (h4.symm.trans k4)
      exact absurd (simpleShape_unique h5 k5).1 (by decide)
    | union k1 k2 => exact last_tag h1 k1 h2 k2 (by decide)
  | _, _, _, _, _, _, _, _, .listOfStruct h1 h2 h3 h4 h5, h' => by
    cases h' with
    | enumeration k1 k2 => exact last_tag h1 k1 h2 k2 (by decide)
    | wrapper k1 k2 => exact last_tag h1 k1 h2 k2 (by decide)
    | list k1 k2 k3 => obtain rfl := Option.some.inj (h1.symm.trans k1); rw [h3] at k3; cases k3
    | listOfEnum k1 k2 k3 k4 k5 =>
      obtain rfl := Option.some.inj (h1.symm.trans k1)
      obtain rfl := Option.some.inj (h4.symm.trans k4)
      exact absurd (simpleShape_unique h5 k5).1 (by decide)
    | listOfStruct k1 k2 k3 k4 k5 =>
      obtain rfl := Option.some.inj (h1.symm.trans k1)
      obtain rfl := Option.some.inj (h4.symm.trans k4)
      obtain ⟨-, -, rfl⟩ := simpleShape_unique h5 k5
      exact ⟨rfl, rfl, rfl⟩
    | union k1 k2 => exact last_tag h1 k1 h2 k2 (by decide)
  | _, _, _, _, _, _, _, _, .union h1 h2 h3, h' => by
    cases h' with
    | enumeration k1 k2 => exact last_tag h1 k1 h2 k2 (by decide)
    | wrapper k1 k2 => exact last_tag h1 k1 h2 k2 (by decide)
    | list k1 k2 => exact last_tag h1 k1 h2 k2 (by decide)
    | listOfEnum k1 k2 => exact last_tag h1 k1 h2 k2 (by decide)
    | listOfStruct k1 k2 => exact last_tag h1 k1 h2 k2 (by decide)
    | union k1 k2 k3 =>
      obtain rfl := Option.some.inj (h1.symm.trans k1)
      obtain rfl := unionShape_unique h3 k3
      exact ⟨rfl, rfl, rfl⟩
theorem unionShape_unique : ∀ {above i cs ds ds'}, UnionShape U above i cs ds → UnionShape U above i cs ds' → ds = ds'
  | _, _, _, _, _, .nil, h' => by cases h'; rfl
  | _, _, _, _, _, .cons h1 h2, h' => by
    cases h' with
    | cons k1 k2 =>
      obtain ⟨rfl, rfl, rfl⟩ := simpleShape_unique h1 k1
      obtain rfl := unionShape_unique h2 k2
      rfl
end

end

section
variable {U : UnicodeTable} {root c : Node} {ds ds' : List Def}

/-- What a declaration without a reference becomes, given its name. -/
inductive NamedDefs (U : UnicodeTable) (root c : Node) (nm : Str) : List Def → Prop where
  | typed {t} : c.attr "type".toList = some t → Documented (docOf c) → NamedDefs U root c nm [(.type, nm)]
  | silent {t} : c.attr "type".toList = some t → ¬ Documented (docOf c) → NamedDefs U root c nm []
  | simple {t k own ds} : c.attr "type".toList = none → inlineType c = some t → t.tag = "simpleType".toList →
      SimpleShape U [c, root] t k own ds → NamedDefs U root c nm ((k, nm) :: ds)
  | complex {t} : c.attr "type".toList = none → inlineType c = some t → t.tag = "complexType".toList → ¬ ChoiceContent t →
      NamedDefs U root c nm [(.struct, nm)]
  | choice {t} : c.attr "type".toList = none → inlineType c = some t → t.tag = "complexType".toList → ChoiceContent t →
      NamedDefs U root c nm [(.enum, nm), (.struct, nm)]
  | empty : c.attr "type".toList = none → inlineType c = none → NamedDefs U root c nm [(.struct, nm)]

theorem namedDefs_unique {nm : Str} (h : NamedDefs U root c nm ds) (h' : NamedDefs U root c nm ds') : ds = ds' := by
  have ty : ∀ {t : Str} {P : Prop}, c.attr "type".toList = some t → c.attr "type".toList = none → P := fun h h' => by rw [h] at h'; cases h'
  have inl : ∀ {t : Node} {P : Prop}, inlineType c = some t → inlineType c = none → P := fun h h' => by rw [h] at h'; cases h'
  have tag : ∀ {t t' : Node} {P : Prop}, inlineType c = some t → inlineType c = some t' → t.tag = "simpleType".toList →
      t'.tag = "complexType".toList → P := fun h h' k k' => by
    obtain rfl := Option.some.inj (h.symm.trans h'); exact absurd (k.symm.trans k') (by decide)
  cases h with
  | typed h1 h2 =>
    cases h' with
    | typed => rfl
    | silent _ k => exact absurd h2 k
    | simple k | complex k | choice k | empty k => exact ty h1 k
  | silent h1 h2 =>
    cases h' with
    | typed _ k => exact absurd k h2
    | silent => rfl
    | simple k | complex k | choice k | empty k => exact ty h1 k
  | simple h1 h2 h3 h4 =>
    cases h' with
    | typed k | silent k => exact ty k h1
    | simple _ k2 k3 k4 =>
      obtain rfl := Option.some.inj (h2.symm.trans k2)
      obtain ⟨rfl, -, rfl⟩ := simpleShape_unique h4 k4
      rfl
    | complex _ k2 k3 | choice _ k2 k3 => exact tag h2 k2 h3 k3
    | empty _ k => exact inl h2 k
  | complex h1 h2 h3 h4 =>
    cases h' with
    | typed k | silent k => exact ty k h1
    | simple _ k2 k3 => exact tag k2 h2 k3 h3
    | complex => rfl
    | choice _ k2 _ k4 => obtain rfl := Option.some.inj (h2.symm.trans k2); exact absurd k4 h4
    | empty _ k => exact inl h2 k
  | choice h1 h2 h3 h4 =>
    cases h' with
    | typed k | silent k => exact ty k h1
    | simple _ k2 k3 => exact tag k2 h2 k3 h3
    | complex _ k2 _ k4 => obtain rfl := Option.some.inj (h2.symm.trans k2); exact absurd h4 k4
    | choice => rfl
    | empty _ k => exact inl h2 k
  | empty h1 h2 =>
    cases h' with
    | typed k | silent k => exact ty k h1
    | simple _ k | complex _ k | choice _ k => exact inl k h2
    | empty => rfl

/-- The cases by tags. -/
theorem globalDefs_cases (h : GlobalDefs U root c ds) :
    (c.tag = "complexType".toList ∧ ∃ nm, c.attr "name".toList = some nm ∧
      ((ChoiceContent c ∧ ds = [(.enum, nm ++ "Choice".toList), (.struct, nm)]) ∨ (¬ ChoiceContent c ∧ ds = [(.struct, nm)]))) ∨
    (c.tag = "simpleType".toList ∧ ∃ nm k own es, c.attr "name".toList = some nm ∧ SimpleShape U [root] c k own es ∧ ds = (k, nm) :: es) ∨
    (c.tag ∈ ["element", "attribute"].map String.toList ∧ (c.tag = "attribute".toList → c.attr "ref".toList = none) ∧
      ∃ nm, c.attr "name".toList = some nm ∧ NamedDefs U root c nm ds) ∨
    (c.tag = "attribute".toList ∧ ∃ r, c.attr "ref".toList = some r ∧ ((Documented (docOf c) ∧ ds = [(.type, r)]) ∨
      (¬ Documented (docOf c) ∧ ds = []))) ∨
    (c.tag ∈ ["import", "include"].map String.toList ∧ ds = []) := by
  have el : c.tag = "element".toList → c.tag ∈ ["element", "attribute"].map String.toList ∧
      (c.tag = "attribute".toList → c.attr "ref".toList = none) := fun h => by
    rw [h]; exact ⟨by decide, fun h => absurd h (by decide)⟩
  cases h with
  | complexType h1 h2 h3 => exact .inl ⟨h1, _, h2, .inr ⟨h3, rfl⟩⟩
  | choiceType h1 h2 h3 => exact .inl ⟨h1, _, h2, .inl ⟨h3, rfl⟩⟩
  | simpleType h1 h2 h3 => exact .inr (.inl ⟨h1, _, _, _, _, h2, h3, rfl⟩)
  | typed h1 h2 h3 h4 h5 => exact .inr (.inr (.inl ⟨h1, h2, _, h3, .typed h4 h5⟩))
  | typedSilent h1 h2 h3 h4 h5 => exact .inr (.inr (.inl ⟨h1, h2, _, h3, .silent h4 h5⟩))
  | inlineSimple h1 h2 h3 h4 h5 h6 h7 => exact .inr (.inr (.inl ⟨h1, h2, _, h3, .simple h4 h5 h6 h7⟩))
  | inlineComplex h1 h2 h3 h4 h5 h6 => exact .inr (.inr (.inl ⟨(el h1).1, (el h1).2, _, h2, .complex h3 h4 h5 h6⟩))
  | inlineChoice h1 h2 h3 h4 h5 h6 => exact .inr (.inr (.inl ⟨(el h1).1, (el h1).2, _, h2, .choice h3 h4 h5 h6⟩))
  | empty h1 h2 h3 h4 h5 => exact .inr (.inr (.inl ⟨h1, h2, _, h3, .empty h4 h5⟩))
  | reference h1 h2 h3 => exact .inr (.inr (.inr (.inl ⟨h1, _, h2, .inl ⟨h3, rfl⟩⟩)))
  | referenceSilent h1 h2 h3 => exact .inr (.inr (.inr (.inl ⟨h1, _, h2, .inr ⟨h3, rfl⟩⟩)))
  | «import» h1 => exact .inr (.inr (.inr (.inr ⟨h1, rfl⟩)))

/-- The definitions for a global declaration are determined. -/
theorem globalDefs_unique (h : GlobalDefs U root c ds) (h' : GlobalDefs U root c ds') : ds = ds' := by
  have no : ∀ {s : String} {l : List String} {P : Prop}, c.tag = s.toList → c.tag ∈ l.map String.toList → s.toList ∉ l.map String.toList → P :=
    fun h h' k => absurd (h ▸ h') k
  have ne : ∀ {s t : String} {P : Prop}, c.tag = s.toList → c.tag = t.toList → s.toList ≠ t.toList → P :=
    fun h h' k => absurd (h.symm.trans h') k
  have dis : ∀ {P : Prop}, c.tag ∈ ["element", "attribute"].map String.toList → c.tag ∈ ["import", "include"].map String.toList → P := by
    have k : ∀ s ∈ ["element", "attribute"].map String.toList, s ∉ ["import", "include"].map String.toList := by decide
    exact fun {_} h h' => absurd h' (k _ h)
  rcases globalDefs_cases h with ⟨h1, nm, h2, h3⟩ | ⟨h1, nm, k, own, es, h2, h3, rfl⟩ | ⟨h1, h2, nm, h3, h4⟩ | ⟨h1, r, h2, h3⟩ | ⟨h1, rfl⟩
  · rcases globalDefs_cases h' with ⟨k1, nm', k2, k3⟩ | ⟨k1, -⟩ | ⟨k1, -⟩ | ⟨k1, -⟩ | ⟨k1, -⟩
    · obtain rfl := Option.some.inj (h2.symm.trans k2)
      rcases h3 with ⟨h3, rfl⟩ | ⟨h3, rfl⟩ <;> rcases k3 with ⟨k3, rfl⟩ | ⟨k3, rfl⟩
      · rfl
      · exact absurd h3 k3
      · exact absurd k3 h3
      · rfl
    · exact ne h1 k1 (by decide)
    · exact no h1 k1 (by decide)
    · exact ne h1 k1 (by decide)
    · exact no h1 k1 (by decide)
  · rcases globalDefs_cases h' with ⟨k1, -⟩ | ⟨k1, nm', k', own', es', k2, k3, rfl⟩ | ⟨k1, -⟩ | ⟨k1, -⟩ | ⟨k1, -⟩
    · exact ne h1 k1 (by decide)
    · obtain rfl := Option.some.inj (h2.symm.trans k2)
      obtain ⟨rfl, -, rfl⟩ := simpleShape_unique h3 k3
      rfl
    · exact no h1 k1 (by decide)
    · exact ne h1 k1 (by decide)
    · exact no h1 k1 (by decide)
  · rcases globalDefs_cases h' with ⟨k1, -⟩ | ⟨k1, -⟩ | ⟨k1, k2, nm', k3, k4⟩ | ⟨k1, r, k2, -⟩ | ⟨k1, -⟩
    · exact no k1 h1 (by decide)
    · exact no k1 h1 (by decide)
    · obtain rfl := Option.some.inj (h3.symm.trans k3)
      exact namedDefs_unique h4 k4
    · rw [h2 k1] at k2; cases k2
    · exact dis h1 k1
  · rcases globalDefs_cases h' with ⟨k1, -⟩ | ⟨k1, -⟩ | ⟨k1, k2, -⟩ | ⟨k1, r', k2, k3⟩ | ⟨k1, -⟩
    · exact ne h1 k1 (by decide)
    · exact ne h1 k1 (by decide)
    · rw [k2 h1] at h2; cases h2
    · obtain rfl := Option.some.inj (h2.symm.trans k2)
      rcases h3 with ⟨h3, rfl⟩ | ⟨h3, rfl⟩ <;> rcases k3 with ⟨k3, rfl⟩ | ⟨k3, rfl⟩
      · rfl
      · exact absurd h3 k3
      · exact absurd k3 h3
      · rfl
    · exact no h1 k1 (by decide)
  · rcases globalDefs_cases h' with ⟨k1, -⟩ | ⟨k1, -⟩ | ⟨k1, -⟩ | ⟨k1, -⟩ | ⟨-, rfl⟩
    · exact no k1 h1 (by decide)
    · exact no k1 h1 (by decide)
    · exact dis k1 h1
    · exact no k1 h1 (by decide)
    · rfl

end

end Verif.Lemmas.Parse
