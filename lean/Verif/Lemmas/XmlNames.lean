import Verif.Spec.XmlNames
import Verif.Lemmas.GenItems2
import Verif.Lemmas.DocSimple
import Verif.Lemmas.Denote

/-! # The names in XML documents which the code has -/

namespace Verif.Lemmas.Xml

open Verif Verif.Model Verif.Spec Verif.RoXml

theorem sep_inj {α : Type} {x : α} : ∀ {a c b d : List α}, x ∉ a → x ∉ c → a ++ x :: b = c ++ x :: d → a = c ∧ b = d
  | [], [], _, _, _, _, h => ⟨rfl, (List.cons.inj h).2⟩
  | [], y :: _, _, _, _, hc, h => absurd ((List.cons.inj h).1 ▸ List.mem_cons_self) hc
  | y :: _, [], _, _, ha, _, h => absurd ((List.cons.inj h).1 ▸ List.mem_cons_self) ha
  | y :: a, z :: c, _, _, ha, hc, h => by
    obtain ⟨e, h'⟩ := List.cons.inj h
    obtain ⟨e', h''⟩ := sep_inj (fun k => ha (List.mem_cons_of_mem _ k)) (fun k => hc (List.mem_cons_of_mem _ k)) h'
    exact ⟨by rw [e, e'], h''⟩

/-! ## The attribute of a type -/

private theorem prefixAttr (q v : Str) : yaserdeAttr [] [("prefix".toList, q), ("namespace".toList, v)] =
    "#[yaserde(prefix = ".toList ++ '"' :: (q ++ '"' :: (", namespace = ".toList ++ '"' :: (v ++ '"' :: ")]".toList))) := by
  show "#[yaserde(".toList ++ List.intercalate ", ".toList ["prefix".toList ++ " = \"".toList ++ q ++ "\"".toList,
    "namespace".toList ++ " = \"".toList ++ v ++ "\"".toList] ++ ")]".toList = _
  rw [Gen.inter2]; simp only [List.append_assoc]; rfl

private theorem bareAttr (v : Str) : yaserdeAttr [] [("namespace".toList, v)] =
    "#[yaserde(namespace = ".toList ++ '"' :: (v ++ '"' :: ")]".toList) := by
  show "#[yaserde(".toList ++ List.intercalate ", ".toList ["namespace".toList ++ " = \"".toList ++ v ++ "\"".toList] ++
    ")]".toList = _
  rw [Gen.inter1]; simp only [List.append_assoc]; rfl

private theorem noAttr : yaserdeAttr [] [] = "#[yaserde()]".toList := rfl

/-- The namespace can be read from the attribute. -/
def NsOk (tns : Option Namespace) : Prop :=
  ∀ a, tns = some a → '"' ∉ a.uri ∧ ' ' ∉ a.uri ∧ ∀ p, a.name = some p → ':' ∉ p ∧ '"' ∉ p

private theorem quote_mem_append {a b c d : Str} (h : a ++ '"' :: b = c ++ d) (hc : '"' ∉ c) (hd : '"' ∉ d) : False := by
  have : '"' ∈ c ++ d := h ▸ List.mem_append_right _ List.mem_cons_self
  rcases List.mem_append.1 this with h | h
  · exact hc h
  · exact hd h

private theorem nmem {x : Char} {a b : Str} (h1 : x ∉ a) (h2 : x ∉ b) : x ∉ a ++ b := fun h =>
  (List.mem_append.1 h).elim h1 h2

/-- What an attribute says which ends with the one for `tns`. -/
private theorem prefixed_eq {tns : Option Namespace} (ht : NsOk tns) {D pre q p uri : Str} (hD : '"' ∉ D) (h1 : '"' ∉ pre)
    (h2 : '"' ∉ q) (h3 : ':' ∉ p) (h4 : '"' ∉ p) (h5 : '"' ∉ uri)
    (h : pre ++ yaserdeAttr [] [("prefix".toList, q), ("namespace".toList, p ++ ": ".toList ++ uri)] = D ++ nsAttr tns) :
    tns = some ⟨some p, uri⟩ := by
  rw [prefixAttr, ← List.append_assoc] at h
  rcases tns with _ | ⟨_ | p', uri'⟩
  · rw [nsAttr, noAttr] at h
    exact (quote_mem_append h hD (by decide)).elim
  · rw [nsAttr, bareAttr, ← List.append_assoc] at h
    obtain ⟨h, -⟩ := sep_inj (nmem h1 (by decide)) (nmem hD (by decide)) h
    have := congrArg (fun l => l.reverse.take 4) h
    simp at this
  · rw [nsAttr, prefixAttr, ← List.append_assoc] at h
    obtain ⟨k1, k2⟩ := ht _ rfl
    obtain ⟨k2, k3⟩ := k2.2 p' rfl
    obtain ⟨-, h⟩ := sep_inj (nmem h1 (by decide)) (nmem hD (by decide)) h
    obtain ⟨-, h⟩ := sep_inj h2 k3 h
    obtain ⟨-, h⟩ := sep_inj (by decide) (by decide) h
    obtain ⟨h, -⟩ := sep_inj (nmem (nmem h4 (by decide)) h5) (nmem (nmem k3 (by decide)) k1) h
    have h : p ++ ':' :: (' ' :: uri) = p' ++ ':' :: (' ' :: uri') := by simpa using h
    obtain ⟨e1, e2⟩ := sep_inj h3 k2 h
    rw [e1, (List.cons.inj e2).2]

private theorem bare_eq {tns : Option Namespace} (ht : NsOk tns) {D pre uri : Str} (hD : '"' ∉ D) (h1 : '"' ∉ pre)
    (h5 : '"' ∉ uri) (h : pre ++ yaserdeAttr [] [("namespace".toList, uri)] = D ++ nsAttr tns) :
    tns = some ⟨none, uri⟩ := by
  rw [bareAttr, ← List.append_assoc] at h
  rcases tns with _ | ⟨_ | p', uri'⟩
  · rw [nsAttr, noAttr] at h
    exact (quote_mem_append h hD (by decide)).elim
  · rw [nsAttr, bareAttr, ← List.append_assoc] at h
    obtain ⟨-, h⟩ := sep_inj (nmem h1 (by decide)) (nmem hD (by decide)) h
    obtain ⟨rfl, -⟩ := sep_inj h5 (ht _ rfl).1 h
    rfl
  · rw [nsAttr, prefixAttr, ← List.append_assoc] at h
    obtain ⟨h, -⟩ := sep_inj (nmem h1 (by decide)) (nmem hD (by decide)) h
    have := congrArg (fun l => l.reverse.take 4) h
    simp at this

/-- The namespaces which a type names: the target namespace. -/
theorem typeNs_iff {tns : Option Namespace} (ht : NsOk tns) {as : List Str} {D : Str} (hD : '"' ∉ D)
    (h1 : D ++ nsAttr tns ∈ as) (h2 : ∀ a ∈ as, a = D ++ nsAttr tns ∨ '"' ∉ a) {o : Option Str} {uri : Str} :
    TypeNs as o uri ↔ tns = some ⟨o, uri⟩ := by
  constructor
  · intro h
    cases h with
    | withPrefix k1 k2 k3 k4 k5 k6 =>
      rcases h2 _ k6 with k | k
      · exact prefixed_eq ht hD k1 k2 k3 k4 k5 k
      · rw [prefixAttr] at k
        exact absurd (by simp) k
    | bare k1 k2 k3 k4 =>
      rcases h2 _ k4 with k | k
      · exact bare_eq ht hD k1 k3 k
      · rw [bareAttr] at k
        exact absurd (by simp) k
  · rintro rfl
    obtain ⟨k1, k2, k3⟩ := ht _ rfl
    cases o with
    | none => exact .bare hD k2 k1 h1
    | some p => exact .withPrefix hD (k3 p rfl).2 (k3 p rfl).1 (k3 p rfl).2 k1 h1

/-! ## The attribute of a member -/

private theorem nameAttr_some (words : List Str) (p n : Str) : nameAttr words none (some p) n =
    "#[yaserde(".toList ++ (words.flatMap (· ++ ", ".toList) ++ ("prefix = ".toList ++ '"' :: (p ++ '"' ::
      (", rename = ".toList ++ '"' :: (n ++ '"' :: ")]".toList))))) := by
  unfold nameAttr yaserdeAttr
  induction words with
  | nil => simp [List.intercalate]
  | cons w ws ih =>
    cases ws with
    | nil => simp [List.intercalate]
    | cons w' ws' =>
      simp [List.intercalate] at ih ⊢
      exact ih

private theorem nameAttr_none (words : List Str) (n : Str) : nameAttr words none none n =
    "#[yaserde(".toList ++ (words.flatMap (· ++ ", ".toList) ++ ("rename = ".toList ++ '"' :: (n ++ '"' :: ")]".toList))) := by
  unfold nameAttr yaserdeAttr
  induction words with
  | nil => simp [List.intercalate]
  | cons w ws ih =>
    cases ws with
    | nil => simp [List.intercalate]
    | cons w' ws' =>
      simp [List.intercalate] at ih ⊢
      exact ih

theorem nameAttr_inj {words : List Str} {o o' : Option Str} {n n' : Str} (h1 : '"' ∉ o.getD []) (h2 : '"' ∉ n)
    (h3 : '"' ∉ o'.getD []) (h4 : '"' ∉ n') (h : nameAttr words none o n = nameAttr words none o' n') : o = o' ∧ n = n' := by
  cases o with
  | none =>
    cases o' with
    | none =>
      rw [nameAttr_none, nameAttr_none] at h
      have h := List.append_cancel_left (List.append_cancel_left (List.append_cancel_left h))
      obtain ⟨-, h⟩ := List.cons.inj h
      exact ⟨rfl, (sep_inj h2 h4 h).1⟩
    | some p =>
      rw [nameAttr_none, nameAttr_some] at h
      have h := List.append_cancel_left (List.append_cancel_left h)
      exact absurd (List.cons.inj h).1 (by decide)
  | some q =>
    cases o' with
    | none =>
      rw [nameAttr_none, nameAttr_some] at h
      have h := List.append_cancel_left (List.append_cancel_left h)
      exact absurd (List.cons.inj h).1 (by decide)
    | some p =>
      rw [nameAttr_some, nameAttr_some] at h
      have h := List.append_cancel_left (List.append_cancel_left (List.append_cancel_left h))
      obtain ⟨-, h⟩ := List.cons.inj h
      obtain ⟨e1, e2⟩ := sep_inj h1 h3 h
      have e1 : q = p := e1
      obtain ⟨-, e3⟩ := List.cons.inj (List.append_cancel_left e2)
      exact ⟨congrArg some e1, (sep_inj h2 h4 e3).1⟩

theorem renames_iff {words : List Str} {m : Spec.Member} {o o' : Option Str} {n n' : Str} (h1 : '"' ∉ o.getD [])
    (h2 : '"' ∉ n) (h : m.attr = some (nameAttr words none o n)) : Renames words m o' n' ↔ o' = o ∧ n' = n := by
  constructor
  · rintro ⟨k1, k2, k3⟩
    exact nameAttr_inj k1 k2 h1 h2 (Option.some.inj (k3.symm.trans h))
  · rintro ⟨rfl, rfl⟩
    exact ⟨h1, h2, h⟩

theorem nameAttr_or (words : List Str) (d o : Option Str) (n : Str) : nameAttr words d o n = nameAttr words none (o.or d) n := by
  unfold nameAttr
  cases o <;> cases d <;> rfl

/-! ## Members -/

/-- The attributes of an item name the target namespace and no other. -/
def Names (tns : Option Namespace) (as : List Str) : Prop := ∀ o uri, TypeNs as o uri ↔ tns = some ⟨o, uri⟩

theorem elementReads_iff {tns : Option Namespace} {i : Item} {m : Spec.Member} {o : Option Str} {n : Str} {x : XmlName}
    (hi : Names tns i.attrs) (h1 : '"' ∉ o.getD []) (h2 : '"' ∉ n) (h : m.attr = some (nameAttr [] none o n)) :
    ElementReads i m x ↔ (∃ uri, tns = some ⟨o, uri⟩ ∧ x = ⟨some uri, n⟩) ∨
      (o = none ∧ (∀ uri, tns ≠ some ⟨none, uri⟩) ∧ x = ⟨none, n⟩) := by
  constructor
  · intro k
    cases k with
    | named k1 k2 =>
      obtain ⟨rfl, rfl⟩ := (renames_iff h1 h2 h).1 k1
      exact .inl ⟨_, (hi _ _).1 k2, rfl⟩
    | without k1 k2 =>
      obtain ⟨e, rfl⟩ := (renames_iff h1 h2 h).1 k1
      exact .inr ⟨e.symm, fun uri e => k2 uri ((hi _ _).2 e), rfl⟩
  · rintro (⟨uri, k, rfl⟩ | ⟨rfl, k, rfl⟩)
    · exact .named ((renames_iff h1 h2 h).2 ⟨rfl, rfl⟩) ((hi _ _).2 k)
    · exact .without ((renames_iff h1 h2 h).2 ⟨rfl, rfl⟩) fun uri e => k uri ((hi _ _).1 e)

theorem attributeReads_iff {tns : Option Namespace} {i : Item} {m : Spec.Member} {o : Option Str} {n : Str} {x : XmlName}
    (hi : Names tns i.attrs) (h1 : '"' ∉ o.getD []) (h2 : '"' ∉ n) (h : m.attr = some (nameAttr ["attribute".toList] none o n)) :
    AttributeReads i m x ↔ (∃ p uri, o = some p ∧ tns = some ⟨some p, uri⟩ ∧ x = ⟨some uri, n⟩) ∨
      (o = none ∧ x = ⟨none, n⟩) := by
  constructor
  · intro k
    cases k with
    | named k1 k2 =>
      obtain ⟨e, rfl⟩ := (renames_iff h1 h2 h).1 k1
      exact .inl ⟨_, _, e.symm, (hi _ _).1 k2, rfl⟩
    | without k1 =>
      obtain ⟨e, rfl⟩ := (renames_iff h1 h2 h).1 k1
      exact .inr ⟨e.symm, rfl⟩
  · rintro (⟨p, uri, rfl, k, rfl⟩ | ⟨rfl, rfl⟩)
    · exact .named ((renames_iff h1 h2 h).2 ⟨rfl, rfl⟩) ((hi _ _).2 k)
    · exact .without ((renames_iff h1 h2 h).2 ⟨rfl, rfl⟩)

theorem variantReads_none {tns : Option Namespace} {i : Item} {m : Spec.Member} {x : XmlName} (hi : Names tns i.attrs)
    (h : m.attr = none) : VariantReads i m x ↔ x = ⟨defaultUri tns, m.name⟩ := by
  constructor
  · intro k
    cases k with
    | field k =>
      cases k with
      | named k => exact nomatch h.symm.trans k.2.2
      | without k => exact nomatch h.symm.trans k.2.2
    | named k1 k2 => rw [(hi _ _).1 k2]; rfl
    | without k1 k2 =>
      rcases tns with _ | ⟨_ | p, uri⟩
      · rfl
      · exact absurd ((hi _ _).2 rfl) (k2 uri)
      · rfl
  · rintro rfl
    rcases tns with _ | ⟨_ | p, uri⟩
    · exact .without h fun uri k => nomatch (hi _ _).1 k
    · exact .named h ((hi _ _).2 rfl)
    · exact .without h fun uri k => nomatch (hi _ _).1 k

theorem variantReads_some {i : Item} {m : Spec.Member} {x : XmlName} (h : m.attr ≠ none) :
    VariantReads i m x ↔ ElementReads i m x := by
  constructor
  · intro k
    cases k with
    | field k => exact k
    | named k => exact absurd k h
    | without k => exact absurd k h
  · exact .field

/-- A name without a prefix in an element of a struct. -/
theorem elementReads_bare {tns : Option Namespace} {i : Item} {m : Spec.Member} {n : Str} {x : XmlName}
    (ht : NsOk tns) (hi : Names tns i.attrs) (h2 : '"' ∉ n) (h : m.attr = some (nameAttr [] (nsPrefix tns) none n)) :
    ElementReads i m x ↔ x = ⟨targetUri tns, n⟩ := by
  rw [nameAttr_or] at h
  have hq : '"' ∉ ((none : Option Str).or (nsPrefix tns)).getD [] := by
    rcases tns with _ | ⟨_ | p, uri⟩
    · exact List.not_mem_nil
    · exact List.not_mem_nil
    · exact ((ht _ rfl).2.2 p rfl).2
  rw [elementReads_iff hi hq h2 h]
  rcases tns with _ | ⟨p, uri⟩
  · simp [nsPrefix, targetUri]
  · cases p <;> simp [nsPrefix, targetUri]

/-- A name with a prefix. -/
theorem elementReads_prefix {tns d : Option Namespace} {i : Item} {m : Spec.Member} {p n : Str} {x : XmlName}
    (hi : Names tns i.attrs) (h1 : '"' ∉ p) (h2 : '"' ∉ n) (h : m.attr = some (nameAttr [] (nsPrefix d) (some p) n)) :
    ElementReads i m x ↔ ∃ uri, tns = some ⟨some p, uri⟩ ∧ x = ⟨some uri, n⟩ := by
  rw [nameAttr_or] at h
  rw [elementReads_iff hi (o := some p) h1 h2 h]
  simp

theorem ref_unique {o o' : Option Str} {n n' s : Str} (h : Ref o n s) (h' : Ref o' n' s) : o = o' ∧ n = n' := by
  cases h with
  | bare h1 =>
    cases h' with
    | bare _ => exact ⟨rfl, rfl⟩
    | prefixed _ => exact absurd (List.mem_append_right _ List.mem_cons_self) h1
  | prefixed h1 =>
    generalize e : _ ++ ':' :: _ = z at h'
    cases h' with
    | bare h2 => exact absurd (e ▸ List.mem_append_right _ List.mem_cons_self) h2
    | prefixed h2 =>
      obtain ⟨rfl, rfl⟩ := sep_inj h1 h2 e
      exact ⟨rfl, rfl⟩

/-- What a field is called which is written as an element. -/
theorem elementField_reads {tns : Option Namespace} {c : Node} {nm : Str} {i : Item} {m : Spec.Member} {x : XmlName}
    (ht : NsOk tns) (hi : Names tns i.attrs) (hn : ∀ nm, c.attr "name".toList = some nm → ':' ∉ nm ∧ '"' ∉ nm)
    (hr : ∀ r, c.attr "ref".toList = some r → '"' ∉ r)
    (hf : c.attr "name".toList = some nm ∨ (c.attr "name".toList = none ∧ c.attr "ref".toList = some nm))
    (hm : ∃ o k, Ref o k nm ∧ m.attr = some (nameAttr [] (nsPrefix tns) o k)) :
    ElementReads i m x ↔ SequenceName tns c x := by
  rcases hf with h1 | ⟨h0, h1⟩
  · obtain ⟨o, k, h2, h3⟩ := hm
    obtain ⟨h4, h5⟩ := hn nm h1
    cases h2 with
    | bare _ =>
      rw [elementReads_bare ht hi h5 h3]
      constructor
      · rintro rfl; exact .named h1
      · intro h
        cases h with
        | named h => obtain rfl := Option.some.inj (h1.symm.trans h); rfl
        | bare h => exact nomatch h1.symm.trans h
        | ref h => exact nomatch h1.symm.trans h
    | prefixed _ => exact absurd (List.mem_append_right _ List.mem_cons_self) h4
  · obtain ⟨o, k, h2, h3⟩ := hm
    have h5 := hr nm h1
    cases h2 with
    | bare h4 =>
      rw [elementReads_bare ht hi h5 h3]
      constructor
      · rintro rfl; exact .bare h0 h1 h4
      · intro h
        cases h with
        | named h => exact nomatch h0.symm.trans h
        | bare _ h => obtain rfl := Option.some.inj (h1.symm.trans h); rfl
        | ref _ h hr =>
          obtain rfl := Option.some.inj (h1.symm.trans h)
          cases hr
          exact absurd (List.mem_append_right _ List.mem_cons_self) h4
    | prefixed h4 =>
      rw [elementReads_prefix hi (fun h => h5 (List.mem_append_left _ h))
        (fun h => h5 (List.mem_append_right _ (List.mem_cons_of_mem _ h))) h3]
      constructor
      · rintro ⟨uri, e, rfl⟩; exact .ref h0 h1 (.prefixed h4) e
      · intro h
        cases h with
        | named h => exact nomatch h0.symm.trans h
        | bare _ h hb =>
          obtain rfl := Option.some.inj (h1.symm.trans h)
          exact absurd (List.mem_append_right _ List.mem_cons_self) hb
        | ref _ h hr e =>
          obtain rfl := Option.some.inj (h1.symm.trans h)
          obtain ⟨e1, e2⟩ := ref_unique (.prefixed h4) hr
          obtain rfl := Option.some.inj e1
          obtain rfl := e2
          exact ⟨_, e, rfl⟩

/-- What a member of a sequence is called. -/
theorem sequence_reads {Inline : Node → RsEntity → Prop} {N : Naming} {tns : Option Namespace} {owner md : Str} {c : Node}
    {f : StructField} {i : Item} {m : Spec.Member} {x : XmlName} (ht : NsOk tns) (hi : Names tns i.attrs)
    (hc : c.tag = "element".toList) (hn : ∀ nm, c.attr "name".toList = some nm → ':' ∉ nm ∧ '"' ∉ nm)
    (hr : ∀ r, c.attr "ref".toList = some r → '"' ∉ r)
    (hf : MemberField Inline owner c f) (hm : FieldMember N (nsPrefix tns) md f m) :
    ElementReads i m x ↔ SequenceName tns c x := by
  cases hf with
  | typed _ h1 => exact elementField_reads ht hi hn hr (.inl h1) hm.2.2
  | inline _ _ h1 => exact elementField_reads ht hi hn hr (.inl h1) hm.2.2
  | any h => exact absurd (h.symm.trans hc) (by decide)
  | choice h => exact absurd (h.symm.trans hc) (by decide)
  | ref _ h0 h1 => exact elementField_reads ht hi hn hr (.inr ⟨h0, h1⟩) hm.2.2

/-- What a field is called which is written as an element under an invented name. -/
theorem invented_reads {tns : Option Namespace} {owner : Str} {i : Item} {m : Spec.Member} {x : XmlName} (ht : NsOk tns)
    (hi : Names tns i.attrs) (ho : ':' ∉ owner ∧ '"' ∉ owner)
    (hm : ∃ o k, Ref o k (owner ++ "Choice".toList) ∧ m.attr = some (nameAttr [] (nsPrefix tns) o k)) :
    ElementReads i m x ↔ x = ⟨targetUri tns, owner ++ "Choice".toList⟩ := by
  obtain ⟨o, k, h2, h3⟩ := hm
  have h4 : ':' ∉ owner ++ "Choice".toList := nmem ho.1 (by decide)
  obtain ⟨rfl, rfl⟩ := ref_unique (.bare h4) h2
  exact elementReads_bare ht hi (nmem ho.2 (by decide)) h3

/-- What the field for a choice in a sequence is called. -/
theorem nested_reads {Inline : Node → RsEntity → Prop} {N : Naming} {tns : Option Namespace} {owner md : Str} {c : Node}
    {f : StructField} {i : Item} {m : Spec.Member} {x : XmlName} (ht : NsOk tns) (hi : Names tns i.attrs)
    (hc : c.tag = "choice".toList) (ho : ':' ∉ owner ∧ '"' ∉ owner)
    (hf : MemberField Inline owner c f) (hm : FieldMember N (nsPrefix tns) md f m) :
    ElementReads i m x ↔ x = ⟨targetUri tns, owner ++ "Choice".toList⟩ := by
  cases hf with
  | typed h => exact absurd (h.symm.trans hc) (by decide)
  | inline h => exact absurd (h.symm.trans hc) (by decide)
  | any h => exact absurd (h.symm.trans hc) (by decide)
  | ref h => exact absurd (h.symm.trans hc) (by decide)
  | choice => exact invented_reads ht hi ho hm.2.2

/-- What a field is called which is written as an attribute. -/
theorem attributeField_reads {tns : Option Namespace} {c : Node} {nm : Str} {i : Item} {m : Spec.Member} {x : XmlName}
    (hi : Names tns i.attrs) (hn : ∀ nm, c.attr "name".toList = some nm → ':' ∉ nm ∧ '"' ∉ nm)
    (hr : ∀ r, c.attr "ref".toList = some r → '"' ∉ r)
    (hf : c.attr "name".toList = some nm ∨ (c.attr "name".toList = none ∧ c.attr "ref".toList = some nm))
    (hm : ∃ o k, Ref o k nm ∧ m.attr = some (nameAttr ["attribute".toList] none o k)) :
    AttributeReads i m x ↔ AttributeName tns c x := by
  rcases hf with h1 | ⟨h0, h1⟩
  · obtain ⟨o, k, h2, h3⟩ := hm
    obtain ⟨h4, h5⟩ := hn nm h1
    obtain ⟨rfl, rfl⟩ := ref_unique (.bare h4) h2
    rw [attributeReads_iff hi List.not_mem_nil h5 h3]
    constructor
    · rintro (⟨p, uri, e, -⟩ | ⟨-, rfl⟩)
      · exact nomatch e
      · exact .named h1
    · intro h
      cases h with
      | named h => obtain rfl := Option.some.inj (h1.symm.trans h); exact .inr ⟨rfl, rfl⟩
      | bare h => exact nomatch h1.symm.trans h
      | ref h => exact nomatch h1.symm.trans h
  · obtain ⟨o, k, h2, h3⟩ := hm
    have h5 := hr nm h1
    cases h2 with
    | bare h4 =>
      rw [attributeReads_iff hi List.not_mem_nil h5 h3]
      constructor
      · rintro (⟨p, uri, e, -⟩ | ⟨-, rfl⟩)
        · exact nomatch e
        · exact .bare h0 h1 h4
      · intro h
        cases h with
        | named h => exact nomatch h0.symm.trans h
        | bare _ h => obtain rfl := Option.some.inj (h1.symm.trans h); exact .inr ⟨rfl, rfl⟩
        | ref _ h hr =>
          obtain rfl := Option.some.inj (h1.symm.trans h)
          cases hr
          exact absurd (List.mem_append_right _ List.mem_cons_self) h4
    | @prefixed p n h4 =>
      rw [attributeReads_iff hi (o := some p) (fun h => h5 (List.mem_append_left _ h))
        (fun h => h5 (List.mem_append_right _ (List.mem_cons_of_mem _ h))) h3]
      constructor
      · rintro (⟨p', uri, e1, e2, rfl⟩ | ⟨e, -⟩)
        · obtain rfl := Option.some.inj e1
          exact .ref h0 h1 (.prefixed h4) e2
        · exact nomatch e
      · intro h
        cases h with
        | named h => exact nomatch h0.symm.trans h
        | bare _ h hb =>
          obtain rfl := Option.some.inj (h1.symm.trans h)
          exact absurd (List.mem_append_right _ List.mem_cons_self) hb
        | ref _ h hr e =>
          obtain rfl := Option.some.inj (h1.symm.trans h)
          obtain ⟨e1, e2⟩ := ref_unique (.prefixed h4) hr
          obtain rfl := Option.some.inj e1
          obtain rfl := e2
          exact .inl ⟨_, _, rfl, e, rfl⟩

/-- What an attribute is called. -/
theorem attribute_reads {N : Naming} {tns : Option Namespace} {md : Str} {pfx : Option Str} {c : Node}
    {f : StructField} {i : Item} {m : Spec.Member} {x : XmlName} (hi : Names tns i.attrs)
    (hc : c.tag = "attribute".toList) (hn : ∀ nm, c.attr "name".toList = some nm → ':' ∉ nm ∧ '"' ∉ nm)
    (hr : ∀ r, c.attr "ref".toList = some r → '"' ∉ r)
    (hf : AttrField c f) (hm : FieldMember N pfx md f m) :
    AttributeReads i m x ↔ AttributeName tns c x := by
  cases hf with
  | any h => exact absurd (h.symm.trans hc) (by decide)
  | «attribute» _ hf =>
    cases hf with
    | named h1 => exact attributeField_reads hi hn hr (.inl h1) hm.2.2
    | ref h0 h1 => exact attributeField_reads hi hn hr (.inr ⟨h0, h1⟩) hm.2.2

private theorem defaultUri_iff {tns : Option Namespace} {n : Str} {x : XmlName} :
    ((∃ uri, tns = some ⟨none, uri⟩ ∧ x = ⟨some uri, n⟩) ∨
      ((none : Option Str) = none ∧ (∀ uri, tns ≠ some ⟨none, uri⟩) ∧ x = ⟨none, n⟩)) ↔ x = ⟨defaultUri tns, n⟩ := by
  rcases tns with _ | ⟨_ | p, uri⟩ <;> simp [defaultUri]

/-- What an element of a choice is called. -/
theorem choice_reads {N : Naming} {tns : Option Namespace} {c : Node} {k : EnumCase} {i : Item} {m : Spec.Member}
    {x : XmlName} (hi : Names tns i.attrs)
    (hn : ∀ nm, c.attr "name".toList = some nm → ':' ∉ nm ∧ '"' ∉ nm)
    (hr : ∀ r, c.attr "ref".toList = some r → '"' ∉ r) (hk : ChoiceCase c k) (hm : CaseMember N k m) :
    VariantReads i m x ↔ ChoiceName tns c x := by
  obtain ⟨h1, -, o, n, h2, h3⟩ := hm
  have bare : ∀ {n : Str}, '"' ∉ n → N.case n = m.name → m.attr = (if n = N.case n then none else some (nameAttr [] none none n)) →
      (VariantReads i m x ↔ x = ⟨defaultUri tns, n⟩) := by
    intro n hq e h3
    by_cases h : n = N.case n
    · rw [if_pos h] at h3
      rw [variantReads_none hi h3, ← e, ← h]
    · rw [if_neg h] at h3
      rw [variantReads_some (by rw [h3]; exact Option.some_ne_none _), elementReads_iff hi List.not_mem_nil hq h3, defaultUri_iff]
  cases hk with
  | @ref r _ h0 =>
    have h5 := hr r h0
    have h2 : Ref o n r := h2
    cases h2 with
    | bare h4 =>
      rw [bare h5 h1.symm (by simpa using h3)]
      constructor
      · rintro rfl; exact .bare h0 h4
      · intro h
        cases h with
        | named h => exact nomatch h0.symm.trans h
        | bare h => obtain rfl := Option.some.inj (h0.symm.trans h); rfl
        | ref h hr =>
          obtain rfl := Option.some.inj (h0.symm.trans h)
          cases hr
          exact absurd (List.mem_append_right _ List.mem_cons_self) h4
    | prefixed h4 =>
      rw [if_neg (by simp)] at h3
      rw [variantReads_some (by rw [h3]; exact Option.some_ne_none _),
        elementReads_prefix (d := none) hi (fun h => h5 (List.mem_append_left _ h))
          (fun h => h5 (List.mem_append_right _ (List.mem_cons_of_mem _ h))) h3]
      constructor
      · rintro ⟨uri, e, rfl⟩; exact .ref h0 (.prefixed h4) e
      · intro h
        cases h with
        | named h => exact nomatch h0.symm.trans h
        | bare h hb =>
          obtain rfl := Option.some.inj (h0.symm.trans h)
          exact absurd (List.mem_append_right _ List.mem_cons_self) hb
        | ref h hr e =>
          obtain rfl := Option.some.inj (h0.symm.trans h)
          obtain ⟨e1, e2⟩ := ref_unique (.prefixed h4) hr
          obtain rfl := Option.some.inj e1
          obtain rfl := e2
          exact ⟨_, e, rfl⟩
  | @named nm _ h0 hnm =>
    obtain ⟨h4, h5⟩ := hn nm hnm
    obtain ⟨rfl, rfl⟩ := ref_unique (.bare h4) h2
    rw [bare h5 h1.symm (by simpa using h3)]
    constructor
    · rintro rfl; exact .named h0 hnm
    · intro h
      cases h with
      | named _ h => obtain rfl := Option.some.inj (hnm.symm.trans h); rfl
      | bare h => exact nomatch h0.symm.trans h
      | ref h => exact nomatch h0.symm.trans h

theorem structNames {tns : Option Namespace} {d : Str} (ht : NsOk tns) (hd : '"' ∉ d) : Names tns [d, nsAttr tns] := fun _ _ =>
  typeNs_iff (D := []) ht List.not_mem_nil (List.mem_cons_of_mem _ (List.mem_singleton.2 rfl)) fun a ha => by
    rcases List.mem_cons.1 ha with rfl | ha
    · exact .inr hd
    · exact .inl (List.mem_singleton.1 ha)

theorem enumNames {tns : Option Namespace} {d : Str} (ht : NsOk tns) (hd : '"' ∉ d) : Names tns [d ++ nsAttr tns] := fun _ _ =>
  typeNs_iff (D := d) ht hd (List.mem_singleton.2 rfl) fun _ ha => .inl (List.mem_singleton.1 ha)

/-- What a document is called whose only element is a value of a struct. -/
theorem rootReads_iff {tns : Option Namespace} {i : Item} {d T : Str} {x : XmlName} (ht : NsOk tns) (ha : i.attrs = [d, nsAttr tns])
    (hh : readHead i.head = some (.struct, T)) : RootReads i x ↔ x = ⟨targetUri tns, T⟩ := by
  constructor
  · intro h
    cases h with
    | withPrefix h1 h2 h3 h4 h5 =>
      have e := (List.cons.inj (List.cons.inj (ha.symm.trans h1)).2).1
      have := prefixed_eq ht (D := []) (pre := []) List.not_mem_nil List.not_mem_nil h3 h2 h3 h4 e.symm
      obtain ⟨-, rfl⟩ := Prod.mk.inj (Option.some.inj (hh.symm.trans h5))
      rw [this]; rfl
    | bare h1 h2 h3 h5 =>
      have e := (List.cons.inj (List.cons.inj (ha.symm.trans h1)).2).1
      have := bare_eq ht (D := []) (pre := []) List.not_mem_nil List.not_mem_nil h3 e.symm
      obtain ⟨-, rfl⟩ := Prod.mk.inj (Option.some.inj (hh.symm.trans h5))
      rw [this]; rfl
    | without h1 h5 =>
      have e := (List.cons.inj (List.cons.inj (ha.symm.trans h1)).2).1
      obtain ⟨-, rfl⟩ := Prod.mk.inj (Option.some.inj (hh.symm.trans h5))
      rcases tns with _ | ⟨_ | p, uri⟩
      · rfl
      · rw [nsAttr, bareAttr, noAttr] at e
        have : '"' ∈ "#[yaserde()]".toList := e ▸ List.mem_append_right _ List.mem_cons_self
        exact absurd this (by decide)
      · rw [nsAttr, prefixAttr, noAttr] at e
        have : '"' ∈ "#[yaserde()]".toList := e ▸ List.mem_append_right _ List.mem_cons_self
        exact absurd this (by decide)
  · rintro rfl
    rcases tns with _ | ⟨_ | p, uri⟩
    · exact .without ha hh
    · obtain ⟨h1, h2, -⟩ := ht _ rfl
      exact .bare ha h2 h1 hh
    · obtain ⟨h1, h2, h3⟩ := ht _ rfl
      exact .withPrefix ha (h3 p rfl).1 (h3 p rfl).2 h1 hh

theorem forall₂_filter {α β : Type} {R : α → β → Prop} {p : α → Bool} {q : β → Bool} {a : List α} {b : List β}
    (h : List.Forall₂ R a b) (hpq : ∀ x ∈ a, ∀ y, R x y → p x = q y) : List.Forall₂ R (a.filter p) (b.filter q) := by
  induction h with
  | nil => exact .nil
  | @cons x y a b h1 _ ih =>
    have := hpq x List.mem_cons_self y h1
    have ih := ih fun x hx => hpq x (List.mem_cons_of_mem _ hx)
    by_cases hp : p x = true
    · rw [List.filter_cons_of_pos hp, List.filter_cons_of_pos (this ▸ hp)]; exact .cons h1 ih
    · rw [List.filter_cons_of_neg hp, List.filter_cons_of_neg (this ▸ hp)]; exact ih

theorem forall₂_trans {α β γ : Type} {R : α → β → Prop} {S : β → γ → Prop} {a : List α} {b : List β} {c : List γ}
    (h1 : List.Forall₂ R a b) (h2 : List.Forall₂ S b c) : List.Forall₂ (fun x z => x ∈ a ∧ ∃ y, R x y ∧ S y z) a c := by
  induction h1 generalizing c with
  | nil => cases h2; exact .nil
  | cons h _ ih =>
    cases h2 with
    | cons k1 k2 =>
      exact .cons ⟨List.mem_cons_self, _, h, k1⟩ ((ih k2).imp fun _ _ ⟨m, k⟩ => ⟨List.mem_cons_of_mem _ m, k⟩)

theorem forall₂_split {α β : Type} {R : α → β → Prop} : ∀ {a b : List α} {c : List β}, List.Forall₂ R (a ++ b) c →
    ∃ c1 c2, c = c1 ++ c2 ∧ List.Forall₂ R a c1 ∧ List.Forall₂ R b c2
  | [], _, c, h => ⟨[], c, rfl, .nil, h⟩
  | _ :: _, _, _, .cons h h' => by
    obtain ⟨c1, c2, rfl, k1, k2⟩ := forall₂_split h'
    exact ⟨_ :: c1, c2, rfl, .cons h k1, k2⟩

theorem attributes_filter (n : Node) (p : Node → Prop) [DecidablePred p] :
    ((withTags n ["attribute", "anyAttribute"]).filter fun c => decide (c.tag = "attribute".toList ∧ p c)) =
      (withTags n ["attribute"]).filter fun c => decide (p c) := by
  unfold withTags
  rw [List.filter_filter, List.filter_filter]
  refine List.filter_congr fun c _ => ?_
  show (decide (c.tag = "attribute".toList ∧ p c) && (decide (c.tag = "attribute".toList) ||
    (decide (c.tag = "anyAttribute".toList) || false))) = (decide (p c) && (decide (c.tag = "attribute".toList) || false))
  generalize "attribute".toList = x
  generalize "anyAttribute".toList = y
  by_cases h : c.tag = x
  · by_cases h' : p c <;> simp only [h, h', and_self, and_false, decide_true, decide_false, Bool.true_or, Bool.and_true, Bool.false_and]
  · simp only [h, false_and, decide_false, Bool.false_and, Bool.or_self, Bool.and_false]

/-- Only wildcards are not written. -/
theorem memberField_empty {Inline : Node → RsEntity → Prop} {owner : Str} {c : Node} {f : StructField}
    (h : MemberField Inline owner c f) : decide (c.tag ≠ "any".toList) = !f.typeModifiers.contains .empty := by
  have wrapped : ∀ {n : Node} {m : TypeModifier} {t : Str} {ms}, WrapperOf n m → Boxed owner t [m] ms →
      ms.contains .empty = false := by
    rintro n m t ms ⟨lo, hi, -, -, hw⟩ hb
    cases hb <;> cases hw <;> decide
  have tag : ∀ {s : String}, c.tag = s.toList → s.toList ≠ "any".toList → decide (c.tag ≠ "any".toList) = true :=
    fun h h' => decide_eq_true (h ▸ h')
  cases h with
  | typed h _ _ h4 h5 => rw [tag h (by decide)]; simp only [StructField.typeModifiers, wrapped h4 h5]; rfl
  | ref h _ _ h4 h5 => rw [tag h (by decide)]; simp only [StructField.typeModifiers, wrapped h4 h5]; rfl
  | inline h _ _ _ _ _ _ h4 h5 => rw [tag h (by decide)]; simp only [StructField.typeModifiers, wrapped h4 h5]; rfl
  | any h h5 =>
    rw [decide_eq_false (by simpa using h)]
    cases h5 <;> rfl
  | choice h => rw [tag h (by decide)]; rfl

/-- Only wildcards and what is prohibited are not written. -/
theorem attrField_empty {c : Node} {f : StructField} (h : AttrField c f) :
    decide (c.tag = "attribute".toList ∧ c.attr "use".toList ≠ some "prohibited".toList) =
      !f.typeModifiers.contains .empty := by
  cases h with
  | any h => rw [decide_eq_false (by rw [h]; exact fun e => absurd e.1 (by decide))]; rfl
  | «attribute» h hf =>
    have use : ∀ {m}, UseOf c m →
        decide (c.tag = "attribute".toList ∧ c.attr "use".toList ≠ some "prohibited".toList) = ![m].contains .empty := by
      intro m hu
      cases hu with
      | default hu => rw [decide_eq_true ⟨h, by rw [hu]; decide⟩]; rfl
      | optional hu => rw [decide_eq_true ⟨h, by rw [hu]; decide⟩]; rfl
      | required hu => rw [decide_eq_true ⟨h, by rw [hu]; decide⟩]; rfl
      | prohibited hu => rw [decide_eq_false (by rw [hu]; exact fun e => e.2 rfl)]; rfl
    cases hf with
    | named _ hu => exact use hu
    | ref _ _ hu => exact use hu

open Verif.Lemmas.Parse

/-- A global complex type which is a choice. -/
theorem global_choice {U : UnicodeTable} {root c s : Node} {g : RsFile} {nm : Str} (hg : Grammatical root)
    (hf : ProperForms root) (h : parseFile U root = .ok g) (hc : c ∈ globals root) (ht : c.tag = "complexType".toList)
    (hn : c.attr "name".toList = some nm) (hs : (withTags c contentTags).getLast? = some s) (hst : s.tag = "choice".toList)
    (hne : s.children.filter Node.isElement ≠ []) :
    ∃ cases subs, List.Forall₂ ChoiceCase (withTags s ["element"]) cases ∧
      RsEntity.enum (.mk (nm ++ "Choice".toList) cases none "String".toList subs .choice) ∈ g.types := by
  obtain ⟨e, he, hin⟩ := parseFile_global h hc
  have hrf : NotFacet root := notFacet_of (s := "schema") (by decide) hg.schema
  have hcp : PartOf root c := .child .root (List.mem_filter.1 hc).1
  have hsp : PartOf root s := .child hcp (mem_contentTags hs).1
  have ha : ∀ a ∈ [root], NotFacet a := fun a ha => by obtain rfl := List.mem_singleton.1 ha; exact hrf
  cases (complexType_iff ht ha).1 he with
  | plain _ _ _ _ h5 => exact absurd (h5 s hs) hne
  | @content nm' attrs s' x _ h1 h2 h3 h4 h5 h6 h7 =>
    obtain rfl := Option.some.inj (hs.symm.trans h4)
    have hnm : nm' = nm := by
      cases h1 with
      | global _ k => exact Option.some.inj (k.symm.trans hn)
      | inline k => exact absurd hg.schema k
    subst hnm
    obtain ⟨-, cases, k1, rfl⟩ := (parseChoice_iff hst (fun y hy => hf.choices s y hsp (is_one.2 hst) hy)).1 h6
    cases h7 with
    | «enum» => exact ⟨cases, _, k1, hin fun _ h => nomatch h⟩
    | other _ hno => exact absurd rfl (hno _)

end Verif.Lemmas.Xml
