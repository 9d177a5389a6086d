import Verif.Spec.Expansion
import Mathlib.Data.List.Forall2

/-! # C84: on which items the derive macros expand -/

namespace Verif.Props

open Verif Verif.Model Verif.Spec

private theorem fromPath_vec {qs : List Str} {arg : Option RPath} :
    TupTy.fromPath (.mk qs "Vec".toList arg) = match arg with | some sub => .ok (.vec sub) | none => .panic := by
  rw [TupTy.fromPath.eq_def]
  dsimp only
  rw [if_neg (by decide), if_neg (by decide), if_pos rfl]
  cases arg <;> rfl

private theorem fromPath_other {p : RPath} (h : ∀ a, ¬ VecOf p a) :
    ∃ t, TupTy.fromPath p = .ok t ∧ ∀ q, t ≠ .vec q := by
  obtain ⟨qs, i, a⟩ := p
  rw [TupTy.fromPath.eq_def]
  dsimp only
  have hi : i ≠ "Vec".toList := fun e => h a ⟨qs, e ▸ rfl⟩
  by_cases h1 : i ∈ simpleIdents
  · rw [if_pos h1]; exact ⟨_, rfl, fun q => nofun⟩
  by_cases h2 : i = "String".toList
  · rw [if_neg h1, if_pos h2]; exact ⟨_, rfl, fun q => nofun⟩
  · rw [if_neg h1, if_neg h2, if_neg hi]; exact ⟨_, rfl, fun q => nofun⟩

/-- The four cases. -/
private theorem path_cases (p : RPath) : (∀ a, ¬ VecOf p a) ∨ VecOf p none ∨ ∃ q, VecOf p (some q) := by
  by_cases h : ∃ a, VecOf p a
  · obtain ⟨_ | q, h⟩ := h
    · exact .inr (.inl h)
    · exact .inr (.inr ⟨q, h⟩)
  · exact .inl fun a ha => h ⟨a, ha⟩

private theorem vecOf_unique {p : RPath} {a b : Option RPath} (h : VecOf p a) (h' : VecOf p b) : a = b := by
  obtain ⟨qs, rfl⟩ := h
  obtain ⟨qs', e⟩ := h'
  exact (RPath.mk.inj e).2.2

/-- What happens with a path. -/
private theorem serde_path {V : Type} (E : TypeEnv V) (p : RPath) (ts : List RType) :
    (FlatType p ∧ ¬ NestedVec p ∧ ¬ UnknownVec p ∧ ∃ r, tupleSerde E (.struct (.unnamed (.path p :: ts))) = .ok r) ∨
    (NestedVec p ∧ ¬ FlatType p ∧ ¬ UnknownVec p ∧ tupleSerde E (.struct (.unnamed (.path p :: ts))) = .err) ∨
    (UnknownVec p ∧ ¬ FlatType p ∧ ¬ NestedVec p ∧ tupleSerde E (.struct (.unnamed (.path p :: ts))) = .panic) := by
  have run : tupleSerde E (.struct (.unnamed (.path p :: ts))) =
    (tupleFromStr E p).bind fun f => (tupleToStr E p).bind fun g => .ok (f, g) := rfl
  rw [run]
  rcases path_cases p with h | h | ⟨q, h⟩
  · left
    refine ⟨fun a ha => absurd ha (h a), fun ⟨q, a, k, _⟩ => h _ k, fun k => ?_, ?_⟩
    · rcases k with k | ⟨q, k, -⟩
      · exact h _ k
      · exact h _ k
    · obtain ⟨t, ht, hv⟩ := fromPath_other h
      unfold tupleFromStr tupleToStr
      rw [ht]
      cases t with
      | vec q => exact absurd rfl (hv q)
      | simple _ => exact ⟨_, rfl⟩
      | string _ => exact ⟨_, rfl⟩
      | struct _ => exact ⟨_, rfl⟩
  · right; right
    refine ⟨.inl h, fun k => ?_, (fun ⟨q, a, k, _⟩ => nomatch vecOf_unique h k), ?_⟩
    · obtain ⟨q, e, -⟩ := k _ h
      exact nomatch e
    · obtain ⟨qs, rfl⟩ := h
      unfold tupleFromStr
      rw [fromPath_vec]
      rfl
  · rcases path_cases q with k | k | ⟨q', k⟩
    · left
      refine ⟨fun a ha => ⟨q, vecOf_unique ha h, k⟩, fun ⟨q', a, k1, k2⟩ => ?_, fun j => ?_, ?_⟩
      · obtain rfl := Option.some.inj (vecOf_unique h k1)
        exact k _ k2
      · rcases j with j | ⟨q', j1, j2⟩
        · exact nomatch vecOf_unique h j
        · obtain rfl := Option.some.inj (vecOf_unique h j1)
          exact k _ j2
      · obtain ⟨t, ht, hv⟩ := fromPath_other k
        obtain ⟨qs, rfl⟩ := h
        unfold tupleFromStr tupleToStr
        rw [fromPath_vec]
        simp only [Res.bind]
        rw [ht]
        cases t with
        | vec q => exact absurd rfl (hv q)
        | simple _ => exact ⟨_, rfl⟩
        | string _ => exact ⟨_, rfl⟩
        | struct _ => exact ⟨_, rfl⟩
    · right; right
      refine ⟨.inr ⟨q, h, k⟩, fun j => ?_, fun ⟨q', a, k1, k2⟩ => ?_, ?_⟩
      · obtain ⟨q', e, j⟩ := j _ h
        obtain rfl := Option.some.inj e
        exact j _ k
      · obtain rfl := Option.some.inj (vecOf_unique h k1)
        exact nomatch vecOf_unique k k2
      · obtain ⟨qs, rfl⟩ := h
        obtain ⟨qs', rfl⟩ := k
        unfold tupleFromStr
        rw [fromPath_vec]
        simp only [Res.bind]
        rw [fromPath_vec]
    · right; left
      refine ⟨⟨q, q', h, k⟩, fun j => ?_, fun j => ?_, ?_⟩
      · obtain ⟨q'', e, j⟩ := j _ h
        obtain rfl := Option.some.inj e
        exact j _ k
      · rcases j with j | ⟨q'', j1, j2⟩
        · exact nomatch vecOf_unique h j
        · obtain rfl := Option.some.inj (vecOf_unique h j1)
          exact nomatch vecOf_unique k j2
      · obtain ⟨qs, rfl⟩ := h
        obtain ⟨qs', rfl⟩ := k
        unfold tupleFromStr
        rw [fromPath_vec]
        simp only [Res.bind]
        rw [fromPath_vec]

private theorem tupleOf_unique {d : Data} {p q : RPath} (h : TupleOf d p) (h' : TupleOf d q) : p = q := by
  obtain ⟨ts, rfl⟩ := h
  obtain ⟨ts', e⟩ := h'
  exact RType.path.inj (List.cons.inj (Fields.unnamed.inj (Data.struct.inj e))).1

private theorem serde_none {V : Type} (E : TypeEnv V) {d : Data} (h : ∀ p, ¬ TupleOf d p) : tupleSerde E d = .panic := by
  unfold tupleSerde fieldPath
  split
  · rename_i fs
    unfold extractFieldPath
    split
    · rename_i p ts
      exact absurd ⟨ts, rfl⟩ (h p)
    · rfl
  · rfl

/-- **C84** `UtilsTupleIo` expands exactly on tuple structs whose first field is a single value or a vector of such. -/
theorem C84_tuple_ok_iff {V : Type} (E : TypeEnv V) (d : Data) :
    (∃ r, tupleSerde E d = .ok r) ↔ ∃ p, TupleOf d p ∧ FlatType p := by
  by_cases hd : ∃ p, TupleOf d p
  · obtain ⟨p, ts, rfl⟩ := hd
    have hp : ∀ {Q : RPath → Prop}, (∃ q, TupleOf (.struct (.unnamed (.path p :: ts))) q ∧ Q q) ↔ Q p :=
      ⟨fun ⟨q, h, k⟩ => tupleOf_unique h ⟨ts, rfl⟩ ▸ k, fun k => ⟨p, ⟨ts, rfl⟩, k⟩⟩
    rw [hp]
    rcases serde_path E p ts with ⟨h, -, -, k⟩ | ⟨-, h, -, k⟩ | ⟨-, h, -, k⟩
    · exact ⟨fun _ => h, fun _ => k⟩
    · exact ⟨(fun ⟨r, e⟩ => nomatch k.symm.trans e), fun j => absurd j h⟩
    · exact ⟨(fun ⟨r, e⟩ => nomatch k.symm.trans e), fun j => absurd j h⟩
  · push Not at hd
    exact ⟨(fun ⟨r, e⟩ => nomatch (serde_none E hd).symm.trans e), fun ⟨p, h, _⟩ => absurd h (hd p)⟩

/-- **C84** It refuses vectors of vectors. -/
theorem C84_tuple_err_iff {V : Type} (E : TypeEnv V) (d : Data) :
    tupleSerde E d = .err ↔ ∃ p, TupleOf d p ∧ NestedVec p := by
  by_cases hd : ∃ p, TupleOf d p
  · obtain ⟨p, ts, rfl⟩ := hd
    have hp : ∀ {Q : RPath → Prop}, (∃ q, TupleOf (.struct (.unnamed (.path p :: ts))) q ∧ Q q) ↔ Q p :=
      ⟨fun ⟨q, h, k⟩ => tupleOf_unique h ⟨ts, rfl⟩ ▸ k, fun k => ⟨p, ⟨ts, rfl⟩, k⟩⟩
    rw [hp]
    rcases serde_path E p ts with ⟨-, h, -, r, k⟩ | ⟨h, -, -, k⟩ | ⟨-, -, h, k⟩
    · exact ⟨(fun e => nomatch k.symm.trans e), fun j => absurd j h⟩
    · exact ⟨fun _ => h, fun _ => k⟩
    · exact ⟨(fun e => nomatch k.symm.trans e), fun j => absurd j h⟩
  · push Not at hd
    exact ⟨(fun e => nomatch (serde_none E hd).symm.trans e), fun ⟨p, h, _⟩ => absurd h (hd p)⟩

/-- **C84** It panics on anything but a tuple struct, and on vectors of which it is not said of what. -/
theorem C84_tuple_panic_iff {V : Type} (E : TypeEnv V) (d : Data) :
    tupleSerde E d = .panic ↔ ∀ p, TupleOf d p → UnknownVec p := by
  by_cases hd : ∃ p, TupleOf d p
  · obtain ⟨p, ts, rfl⟩ := hd
    have hp : ∀ {Q : RPath → Prop}, (∀ q, TupleOf (.struct (.unnamed (.path p :: ts))) q → Q q) ↔ Q p :=
      ⟨fun h => h p ⟨ts, rfl⟩, fun k q h => tupleOf_unique h ⟨ts, rfl⟩ ▸ k⟩
    rw [hp]
    rcases serde_path E p ts with ⟨-, -, h, r, k⟩ | ⟨-, -, h, k⟩ | ⟨h, -, -, k⟩
    · exact ⟨(fun e => nomatch k.symm.trans e), fun j => absurd j h⟩
    · exact ⟨(fun e => nomatch k.symm.trans e), fun j => absurd j h⟩
    · exact ⟨fun _ => h, fun _ => k⟩
  · push Not at hd
    exact ⟨fun _ p h => absurd h (hd p), fun _ => serde_none E hd⟩

private theorem unionMembers_iff : ∀ {vs : List (Str × Fields)} {ms : List (Str × RType)}, unionMembers vs = .ok ms ↔
    List.Forall₂ (fun v m => v.1 = m.1 ∧ ∃ ts, v.2 = .unnamed (m.2 :: ts)) (vs.filter fun v => v.1 ≠ "__Unknown__".toList) ms
  | [], ms => by
    rw [unionMembers, List.filter_nil, List.forall₂_nil_left_iff]
    exact ⟨fun e => (Res.ok.inj e).symm, fun e => e ▸ rfl⟩
  | (n, fs) :: vs, ms => by
    rw [unionMembers]
    by_cases hn : n = "__Unknown__".toList
    · rw [if_pos hn, List.filter_cons_of_neg (p := fun v : Str × Fields => decide (v.1 ≠ "__Unknown__".toList)) (a := (n, fs)) (fun h => absurd hn (of_decide_eq_true h))]
      exact unionMembers_iff
    · rw [if_neg hn, List.filter_cons_of_pos (p := fun v : Str × Fields => decide (v.1 ≠ "__Unknown__".toList)) (a := (n, fs)) (decide_eq_true hn)]
      constructor
      · intro h
        cases ht : variantType fs with
        | ok t =>
          rw [ht] at h
          cases hr : unionMembers vs with
          | ok r =>
            rw [Res.bind, hr] at h
            obtain rfl := Res.ok.inj h
            refine .cons ⟨rfl, ?_⟩ (unionMembers_iff.1 hr)
            unfold variantType at ht
            split at ht
            · obtain rfl := Res.ok.inj ht
              exact ⟨_, rfl⟩
            · exact nomatch ht
          | err => rw [Res.bind, hr] at h; exact nomatch h
          | panic => rw [Res.bind, hr] at h; exact nomatch h
        | err => rw [ht] at h; exact nomatch h
        | panic => rw [ht] at h; exact nomatch h
      · intro h
        cases h with
        | @cons _ m _ r h1 h2 =>
          obtain ⟨e, ts, h1⟩ := h1
          obtain ⟨m1, m2⟩ := m
          have e : n = m1 := e
          have h1 : fs = .unnamed (m2 :: ts) := h1
          subst e h1
          rw [unionMembers_iff.2 h2]
          rfl

/-- **C84** `UtilsUnionSerDe` expands exactly on enums all of whose variants, except `__Unknown__`, have values; it treats them
in order. -/
theorem C84_union_ok_iff (d : Data) (ms : List (Str × RType)) : unionSerde d = .ok ms ↔ UnionOf d ms := by
  cases d with
  | enum vs => 
    refine unionMembers_iff.trans ⟨fun h => ⟨vs, rfl, h⟩, ?_⟩
    rintro ⟨vs', e, h⟩
    obtain rfl := Data.enum.inj e
    exact h
  | struct fs => exact ⟨nofun, fun ⟨_, e, _⟩ => nomatch e⟩
  | union => exact ⟨nofun, fun ⟨_, e, _⟩ => nomatch e⟩

private theorem unionMembers_panic : ∀ {vs : List (Str × Fields)}, unionMembers vs ≠ .panic
  | [] => nofun
  | (n, fs) :: vs => by
    rw [unionMembers]
    split
    · exact unionMembers_panic
    · cases ht : variantType fs with
      | ok t =>
        cases hr : unionMembers vs with
        | ok r => rw [Res.bind, Res.bind]; exact nofun
        | err => rw [Res.bind, Res.bind]; exact nofun
        | panic => exact absurd hr unionMembers_panic
      | err => exact nofun
      | panic => unfold variantType at ht; split at ht <;> exact nomatch ht

/-- **C84** Everything else is refused with an error. -/
theorem C84_union_err_iff (d : Data) : unionSerde d = .err ↔ ∀ ms, ¬ UnionOf d ms := by
  constructor
  · intro h ms hm
    exact nomatch h.symm.trans ((C84_union_ok_iff d ms).2 hm)
  · intro h
    cases hd : unionSerde d with
    | ok ms => exact absurd ((C84_union_ok_iff d ms).1 hd) (h ms)
    | err => rfl
    | panic =>
      cases d with
      | enum vs => exact absurd hd unionMembers_panic
      | struct fs => exact nomatch hd
      | union => exact nomatch hd

private abbrev vecOf (p : RPath) : RPath := .mk ["std".toList, "vec".toList] "Vec".toList (some p)
private abbrev single : RPath := .mk [] "i32".toList none

/-- A tuple struct with a vector of numbers and another field is accepted, a vector of vectors refused; a struct with a named
field makes the macro panic. -/
example {V : Type} (E : TypeEnv V) : (∃ r, tupleSerde E (.struct (.unnamed [.path (vecOf single), .other])) = .ok r) ∧
    tupleSerde E (.struct (.unnamed [.path (vecOf (vecOf single))])) = .err ∧
    tupleSerde E (.struct (.named [.path single])) = .panic :=
  ⟨(C84_tuple_ok_iff E _).2 ⟨_, ⟨_, rfl⟩, fun a ⟨_, e⟩ => ⟨single, (RPath.mk.inj e).2.2.symm, fun a ⟨_, e⟩ =>
      absurd (RPath.mk.inj e).2.1 (by decide)⟩⟩,
    (C84_tuple_err_iff E _).2 ⟨_, ⟨_, rfl⟩, _, _, ⟨_, rfl⟩, ⟨_, rfl⟩⟩,
    (C84_tuple_panic_iff E _).2 fun p ⟨ts, e⟩ => nomatch Data.struct.inj e⟩

/-- An enum with two variants, and one without a value. -/
example : unionSerde (.enum [("A".toList, .unnamed [.path single]), ("__Unknown__".toList, .unit)]) = .ok [("A".toList, .path single)] ∧
    unionSerde (.enum [("A".toList, .unit)]) = .err :=
  ⟨(C84_union_ok_iff _ _).2 ⟨_, rfl, .cons ⟨rfl, _, rfl⟩ .nil⟩, (C84_union_err_iff _).2 fun ms ⟨vs, e, h⟩ => by
    obtain rfl := Data.enum.inj e
    cases h with
    | cons h _ => obtain ⟨_, ts, h⟩ := h; cases h⟩

end Verif.Props
