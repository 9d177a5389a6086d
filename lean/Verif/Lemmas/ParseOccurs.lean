import Verif.Lemmas.GenValidate
import Verif.Lemmas.Parse

/-! # Occurrences of elements -/

namespace Verif.Lemmas.Parse

open Verif Verif.Model Verif.RoXml Verif.Spec

theorem parse_u64 {s : Str} {k : Nat} : Str.parseUnsigned usizeMax s = some k ↔ U64Text s k :=
  Gen.parseUnsigned_iff

theorem u64_unique {s : Str} {k l : Nat} (h : U64Text s k) (h' : U64Text s l) : k = l :=
  Option.some.inj ((parse_u64.2 h).symm.trans (parse_u64.2 h'))

theorem u64_none {s : Str} : Str.parseUnsigned usizeMax s = none ↔ ∀ k, ¬ U64Text s k := by
  constructor
  · intro h k hk
    rw [parse_u64.2 hk] at h
    cases h
  · intro h
    cases hp : Str.parseUnsigned usizeMax s with
    | none => rfl
    | some k => exact absurd (parse_u64.1 hp) (h k)

theorem unbounded_not_u64 {k : Nat} : ¬ U64Text "unbounded".toList k := by
  have : Str.parseUnsigned usizeMax "unbounded".toList = none := by decide +kernel
  exact u64_none.1 this k

theorem minOccurs_iff {n : Node} {k : Nat} : minOccurs n = k ↔ MinRead n k := by
  unfold minOccurs
  constructor
  · intro h
    cases ha : n.attr "minOccurs".toList with
    | none => rw [ha] at h; subst h; exact .missing ha
    | some s =>
      rw [ha, Option.bind_some] at h
      cases hp : Str.parseUnsigned usizeMax s with
      | none => rw [hp] at h; subst h; exact .unreadable ha (u64_none.1 hp)
      | some v => rw [hp] at h; subst h; exact .number ha (parse_u64.1 hp)
  · intro h
    cases h with
    | missing ha => rw [ha]; rfl
    | number ha hk => rw [ha, Option.bind_some, parse_u64.2 hk]; rfl
    | unreadable ha hk => rw [ha, Option.bind_some, u64_none.2 hk]; rfl

theorem maxOccurs_iff {n : Node} {m : MaxOccurs} : maxOccurs n = m ↔ MaxRead n m := by
  unfold maxOccurs
  constructor
  · intro h
    cases ha : n.attr "maxOccurs".toList with
    | none => rw [ha] at h; subst h; exact .missing ha
    | some s =>
      rw [ha] at h
      dsimp only at h
      by_cases hu : s = "unbounded".toList
      · rw [if_pos hu] at h; subst h; exact .unbounded (ha.trans (congrArg some hu))
      · rw [if_neg hu] at h
        cases hp : Str.parseUnsigned usizeMax s with
        | none => rw [hp] at h; subst h; exact .unreadable ha hu (u64_none.1 hp)
        | some v => rw [hp] at h; subst h; exact .number ha (parse_u64.1 hp)
  · intro h
    cases h with
    | missing ha => rw [ha]
    | number ha hk =>
      rw [ha]
      dsimp only
      rw [if_neg (fun e => unbounded_not_u64 (k := _) (by rw [e] at hk; exact hk)), parse_u64.2 hk]
    | unbounded ha => rw [ha]; dsimp only; rw [if_pos rfl]
    | unreadable ha hu hk => rw [ha]; dsimp only; rw [if_neg hu, u64_none.2 hk]

theorem wrapper_iff {lo : Nat} {hi : MaxOccurs} {m : TypeModifier} : WrapperFor lo hi m ↔
    m = (match lo with
      | 0 => match hi with
        | .none => TypeModifier.option
        | .unbounded => .array
        | .bounded v => if v > 1 then .array else .none
      | 1 => match hi with
        | .none => .none
        | .unbounded => .array
        | .bounded v => if v > 1 then .array else .none
      | _ => .array) := by
  constructor
  · intro h
    cases h with
    | many h2 =>
      match lo, h2 with
      | _ + 2, _ => rfl
    | unbounded =>
      match lo with
      | 0 => rfl
      | 1 => rfl
      | _ + 2 => rfl
    | @bounded _ k h2 =>
      match lo with
      | 0 => exact (if_pos (show k > 1 from h2)).symm
      | 1 => exact (if_pos (show k > 1 from h2)).symm
      | _ + 2 => rfl
    | optional => rfl
    | single => rfl
    | @atMostOne _ k h1 h2 =>
      match lo, h1 with
      | 0, _ => exact (if_neg (show ¬ k > 1 by omega)).symm
      | 1, _ => exact (if_neg (show ¬ k > 1 by omega)).symm
  · rintro rfl
    match lo, hi with
    | 0, .none => exact .optional
    | 0, .unbounded => exact .unbounded
    | 0, .bounded v =>
      show WrapperFor 0 (.bounded v) (if v > 1 then .array else .none)
      by_cases h : v > 1
      · rw [if_pos h]; exact .bounded h
      · rw [if_neg h]; exact .atMostOne (by omega) (by omega)
    | 1, .none => exact .single
    | 1, .unbounded => exact .unbounded
    | 1, .bounded v =>
      show WrapperFor 1 (.bounded v) (if v > 1 then .array else .none)
      by_cases h : v > 1
      · rw [if_pos h]; exact .bounded h
      · rw [if_neg h]; exact .atMostOne (by omega) (by omega)
    | _ + 2, _ => exact .many (by omega)

theorem elementModifier_iff {n : Node} {m : TypeModifier} : elementModifier n = m ↔ WrapperOf n m := by
  constructor
  · rintro rfl
    exact ⟨_, _, minOccurs_iff.1 rfl, maxOccurs_iff.1 rfl, wrapper_iff.2 rfl⟩
  · rintro ⟨lo, hi, h1, h2, h3⟩
    rw [wrapper_iff.1 h3, ← minOccurs_iff.2 h1, ← maxOccurs_iff.2 h2]
    rfl

theorem wrapperOf (n : Node) : WrapperOf n (elementModifier n) := elementModifier_iff.1 rfl

end Verif.Lemmas.Parse
