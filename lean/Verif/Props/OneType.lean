import Verif.Props.Writes

/-! # C80: a value is written by its own type only -/

namespace Verif.Props

open Verif Verif.Model Verif.Spec

/-- **C80** Only the type of a value writes it; integers are written by the integer types only. -/
theorem C80_one_type (L : Lib) {r : String} {v : LibVal} (hv : HasType r v) (ty : Str) (o : Res Str)
    (h : libToString L ty v = some o) :
    ty = r.toList ∨ (∃ i, v = .int i) ∧ ty ∈ ["i64", "i32", "i16", "i8", "u64", "u32", "u16", "u8", "xs::Integer",
      "xs::NonNegativeInteger", "xs::PositiveInteger", "xs::NonPositiveInteger", "xs::NegativeInteger"].map String.toList := by
  have key : ∀ {x : String} {a : Res Str}, (if x.toList = ty then some a else none) = some o → ty = x.toList := by
    intro x a h
    split at h
    · rename_i e
      exact e.symm
    · cases h
  have hint : ∀ {i : Int}, libToString L ty (.int i) = some o → ty ∈ intDisplays.map fun p => p.1.toList := by
    intro i h
    obtain ⟨p, hp, -⟩ := Option.map_eq_some_iff.1 h
    have h1 := List.mem_of_find?_eq_some hp
    have h2 := List.find?_some hp
    exact List.mem_map.2 ⟨p, h1, of_decide_eq_true h2⟩
  cases hv with
  | machine => exact .inr ⟨⟨_, rfl⟩, hint h⟩
  | big => exact .inr ⟨⟨_, rfl⟩, hint h⟩
  | nat => exact .inr ⟨⟨_, rfl⟩, hint h⟩
  | _ => exact .inl (key h)

/-- A text is written as a text, and not by other types. -/
example (L : Lib) : libToString L "String".toList (.text "a".toList) = some (.ok "a".toList) ∧
    libToString L "bool".toList (.text "a".toList) = none := by
  constructor <;> simp [libToString, libDisplay]

end Verif.Props
