import Verif.Spec.Duration

/-!
# Specification: integer texts

Written from XSD 1.0 part 2, 3.3.13: an optional sign and one or more digits.  The parser also
admits underscores after the first digit; `UIntText` describes that larger language.
-/

namespace Verif.Spec

/-- Signs of an integer text. -/
inductive Sign where
  | none
  | plus
  | minus
  deriving DecidableEq

/-- Text of a sign. -/
def Sign.text : Sign → List Char
  | .none => []
  | .plus => ['+']
  | .minus => ['-']

/-- The number `n` with a sign. -/
def Sign.apply : Sign → Nat → Int
  | .minus, n => -(n : Int)
  | _, n => n

/-- XSD integer text `s` with sign `sg` denoting `v`. -/
def XsdInt (s : List Char) (sg : Sign) (v : Int) : Prop :=
  ∃ ds, Digits1 ds ∧ s = sg.text ++ dtext ds ∧ v = sg.apply (decVal ds)

/-- Text of digits (`some d`) and underscores (`none`). -/
def utext : List (Option Nat) → List Char
  | [] => []
  | some d :: r => digit d :: utext r
  | none :: r => '_' :: utext r

/-- The digits of such a sequence. -/
def udigits : List (Option Nat) → List Nat
  | [] => []
  | some d :: r => d :: udigits r
  | none :: r => udigits r

/-- Integer text with underscores anywhere after the first digit. -/
def UIntText (s : List Char) (sg : Sign) (v : Int) : Prop :=
  ∃ d us, d < 10 ∧ Digits (udigits us) ∧ s = sg.text ++ digit d :: utext us ∧
    v = sg.apply (decVal (d :: udigits us))

end Verif.Spec
