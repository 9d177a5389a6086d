import Verif.Spec.Lexical
import Verif.Rust.Float

/-!
# Specification: durations

`XsdDuration` is the grammar of XSD; `Accepts` is the exact (larger) language of the parser.
A digit sequence is a list of naturals below ten.
-/

namespace Verif.Spec

open Verif

/-- A sequence of decimal digits. -/
def Digits (ds : List Nat) : Prop := ∀ d ∈ ds, d < 10

/-- The text of a digit sequence. -/
def dtext (ds : List Nat) : List Char := ds.map digit

/-- How a number is read into 64 bits: debug builds refuse numbers that do not fit, release builds
keep the remainder modulo 2^64. -/
def ReadNum : Profile → List Nat → Nat → Prop
  | .debug, ds, v => decVal ds < 2 ^ 64 ∧ v = decVal ds
  | .release, ds, v => v = decVal ds % 2 ^ 64

/-- How the digits after the decimal point are read: numerator and denominator. -/
def ReadFrac : Profile → List Nat → Nat → Nat → Prop
  | .debug, fs, a, b => fs.length ≤ 19 ∧ a = decVal fs ∧ b = 10 ^ fs.length
  | .release, fs, a, b => a = decVal fs % 2 ^ 64 ∧ b = 10 ^ fs.length % 2 ^ 64

/-- An optional component `<digits><letter>`; its value, 0 when absent. -/
inductive Comp (p : Profile) (c : Char) : List Char → Nat → Prop where
  | absent : Comp p c [] 0
  | present (ds : List Nat) (v : Nat) : ds ≠ [] → Digits ds → ReadNum p ds v →
      Comp p c (dtext ds ++ [c]) v

/-- Leftover that the parser ignores: a number reading as zero, possibly with a fraction. -/
inductive Junk (p : Profile) : List Char → Prop where
  | whole (ds : List Nat) : Digits ds → ReadNum p ds 0 → Junk p (dtext ds)
  | frac (ds fs : List Nat) (a b : Nat) : ds ≠ [] → Digits ds → ReadNum p ds 0 → Digits fs →
      ReadFrac p fs a b → Junk p (dtext ds ++ '.' :: dtext fs)

/-- Seconds: whole part, fraction numerator and denominator. -/
abbrev SecParts := Option (Nat × Nat × Nat)

/-- Seconds component (first text) and ignored leftover (second text). -/
inductive SecTail (p : Profile) : List Char → List Char → SecParts → Prop where
  | absent (z) : Junk p z → SecTail p [] z none
  | whole (ds : List Nat) (v z) : ds ≠ [] → Digits ds → ReadNum p ds v → Junk p z →
      SecTail p (dtext ds ++ ['S']) z (some (v, 0, 1))
  | frac (ds fs js : List Nat) (v a b a' b' : Nat) : ds ≠ [] → Digits ds → ReadNum p ds v →
      fs ≠ [] → Digits fs → ReadFrac p fs a b → Digits js → ReadFrac p (fs ++ js) a' b' →
      SecTail p (dtext ds ++ '.' :: dtext fs ++ ['S']) (dtext js) (some (v, a, b))

/-- Sign of a duration. -/
def durSign (neg : Bool) : List Char := if neg then ['-'] else []

/-- The language of the parser, with the value read. -/
inductive Accepts (p : Profile) : List Char → Bool → Nat → Nat → Nat → Nat → Nat → SecParts → Prop where
  | empty : Accepts p [] false 0 0 0 0 0 none
  | date (neg ty tm td z y m d) :
      Comp p 'Y' ty y → Comp p 'M' tm m → Comp p 'D' td d → Junk p z → ty ++ tm ++ td ≠ [] →
      Accepts p (durSign neg ++ 'P' :: (ty ++ tm ++ td ++ z)) neg y m d 0 0 none
  | time (neg ty tm td z w th tn ts tail y m d h n sec) :
      Comp p 'Y' ty y → Comp p 'M' tm m → Comp p 'D' td d → Junk p z →
      z ++ w = th ++ tn ++ ts ++ tail → th ++ tn ++ ts ≠ [] →
      Comp p 'H' th h → Comp p 'M' tn n → SecTail p ts tail sec →
      Accepts p (durSign neg ++ 'P' :: (ty ++ tm ++ td ++ (z ++ 'T' :: w))) neg y m d h n sec

/-- An optional whole-number component of the XSD grammar. -/
def compText (c : Char) : Option (List Nat) → List Char
  | none => []
  | some ds => dtext ds ++ [c]

/-- The optional seconds component of the XSD grammar: whole digits, optional fraction digits. -/
def secText : Option (List Nat × Option (List Nat)) → List Char
  | none => []
  | some (ds, none) => dtext ds ++ ['S']
  | some (ds, some fs) => dtext ds ++ '.' :: dtext fs ++ ['S']

/-- A digit sequence with at least one digit. -/
def Digits1 (ds : List Nat) : Prop := ds ≠ [] ∧ Digits ds

/-- Parts of an XSD duration. -/
structure DurParts where
  neg : Bool
  y : Option (List Nat)
  m : Option (List Nat)
  d : Option (List Nat)
  h : Option (List Nat)
  n : Option (List Nat)
  s : Option (List Nat × Option (List Nat))

namespace DurParts

/-- Every written number has at least one digit. -/
def WF (x : DurParts) : Prop :=
  (∀ ds, x.y = some ds → Digits1 ds) ∧ (∀ ds, x.m = some ds → Digits1 ds) ∧
  (∀ ds, x.d = some ds → Digits1 ds) ∧ (∀ ds, x.h = some ds → Digits1 ds) ∧
  (∀ ds, x.n = some ds → Digits1 ds) ∧ (∀ ds f, x.s = some (ds, f) → Digits1 ds) ∧
  (∀ ds fs, x.s = some (ds, some fs) → Digits1 fs)

/-- Date components text. -/
def dateText (x : DurParts) : List Char := compText 'Y' x.y ++ compText 'M' x.m ++ compText 'D' x.d
/-- Time components text. -/
def timeText (x : DurParts) : List Char := compText 'H' x.h ++ compText 'M' x.n ++ secText x.s

/-- The XSD duration text of the parts: `T` is written exactly when there is a time component. -/
def text (x : DurParts) : List Char :=
  durSign x.neg ++ 'P' :: (x.dateText ++ (if x.timeText = [] then [] else 'T' :: x.timeText))

/-- At least one component is present. -/
def NonEmpty (x : DurParts) : Prop := x.dateText ++ x.timeText ≠ []

/-- All numbers fit: components below 2^64, at most 19 fraction digits. -/
def Fits (x : DurParts) : Prop :=
  (∀ ds, x.y = some ds → decVal ds < 2 ^ 64) ∧ (∀ ds, x.m = some ds → decVal ds < 2 ^ 64) ∧
  (∀ ds, x.d = some ds → decVal ds < 2 ^ 64) ∧ (∀ ds, x.h = some ds → decVal ds < 2 ^ 64) ∧
  (∀ ds, x.n = some ds → decVal ds < 2 ^ 64) ∧ (∀ ds f, x.s = some (ds, f) → decVal ds < 2 ^ 64) ∧
  (∀ ds fs, x.s = some (ds, some fs) → fs.length ≤ 19)

/-- Value of a component, 0 when absent. -/
def val : Option (List Nat) → Nat
  | none => 0
  | some ds => decVal ds

/-- Denoted seconds as whole part, numerator, denominator. -/
def sec (x : DurParts) : SecParts :=
  match x.s with
  | none => none
  | some (ds, none) => some (decVal ds, 0, 1)
  | some (ds, some fs) => some (decVal ds, decVal fs, 10 ^ fs.length)

end DurParts

/-- The XSD duration lexical space. -/
def XsdDuration (s : List Char) (x : DurParts) : Prop := x.WF ∧ x.NonEmpty ∧ s = x.text

/-- The last character of `s` is neither a digit nor a point, and no `T` directly follows one. -/
def Clean (s : List Char) : Prop :=
  s ≠ [] ∧ (∀ pre c, s = pre ++ [c] → c ≠ '.' ∧ Str.isAsciiDigit c = false) ∧
  (∀ pre c post, s = pre ++ c :: 'T' :: post → c ≠ '.' ∧ Str.isAsciiDigit c = false)

end Verif.Spec
