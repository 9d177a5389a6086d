import Verif.Spec.Integers
import Verif.Spec.Generator
import Verif.Rust.Res

/-!
# Specification: validation code

What a sequence of checks in Rust does to a value, and what the facets of a schema ask of a value.
-/

namespace Verif.Spec

open Verif Verif.Model

/-- `s` denotes the number `n` as `u32` reads it: a plus sign is admitted. -/
def U32Text (s : List Char) (n : Nat) : Prop := ∃ sg, sg ≠ .minus ∧ XsdInt s sg n ∧ n ≤ 4294967295

inductive Cmp where
  | lt | le | gt | ge | ne
  deriving DecidableEq, Repr

def Cmp.text : Cmp → List Char
  | .lt => "<".toList
  | .le => "<=".toList
  | .gt => ">".toList
  | .ge => ">=".toList
  | .ne => "!=".toList

/-- A condition on the wrapped value: it compares with a literal parsed as the type `ty`, or its length
does with a number. -/
inductive Cond where
  | value (c : Cmp) (lit ty : List Char)
  | length (c : Cmp) (n : Nat)
  deriving DecidableEq, Repr

/-- The Rust expression for a condition. -/
inductive CondText : Cond → List Char → Prop where
  | value {c lit ty} : QuoteSafe lit →
      CondText (.value c lit ty)
        ("self.0 ".toList ++ (c.text ++ (" \"".toList ++ (lit ++ ("\".parse::<".toList ++ (ty ++ ">().unwrap()".toList))))))
  | length {c ds} : Digits1 ds →
      CondText (.length c (decVal ds)) ("self.0.len() ".toList ++ (c.text ++ (" ".toList ++ dtext ds)))

/-- Statements which return an error when one of the conditions is met, in order. -/
inductive Checks : List Cond → List Char → Prop where
  | nil : Checks [] []
  | cons {c cs pre cond msg rest} : (pre = [] ∨ pre = "\n        #[allow(clippy::len_zero)]".toList) →
      CondText c cond → LexComplete msg → Checks cs rest →
      Checks (c :: cs) (pre ++ ("\n        if ".toList ++ (cond ++ (" {\n            return Err(".toList ++
        (msg ++ (");\n        }".toList ++ rest))))))

/-- The implementation of `Validate` for the type `n` with these checks. -/
def ValidateImpl (n : List Char) (cs : List Cond) (t : List Char) : Prop :=
  (cs = [] ∧ t = "impl Validate for ".toList ++ (n ++ " {}".toList)) ∨
  (cs ≠ [] ∧ ∃ body, Checks cs body ∧
    t = "impl Validate for ".toList ++ (n ++ (" {\n    fn validate(&self) -> Result<(), String> { ".toList ++
      (body ++ "\n        Ok(())\n    }\n}\n".toList))))

/-! ## What the checks do -/

/-- The wrapped type: `PartialOrd`, `FromStr` and `len`. -/
structure Values (V : Type) where
  lt : V → V → Bool
  le : V → V → Bool
  parse : List Char → Option V
  len : V → Nat

def Cmp.onValues {V : Type} (S : Values V) : Cmp → V → V → Bool
  | .lt, a, b => S.lt a b
  | .le, a, b => S.le a b
  | .gt, a, b => S.lt b a
  | .ge, a, b => S.le b a
  | .ne, a, b => !(S.le a b && S.le b a)

def Cmp.onNat : Cmp → Nat → Nat → Bool
  | .lt, a, b => a < b
  | .le, a, b => a ≤ b
  | .gt, a, b => b < a
  | .ge, a, b => b ≤ a
  | .ne, a, b => a ≠ b

/-- The value of the condition; `none`: `unwrap` panics. -/
def Cond.eval {V : Type} (S : Values V) (v : V) : Cond → Option Bool
  | .value c lit _ => (S.parse lit).map fun x => c.onValues S v x
  | .length c n => some (c.onNat (S.len v) n)

def runChecks {V : Type} (S : Values V) (v : V) : List Cond → Res Unit
  | [] => .ok ()
  | c :: cs =>
    match c.eval S v with
    | none => .panic
    | some true => .err
    | some false => runChecks S v cs

/-! ## What the facets ask for -/

/-- The facets for bounds and lengths. -/
def Meets {V : Type} (S : Values V) (v : V) : FacetType → Prop
  | .maxExclusive b => ∃ x, S.parse b = some x ∧ S.lt v x = true
  | .maxInclusive b => ∃ x, S.parse b = some x ∧ S.le v x = true
  | .minExclusive b => ∃ x, S.parse b = some x ∧ S.lt x v = true
  | .minInclusive b => ∃ x, S.parse b = some x ∧ S.le x v = true
  | .length t => ∃ n, U32Text t n ∧ S.len v = n
  | .maxLength t => ∃ n, U32Text t n ∧ S.len v ≤ n
  | .minLength t => ∃ n, U32Text t n ∧ n ≤ S.len v
  | _ => True

/-- Of two values one is smaller, or they are equal. -/
def Values.Linear {V : Type} (S : Values V) : Prop := ∀ a b, S.lt a b = !S.le b a

/-- Facets for which there are no checks at all. -/
def Unchecked : FacetType → Prop
  | .enumeration _ | .fractionDigits _ | .pattern _ | .totalDigits _ | .whiteSpace _ => True
  | .minLength t => U32Text t 0
  | _ => False

end Verif.Spec
