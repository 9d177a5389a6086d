import Verif.Spec.Values
import Verif.Spec.Order
import Verif.Model.LibOrder

/-!
# Specification: which values the facets of a restriction admit

Written from XML Schema part 2, sections 4.3.1 to 4.3.3 and 4.3.7 to 4.3.10, and what a check in the generated code does with
the value inside a wrapper.
-/

namespace Verif.Spec

open Verif Verif.Model

/-- The place of a value in the order of its type: numbers, and points on the time line in seconds. -/
inductive XRank : XVal → ℚ → Prop where
  | int {v : Int} : XRank (.int v) v
  | dec {q} : XRank (.dec q) q
  | dateTime {y o : Int} {m d hh mm : Nat} {s : ℚ} :
      XRank (.dateTime y m d hh mm s (some o)) (timeline y m d hh mm 0 o + s)

/-- The length of a value: characters of a text, items of a list. -/
inductive XSize : XVal → Nat → Prop where
  | text {s} : XSize (.text s) s.length
  | list {vs} : XSize (.list vs) vs.length

/-- The bounds and lengths among the facets admit the value `x` of the built-in type `n`; `Lit` are the literals. -/
def Admits (Lit : String → List Char → XVal → Prop) (n : String) (x : XVal) : FacetType → Prop
  | .maxExclusive b => ∃ y p q, Lit n b y ∧ XRank x p ∧ XRank y q ∧ p < q
  | .maxInclusive b => ∃ y p q, Lit n b y ∧ XRank x p ∧ XRank y q ∧ p ≤ q
  | .minExclusive b => ∃ y p q, Lit n b y ∧ XRank x p ∧ XRank y q ∧ q < p
  | .minInclusive b => ∃ y p q, Lit n b y ∧ XRank x p ∧ XRank y q ∧ q ≤ p
  | .length t => ∃ sg k l, XsdInt t sg k ∧ XSize x l ∧ (l : Int) = k
  | .maxLength t => ∃ sg k l, XsdInt t sg k ∧ XSize x l ∧ (l : Int) ≤ k
  | .minLength t => ∃ sg k l, XsdInt t sg k ∧ XSize x l ∧ k ≤ (l : Int)
  | _ => True

/-- The types with numbers or points in time as values. -/
def rankedTypes : List String := intTypes.map (·.1) ++ ["decimal", "dateTime", "dateTimeStamp"]

/-- The types whose lengths are counted in characters or items. -/
def countedTypes : List String :=
  ["string", "normalizedString", "token", "language", "Name", "NCName", "ENTITY", "ID", "IDREF", "NMTOKEN", "anyURI"] ++ listTypes

/-- The facet may be given for the type: bounds are literals of it, only texts and lists have lengths, which are numbers of 32
bits. -/
def LegalFacet (Lit : String → List Char → XVal → Prop) (n : String) : FacetType → Prop
  | .maxExclusive b | .maxInclusive b | .minExclusive b | .minInclusive b => n ∈ rankedTypes ∧ ∃ y, Lit n b y
  | .length t | .maxLength t | .minLength t => n ∈ countedTypes ∧ ∃ k, U32Text t k
  | _ => True

/-- Texts have characters of one byte only. -/
def AsciiText : XVal → Prop
  | .text s => ∀ c ∈ s, c.toNat < 128
  | _ => True

/-- The value inside a wrapper, `self.0`. -/
def RVal.field : RVal → RVal
  | .one v => v
  | v => v

/-- `S` are the operations of the library type written as `ty`: its order, its `from_str` and `len`. -/
structure OperationsOf (S : Values RVal) (L : Lib) (ty : List Char) : Prop where
  order : ∀ a b o, libPartialCmp ty a b = some o → S.lt (.lib a) (.lib b) = opLt o ∧ S.le (.lib a) (.lib b) = opLe o
  parse : ∀ f s, libFromStr L ty = some f → S.parse s = match f s with | .ok v => some (.lib v) | _ => none
  text : ∀ s, S.len (.text s) = Str.byteLen s
  vec : ∀ vs, S.len (.many vs) = vs.length

end Verif.Spec
