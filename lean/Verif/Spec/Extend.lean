import Verif.Model.Entities
import Verif.Spec.GenNames
import Mathlib.Data.List.Forall2

/-!
# Specification: derived types and attribute groups

A derived type carries, among its fields, a marker which names its base.
-/

namespace Verif.Spec

open Verif Verif.Model

/-- The entity at position `j` is the struct `s`. -/
def StructAt (es : List RsEntity) (j : Nat) (s : RStruct) : Prop := es[j]? = some (.struct s)

/-- The name stands for the struct at `j`: the last of this name. -/
def Resolves (es : List RsEntity) (key : List Char) (j : Nat) : Prop :=
  (∃ s, StructAt es j s ∧ s.name = key) ∧ ∀ k t, j < k → StructAt es k t → t.name ≠ key

/-- No struct has this name. -/
def Unknown (es : List RsEntity) (key : List Char) : Prop := ∀ k t, StructAt es k t → t.name ≠ key

/-- The fields which the struct at `i` sees of the struct named `key`: those of an earlier struct as they are at the
end, those of a later one as they were at the beginning, and its own. -/
inductive Seen (before after : List RsEntity) (i : Nat) (own : Option (List StructField)) (key : List Char) :
    List StructField → Prop where
  | unknown : Unknown before key → Seen before after i own key []
  | self {fs} : Resolves before key i → own = some fs → Seen before after i own key fs
  | earlier {j s} : Resolves before key j → j < i → StructAt after j s → Seen before after i own key s.fields
  | later {j s} : Resolves before key j → i < j → StructAt before j s → Seen before after i own key s.fields

/-- The marker. -/
def Marker (f : StructField) : Prop := f.name = "__base__".toList

instance (f : StructField) : Decidable (Marker f) := inferInstanceAs (Decidable (_ = _))

/-- The types named by the markers. -/
def bases (fs : List StructField) : List (List Char) := (fs.filter fun f => Marker f).map StructField.typeName

/-- All fields of the structs with these names (prefixes are dropped). -/
def Gathered (look : List Char → List StructField → Prop) (names : List (List Char)) (fs : List StructField) : Prop :=
  ∃ ls, List.Forall₂ (fun t l => ∃ key, AfterLastColon t key ∧ look key l) names ls ∧ fs = ls.flatten

/-- The fields of a type and those inherited fields whose names are not taken; without the markers. -/
def inherit (own inherited : List StructField) : List StructField :=
  (own.filter fun f => ¬ Marker f) ++
    inherited.filter fun f => ¬ Marker f ∧ ∀ g ∈ own, g.name ≠ f.name

mutual
/-- `s'` is the inline struct `s` with everything it inherits. -/
inductive FlatStruct (look : List Char → List StructField → Prop) : RStruct → RStruct → Prop where
  | mk {n c fs fs' inh ag sub sub'} : FlatFields look fs fs' → Gathered look (bases fs') inh →
      FlatEntities look sub sub' → FlatStruct look (.mk n c fs ag sub) (.mk n c (inherit fs' inh) ag sub')
/-- The fields with their inline types flattened. -/
inductive FlatFields (look : List Char → List StructField → Prop) : List StructField → List StructField → Prop where
  | nil : FlatFields look [] []
  | cons {n t c sub sub' src ms fs fs'} : FlatEntities look sub sub' → FlatFields look fs fs' →
      FlatFields look (.mk n t c sub src ms :: fs) (.mk n t c sub' src ms :: fs')
/-- Inline types. -/
inductive FlatEntities (look : List Char → List StructField → Prop) : List RsEntity → List RsEntity → Prop where
  | nil : FlatEntities look [] []
  | struct {s s' es es'} : FlatStruct look s s' → FlatEntities look es es' →
      FlatEntities look (.struct s :: es) (.struct s' :: es')
  | other {e es es'} : (∀ s, e ≠ .struct s) → FlatEntities look es es' → FlatEntities look (e :: es) (e :: es')
end

/-- What the struct `s` at position `i` becomes. -/
inductive Extended (before after : List RsEntity) (i : Nat) : RStruct → RStruct → Prop where
  | mk {n c fs ag sub own inh gs sub'} :
      FlatFields (Seen before after i none) fs own →
      Gathered (Seen before after i (some own)) (bases own) inh →
      FlatEntities (Seen before after i (some (inherit own inh))) sub sub' →
      Gathered (Seen before after i (some (inherit own inh))) (ag.map RAlias.original) gs →
      Extended before after i (.mk n c fs ag sub) (.mk n c (inherit own inh ++ gs) ag sub')

mutual
/-- The types named by markers of the inline structs of some fields. -/
def nestedBases : List StructField → List (List Char)
  | [] => []
  | .mk _ _ _ sub _ _ :: fs => entityBases sub ++ nestedBases fs
/-- The types named by markers of inline structs. -/
def entityBases : List RsEntity → List (List Char)
  | [] => []
  | .struct (.mk _ _ fs _ sub) :: es => (nestedBases fs ++ (bases fs ++ entityBases sub)) ++ entityBases es
  | _ :: es => entityBases es
end

/-- The types named by markers of a struct and of its inline structs. -/
def structBases : RStruct → List (List Char)
  | .mk _ _ fs _ sub => nestedBases fs ++ (bases fs ++ entityBases sub)

/-- What `g` has to be if `f` is given. -/
def ExtendedFile (f g : RsFile) : Prop :=
  (g.name = f.name ∧ g.ns = f.ns ∧ g.targetNs = f.targetNs ∧ g.xsdNs = f.xsdNs) ∧
  g.types.length = f.types.length ∧ g.attributeGroups = f.attributeGroups ∧
  ∀ i e, f.types[i]? = some e →
    (∀ s, e = .struct s → ∃ s', g.types[i]? = some (.struct s') ∧
      Extended (f.types ++ f.attributeGroups) (g.types ++ g.attributeGroups) i s s') ∧
    ((∀ s, e ≠ .struct s) → g.types[i]? = some e)

/-- The struct at `i` has, of its own, by derivation or by an attribute group, a field of this name; the first `k` of
the entities are types. -/
inductive HasField (es : List RsEntity) (k : Nat) : Nat → List Char → Prop where
  | own {i s f} : StructAt es i s → f ∈ s.fields → HasField es k i f.name
  | base {i s t key j nm} : i < k → StructAt es i s → t ∈ bases s.fields → AfterLastColon t key → Resolves es key j →
      HasField es k j nm → HasField es k i nm
  | group {i s a key j nm} : i < k → StructAt es i s → a ∈ s.attributeGroups → AfterLastColon a.original key →
      Resolves es key j → HasField es k j nm → HasField es k i nm

/-- Types come after those they refer to; attribute groups may be anywhere. -/
def Ordered (es : List RsEntity) (k : Nat) : Prop :=
  ∀ i s t key j, i < k → StructAt es i s → (t ∈ bases s.fields ∨ ∃ a ∈ s.attributeGroups, t = a.original) →
    AfterLastColon t key → Resolves es key j → j < i ∨ k ≤ j

end Verif.Spec
