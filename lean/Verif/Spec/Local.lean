import Verif.Spec.Document

/-!
# Specification: declarations which nothing depends on

The code for a declaration may depend on the declarations it derives from and on the attribute groups it refers to, and
on nothing else.
-/

namespace Verif.Spec

open Verif Verif.RoXml

/-- `b` is the schema `a` without the child `d`. -/
inductive Without (d : Node) : Node → Node → Prop where
  | mk {u as ns cs ds} : Without d (.element u "schema".toList as ns (cs ++ d :: ds)) (.element u "schema".toList as ns (cs ++ ds))

/-- `b` is the schema `a` with two neighbours exchanged. -/
inductive Exchanged (c d : Node) : Node → Node → Prop where
  | mk {u as ns cs ds} :
      Exchanged c d (.element u "schema".toList as ns (cs ++ c :: d :: ds)) (.element u "schema".toList as ns (cs ++ d :: c :: ds))

/-- A declaration whose code depends on what is declared as `key`: it derives something from `key`, or refers to it as an
attribute group. -/
def DependsOn (c : Node) (key : List Char) : Prop :=
  ∃ n v, PartOf c n ∧ (n.attr "base".toList = some v ∨ (n.tag = "attributeGroup".toList ∧ n.attr "ref".toList = some v)) ∧
    AfterLastColon v key

/-- A declaration which others can derive from or refer to as an attribute group; elements and attributes with a named type
are none. -/
def Provides (c : Node) (key : List Char) : Prop :=
  c.attr "name".toList = some key ∧ ¬ (Is c ["element", "attribute"] ∧ Has c "type")

/-- Neither declaration depends on the other, and they do not have the same name. -/
def Independent (c d : Node) : Prop :=
  ∀ key, (Provides c key → ¬ Provides d key ∧ ¬ DependsOn d key) ∧ (Provides d key → ¬ DependsOn c key)

/-- What can be declared in a schema. -/
def declarationTags : List String :=
  ["include", "import", "simpleType", "complexType", "attributeGroup", "element", "attribute"]

/-- Schemas with the same declarations in another order; the order of declarations which depend on each other, or have the
same name, is the same. -/
inductive Reordered : Node → Node → Prop where
  | refl {a} : Reordered a a
  | step {a b b' c d} : Reordered a b → Is c declarationTags → Is d declarationTags → Independent c d → Exchanged c d b b' →
      Reordered a b'

/-- `b` is left of the schema `a` when declarations are removed one after the other on which none of the remaining ones
depends. -/
inductive Pruned : Node → Node → Prop where
  | refl {a} : Pruned a a
  | step {a b b' d} : Pruned a b → Is d declarationTags → Without d b b' →
      (∀ key, Provides d key → ∀ c ∈ members b', ¬ DependsOn c key) → Pruned a b'

end Verif.Spec
