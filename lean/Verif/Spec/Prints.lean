import Verif.Spec.Values
import Verif.Spec.Writes

/-!
# Specification: values of the generated simple types, and what `Display` of these types writes

Which values a program can build for the simple types of a schema, given that the library values at the bottom are
written properly; and what the types in the generated code write, given their definitions in the text.
-/

namespace Verif.Spec

open Verif Verif.Model RoXml

/-- `Display` of the types, by the text of the type. -/
def showEnv (W : List Char → RVal → List Char) : TypeEnv RVal := ⟨fun _ _ => .err, fun p v => W (pathText p) v⟩

/-- `W` is `Display` of the types at the top level: library types are written by their own `Display`, unless the name is
defined in the code; a wrapper which derives `UtilsTupleIo` is written as the expansion of the macro says. -/
structure Prints (W : List Char → RVal → List Char) (L : Lib) (is : List Item) : Prop where
  lib : ∀ ty v s, libToString L ty v = some (.ok s) → ¬ InScope is [] ty → W ty (.lib v) = s
  tuple : ∀ i ∈ is, i.path = [] → "UtilsTupleIo".toList ∈ i.attrs.flatMap derived → ∀ n ty, readTuple i.head = some (n, ty) →
    ∀ p f, PathOf ty p → tupleToStr (showEnv W) p = .ok f → ∀ v s, f v = some s → W n (.ofTup v) = s

/-- A field of this type, in a wrapper, is written as the text. -/
def FieldWrites (W : List Char → RVal → List Char) (ty : List Char) (v : RVal) (s : List Char) : Prop :=
  ∃ p f w, PathOf ty p ∧ tupleToStr (showEnv W) p = .ok f ∧ v = .ofTup w ∧ f w = some s

/-- The value is no vector, and the text in it, if there is one, is a single word. -/
def OneWord : RVal → Prop
  | .lib (.text s) => Word s
  | .lib _ => True
  | .text s => Word s
  | .one v => OneWord v
  | .many _ => False

/-- Where a value stands: on its own, or as the field of a wrapper. -/
inductive Spot where
  | alone
  | field

/-- Values of the generated type for the simple type referred to by `r`; `P` are the library values allowed for the
built-in types.  Items of lists are single words.  Left out is what `ValueOf` leaves out. -/
inductive ValueIn (U : UnicodeTable) (root : Node) (uri : List Char) (P : String → LibVal → Prop) :
    Spot → List Char → RVal → Prop where
  | lib {n rust r v} : DenotesXsd root n r → (n, rust) ∈ readmeTable ++ undocumentedTable → HasType rust v → P n v →
      ValueIn U root uri P .alone r (.lib v)
  | text {n r s} : DenotesXsd root n r → (n, "String") ∈ readmeTable ++ undocumentedTable →
      ValueIn U root uri P .field r (.text s)
  | words {n r ts} : DenotesXsd root n r → n ∈ listTypes → (∀ t ∈ ts, Word t) →
      ValueIn U root uri P .field r (.many (List.map (fun t => .lib (.text t)) ts))
  | one {r v} : ValueIn U root uri P .alone r v → (∀ s, v ≠ .lib (.text s)) → ValueIn U root uri P .field r (.one v)
  | restriction {r c nm d b fs v} : Denotes root uri nm r → SimpleDecl root c nm d → d.tag = "restriction".toList →
      d.attr "base".toList = some b → FacetsOf d.tag d.children fs →
      (enumValues fs = [] ∨ ∃ v ∈ enumValues fs, ¬ SimpleValue U v.1) →
      ValueIn U root uri P .field b v → ValueIn U root uri P .alone r v
  | list {r c nm d it vs} : Denotes root uri nm r → SimpleDecl root c nm d → d.tag = "list".toList →
      d.attr "itemType".toList = some it → Known root uri it → (∀ n ∈ listTypes, ¬ DenotesXsd root n it) →
      (∀ v ∈ vs, ValueIn U root uri P .alone it v) → (∀ v ∈ vs, OneWord v) → ValueIn U root uri P .alone r (.many vs)

end Verif.Spec
