import Verif.Model.Serde

/-!
# The derive macros on a whole item

How the macros of `xsd-macro-utils` take the item apart to which they are attached, and when they fail to expand.

Simplification: of a type only a path is looked at; everything else (tuples, references, …) is `other`. Of the fields only
the types are kept, since the macros do not look at their names.
-/

namespace Verif.Model

/-- `syn::Type`, as far as the macros distinguish -/
inductive RType where
  | path (p : RPath)
  | other

/-- `syn::Fields` -/
inductive Fields where
  | named (types : List RType)
  | unnamed (types : List RType)
  | unit

/-- `syn::Data`; the variants of an enum with their names. -/
inductive Data where
  | struct (fields : Fields)
  | enum (variants : List (Str × Fields))
  | union

/-- `extract_field_path` — tuple.rs:109-119 -/
def extractFieldPath : Fields → Option RPath
  | .unnamed (.path p :: _) => some p
  | _ => none

/-- `extract_field_type` up to the path — tuple.rs:98-107; the argument of `Vec`, `extract_subtype` — tuple.rs:121-130 —, is part of the path -/
def fieldPath : Data → Res RPath
  | .struct fs => Res.unwrap (extractFieldPath fs)
  | _ => .panic

/-- `tuple::serde` and the derive macro `UtilsTupleIo` — tuple.rs:12-20, lib.rs:8-12: the implementations of `FromStr` and
`Display`; `err` is a compile error, `panic` a panic of the macro, which is one too. -/
def tupleSerde {V : Type} (E : TypeEnv V) (d : Data) : Res ((Str → Res (TupVal V)) × (TupVal V → Option Str)) :=
  (fieldPath d).bind fun p => (tupleFromStr E p).bind fun f => (tupleToStr E p).bind fun g => .ok (f, g)

/-- The type of the first field of a variant — union.rs:14-33 -/
def variantType : Fields → Res RType
  | .unnamed (t :: _) => .ok t
  | _ => .err

/-- The variants which `union::serde` treats — union.rs:8-41 -/
def unionMembers : List (Str × Fields) → Res (List (Str × RType))
  | [] => .ok []
  | (n, fs) :: vs =>
    if n = "__Unknown__".toList then unionMembers vs
    else (variantType fs).bind fun t => (unionMembers vs).bind fun r => .ok ((n, t) :: r)

/-- `union::serde` and the derive macro `UtilsUnionSerDe` — union.rs:4-41, lib.rs:64-68: the variants in the order in which
they are tried. -/
def unionSerde : Data → Res (List (Str × RType))
  | .enum vs => unionMembers vs
  | _ => .err

end Verif.Model
