import Verif.Model.Entities

/-!
# Model of `xsd-parser/src/generator/builder.rs` and the dispatch of `generator/mod.rs`

The boxed trait objects are values of arbitrary types; the default implementations are given as values.
-/

namespace Verif.Model

/-- The types of the implementations of the eight traits. -/
structure GenTypes where
  (Base Tuple Struct Field Case Enum Alias Import : Type)

/-- mod.rs:29-41, the optional implementations (the namespaces start as `None`). -/
structure GenParts (K : GenTypes) where
  tuple : Option K.Tuple := none
  struct : Option K.Struct := none
  field : Option K.Field := none
  base : Option K.Base := none
  case : Option K.Case := none
  enum : Option K.Enum := none
  alias : Option K.Alias := none
  importGen : Option K.Import := none

/-- The values of the `Default…` types, builder.rs:62-76. -/
structure GenDefaults (K : GenTypes) where
  tuple : K.Tuple
  struct : K.Struct
  field : K.Field
  base : K.Base
  case : K.Case
  enum : K.Enum
  alias : K.Alias
  importGen : K.Import

namespace GenParts
variable {K : GenTypes}

/-- builder.rs:20-23 -/
def withBase (g : GenParts K) (x : K.Base) : GenParts K := { g with base := some x }
/-- builder.rs:25-28 -/
def withTuple (g : GenParts K) (x : K.Tuple) : GenParts K := { g with tuple := some x }
/-- builder.rs:30-33 -/
def withStruct (g : GenParts K) (x : K.Struct) : GenParts K := { g with struct := some x }
/-- builder.rs:35-38 -/
def withField (g : GenParts K) (x : K.Field) : GenParts K := { g with field := some x }
/-- builder.rs:40-43 -/
def withCase (g : GenParts K) (x : K.Case) : GenParts K := { g with case := some x }
/-- builder.rs:45-48 -/
def withEnum (g : GenParts K) (x : K.Enum) : GenParts K := { g with enum := some x }
/-- builder.rs:50-53 -/
def withAlias (g : GenParts K) (x : K.Alias) : GenParts K := { g with alias := some x }
/-- builder.rs:55-58 -/
def withImport (g : GenParts K) (x : K.Import) : GenParts K := { g with importGen := some x }

/-- `Option::get_or_insert_with` -/
def getOrInsert {α : Type} (o : Option α) (d : α) : Option α :=
  match o with
  | some x => some x
  | none => some d

/-- builder.rs:60-79 -/
def build (d : GenDefaults K) (g : GenParts K) : GenParts K :=
  let g := { g with base := getOrInsert g.base d.base }
  let g := { g with tuple := getOrInsert g.tuple d.tuple }
  let g := { g with struct := getOrInsert g.struct d.struct }
  let g := { g with field := getOrInsert g.field d.field }
  let g := { g with case := getOrInsert g.case d.case }
  let g := { g with enum := getOrInsert g.enum d.enum }
  let g := { g with alias := getOrInsert g.alias d.alias }
  { g with importGen := getOrInsert g.importGen d.importGen }

/-- What the implementations do with an entity. -/
structure Run (K : GenTypes) (R : Type) where
  tuple : K.Tuple → TupleStruct → GenParts K → R
  struct : K.Struct → RStruct → GenParts K → R
  field : K.Field → StructField → GenParts K → R
  case : K.Case → EnumCase → GenParts K → R
  enum : K.Enum → REnum → GenParts K → R
  alias : K.Alias → RAlias → GenParts K → R
  importGen : K.Import → Import → GenParts K → R

/-- mod.rs:49-60 (`unwrap` on a missing implementation panics). -/
def generate {R : Type} (r : Run K R) (g : GenParts K) : RsEntity → Res R
  | .tupleStruct t => (Res.unwrap g.tuple).bind fun i => .ok (r.tuple i t g)
  | .struct s => (Res.unwrap g.struct).bind fun i => .ok (r.struct i s g)
  | .structField f => (Res.unwrap g.field).bind fun i => .ok (r.field i f g)
  | .enum e => (Res.unwrap g.enum).bind fun i => .ok (r.enum i e g)
  | .enumCase c => (Res.unwrap g.case).bind fun i => .ok (r.case i c g)
  | .alias a => (Res.unwrap g.alias).bind fun i => .ok (r.alias i a g)
  | .import i => (Res.unwrap g.importGen).bind fun x => .ok (r.importGen x i g)

end GenParts

end Verif.Model
