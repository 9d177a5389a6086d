import Verif.Model.GenNames

/-!
# Model of the parsed entities: `xsd-parser/src/parser/types.rs`, and the facets of
`parser/xsd_elements.rs`

`RefCell`s are dropped: a function which changes the contents returns the changed entity.
-/

namespace Verif.Model

/-- xsd_elements.rs:55-61 -/
inductive WhiteSpace where
  | preserve | replace | collapse
  deriving DecidableEq, Repr

/-- xsd_elements.rs:39-53 -/
inductive FacetType where
  | enumeration (v : Str)
  | fractionDigits (v : Str)
  | length (v : Str)
  | maxExclusive (v : Str)
  | maxInclusive (v : Str)
  | maxLength (v : Str)
  | minExclusive (v : Str)
  | minInclusive (v : Str)
  | minLength (v : Str)
  | pattern (v : Str)
  | totalDigits (v : Str)
  | whiteSpace (v : WhiteSpace)
  deriving DecidableEq, Repr

/-- types.rs:113-117 -/
structure Facet where
  facetType : FacetType
  comment : Option Str
  deriving DecidableEq, Repr

/-- types.rs:101-111 -/
inductive FieldSource where
  | attribute | element | base | choice | na
  deriving DecidableEq, Repr

/-- types.rs:139-147 -/
inductive EnumSource where
  | restriction | choice | union | na
  deriving DecidableEq, Repr

/-- types.rs:158-166 -/
structure EnumCase where
  name : Str
  comment : Option Str := none
  value : Str := []
  typeName : Option Str := none
  typeModifiers : List TypeModifier := []
  source : EnumSource := .na
  deriving DecidableEq, Repr

/-- types.rs:176-181 -/
structure Import where
  name : Str
  location : Str
  comment : Option Str := none
  deriving DecidableEq, Repr

mutual
/-- types.rs:17-24 -/
inductive RStruct where
  | mk (name : Str) (comment : Option Str) (fields : List StructField) (attributeGroups : List RAlias)
      (subtypes : List RsEntity)
/-- types.rs:81-89 -/
inductive StructField where
  | mk (name typeName : Str) (comment : Option Str) (subtypes : List RsEntity) (source : FieldSource)
      (typeModifiers : List TypeModifier)
/-- types.rs:119-127 -/
inductive TupleStruct where
  | mk (name : Str) (comment : Option Str) (typeName : Str) (subtypes : List RsEntity)
      (typeModifiers : List TypeModifier) (facets : List Facet)
/-- types.rs:129-137 -/
inductive REnum where
  | mk (name : Str) (cases : List EnumCase) (comment : Option Str) (typeName : Str)
      (subtypes : List RsEntity) (source : EnumSource)
/-- types.rs:168-174 -/
inductive RAlias where
  | mk (name original : Str) (comment : Option Str) (subtypes : List RsEntity)
/-- types.rs:183-192 -/
inductive RsEntity where
  | struct (s : RStruct)
  | structField (f : StructField)
  | tupleStruct (t : TupleStruct)
  | enum (e : REnum)
  | enumCase (c : EnumCase)
  | alias (a : RAlias)
  | import (i : Import)
end

namespace RStruct
def name : RStruct → Str | .mk n _ _ _ _ => n
def comment : RStruct → Option Str | .mk _ c _ _ _ => c
def fields : RStruct → List StructField | .mk _ _ f _ _ => f
def attributeGroups : RStruct → List RAlias | .mk _ _ _ a _ => a
def subtypes : RStruct → List RsEntity | .mk _ _ _ _ s => s
end RStruct

namespace StructField
def name : StructField → Str | .mk n _ _ _ _ _ => n
def typeName : StructField → Str | .mk _ t _ _ _ _ => t
def comment : StructField → Option Str | .mk _ _ c _ _ _ => c
def subtypes : StructField → List RsEntity | .mk _ _ _ s _ _ => s
def source : StructField → FieldSource | .mk _ _ _ _ s _ => s
def typeModifiers : StructField → List TypeModifier | .mk _ _ _ _ _ m => m
end StructField

namespace TupleStruct
def name : TupleStruct → Str | .mk n _ _ _ _ _ => n
def comment : TupleStruct → Option Str | .mk _ c _ _ _ _ => c
def typeName : TupleStruct → Str | .mk _ _ t _ _ _ => t
def subtypes : TupleStruct → List RsEntity | .mk _ _ _ s _ _ => s
def typeModifiers : TupleStruct → List TypeModifier | .mk _ _ _ _ m _ => m
def facets : TupleStruct → List Facet | .mk _ _ _ _ _ f => f
end TupleStruct

namespace REnum
def name : REnum → Str | .mk n _ _ _ _ _ => n
def cases : REnum → List EnumCase | .mk _ c _ _ _ _ => c
def comment : REnum → Option Str | .mk _ _ c _ _ _ => c
def typeName : REnum → Str | .mk _ _ _ t _ _ => t
def subtypes : REnum → List RsEntity | .mk _ _ _ _ s _ => s
def source : REnum → EnumSource | .mk _ _ _ _ _ s => s
end REnum

namespace RAlias
def name : RAlias → Str | .mk n _ _ _ => n
def original : RAlias → Str | .mk _ o _ _ => o
def comment : RAlias → Option Str | .mk _ _ c _ => c
def subtypes : RAlias → List RsEntity | .mk _ _ _ s => s
end RAlias

/-- `RsEntity::name` — types.rs:195-206 -/
def RsEntity.name : RsEntity → Str
  | .struct s => s.name
  | .tupleStruct t => t.name
  | .enum e => e.name
  | .enumCase c => c.name
  | .alias a => a.name
  | .structField f => f.name
  | .import i => i.name

/-- `RsEntity::set_name` — types.rs:208-219 -/
def RsEntity.setName (n : Str) : RsEntity → RsEntity
  | .struct (.mk _ c f a s) => .struct (.mk n c f a s)
  | .tupleStruct (.mk _ c t s m f) => .tupleStruct (.mk n c t s m f)
  | .enum (.mk _ cs c t s src) => .enum (.mk n cs c t s src)
  | .enumCase c => .enumCase { c with name := n }
  | .alias (.mk _ o c s) => .alias (.mk n o c s)
  | .structField (.mk _ t c s src m) => .structField (.mk n t c s src m)
  | .import i => .import { i with name := n }

/-- `RsEntity::set_comment` — types.rs:221-232 -/
def RsEntity.setComment (c : Option Str) : RsEntity → RsEntity
  | .struct (.mk n _ f a s) => .struct (.mk n c f a s)
  | .tupleStruct (.mk n _ t s m f) => .tupleStruct (.mk n c t s m f)
  | .enum (.mk n cs _ t s src) => .enum (.mk n cs c t s src)
  | .enumCase e => .enumCase { e with comment := c }
  | .alias (.mk n o _ s) => .alias (.mk n o c s)
  | .structField (.mk n t _ s src m) => .structField (.mk n t c s src m)
  | .import i => .import { i with comment := c }

/-- types.rs:7-15 -/
structure RsFile where
  name : Str
  ns : Option Str
  types : List RsEntity
  attributeGroups : List RsEntity
  targetNs : Option Namespace
  xsdNs : Option Namespace

end Verif.Model
