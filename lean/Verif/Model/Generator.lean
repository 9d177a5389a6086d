import Verif.Model.Entities

/-!
# Model of `xsd-parser/src/generator/`: the text generated for the entities

The default implementations of all generator traits.  Format strings are written out with their escapes
resolved (`{{` is a brace; a backslash at the end of a line of a Rust string literal drops the line end and
the indentation of the next line).
-/

namespace Verif.Model

/-! ## validator.rs -/

/-- The maximum of `u32`. -/
def u32Max : Nat := 4294967295

/-- validator.rs:13-28 -/
def genValidateImpl (name body : Str) : Str :=
  if body = [] then "impl Validate for ".toList ++ name ++ " {}".toList
  else
    "impl Validate for ".toList ++ name ++ " {\n    fn validate(&self) -> Result<(), String> { ".toList ++ body ++
      "\n        Ok(())\n    }\n}\n".toList

/-- The shape common to validator.rs:53-75, 101-123: comparison with a parsed value. -/
def genBoundValidation (kind op expect name value typename : Str) : Str :=
  "\n        if self.".toList ++ name ++ " ".toList ++ op ++ " \"".toList ++ value ++ "\".parse::<".toList ++ typename ++
    ">().unwrap() {\n            return Err(format!(\"".toList ++ kind ++
    " validation error: invalid value of ".toList ++ name ++ "! \\nExpected: ".toList ++ name ++ " ".toList ++ expect ++
    " ".toList ++ value ++ ".\\nActual: ".toList ++ name ++ " == {}\", self.".toList ++ name ++ "));\n        }".toList

/-- The shape common to validator.rs:77-99, 125-140: comparison of the length. -/
def genLenValidation (pre kind op expect name value : Str) : Str :=
  pre ++ "\n        if self.".toList ++ name ++ ".len() ".toList ++ op ++ " ".toList ++ value ++
    " {\n            return Err(format!(\"".toList ++ kind ++ " validation error. \\nExpected: ".toList ++ name ++
    " length ".toList ++ expect ++ " ".toList ++ value ++ " \\nActual: ".toList ++ name ++
    " length == {}\", self.".toList ++ name ++ ".len()));\n        }".toList

/-- validator.rs:30-51 with the generators at 53-140 -/
def genFacetValidation (facet : FacetType) (name typename : Str) : Res Str :=
  match facet with
  | .length v =>
    (Res.unwrap (Str.parseUnsigned u32Max v)).bind fun n =>
      .ok (genLenValidation [] "Length".toList "!=".toList "==".toList name (Str.natStr n))
  | .maxExclusive v =>
    .ok (genBoundValidation "MaxExclusive".toList ">=".toList "<".toList name v typename)
  | .maxInclusive v =>
    .ok (genBoundValidation "MaxInclusive".toList ">".toList "<=".toList name v typename)
  | .maxLength v =>
    (Res.unwrap (Str.parseUnsigned u32Max v)).bind fun n =>
      .ok (genLenValidation [] "MaxLength".toList ">".toList "<=".toList name (Str.natStr n))
  | .minExclusive v =>
    .ok (genBoundValidation "MinExclusive".toList "<=".toList ">".toList name v typename)
  | .minInclusive v =>
    .ok (genBoundValidation "MinInclusive".toList "<".toList ">=".toList name v typename)
  | .minLength v =>
    (Res.unwrap (Str.parseUnsigned u32Max v)).bind fun n =>
      if n = 0 then .ok []
      else .ok (genLenValidation "\n        #[allow(clippy::len_zero)]".toList "MinLength".toList "<".toList ">=".toList
        name (Str.natStr n))
  | _ => .ok []

/-! ## mod.rs, base.rs -/

/-- The generator's state: `target_ns`, `xsd_ns`; and std's Unicode tables. -/
structure GenCtx where
  U : UnicodeTable
  targetNs : Option Namespace
  xsdNs : Option Namespace

namespace GenCtx
variable (g : GenCtx)

/-- base.rs:15-21 -/
def indentSize : Nat := 4
/-- base.rs:15-17 -/
def indent : Str := spaces indentSize
/-- base.rs:23-28 -/
def typeName (t : Str) : Str := formatTypeName g.U g.targetNs g.xsdNs t
/-- base.rs:30-32, 42-44 -/
def name (n : Str) : Str := defaultFormatName g.U n
/-- base.rs:34-36 -/
def formatComment (c : Option Str) (indent : Nat) : Str := defaultFormatComment c 80 indent
end GenCtx

/-- `Vec<String>::join` -/
def joinWith (sep : Str) : List Str → Str
  | [] => []
  | s :: ss => s ++ ss.flatMap (sep ++ ·)

/-! ## struct_field.rs -/

/-- struct_field.rs:41-55 -/
def fieldMacros (g : GenCtx) (f : StructField) : Str :=
  match f.source with
  | .choice => yaserdeForFlattenElement GenCtx.indent
  | .attribute => yaserdeForAttribute f.name GenCtx.indent
  | .element => yaserdeForElement f.name g.targetNs GenCtx.indent
  | _ => []

/-- struct_field.rs:24-31 -/
def fieldTypeName (g : GenCtx) (f : StructField) : Str :=
  defaultModifyType (g.typeName f.typeName) f.typeModifiers

/-- struct_field.rs:10-22 -/
def genField (g : GenCtx) (f : StructField) : Str :=
  if f.typeModifiers.contains .empty then []
  else
    GenCtx.formatComment f.comment GenCtx.indentSize ++ fieldMacros g f ++ GenCtx.indent ++ "pub ".toList ++ g.name f.name ++
      ": ".toList ++ fieldTypeName g f ++ ",".toList

/-! ## struct.rs -/

/-- The mutation of struct.rs:24-28: the type of a field with subtypes gets the module path. -/
def qualifyField (modName : Str) : StructField → StructField
  | .mk n t c s src m => if s.isEmpty then .mk n t c s src m else .mk n (modName ++ "::".toList ++ t) c s src m

/-- struct.rs:21-44 -/
def genFields (g : GenCtx) (structName : Str) (fields : List StructField) : Str :=
  let texts := (fields.map fun f => genField g (qualifyField (g.name structName) f)).filter (· ≠ [])
  let joined := joinWith "\n\n".toList texts
  if joined = [] then joined else "\n".toList ++ joined ++ "\n".toList

/-- `text.replace("\n\n\n", "\n")` -/
def replaceTripleNl : Str → Str
  | '\n' :: '\n' :: '\n' :: cs => '\n' :: replaceTripleNl cs
  | c :: cs => c :: replaceTripleNl cs
  | [] => []

/-- struct.rs:70-75 -/
def shift (text indent : Str) : Str :=
  ((Str.splitOn '\n' (replaceTripleNl text)).map fun s =>
    if s ≠ [] then "\n".toList ++ indent ++ s else "\n".toList).foldl (· ++ ·) indent

/-- struct.rs:81-101 -/
def structMacros (g : GenCtx) : Str :=
  let derives := "#[derive(Default, Clone, PartialEq, Debug, YaSerialize, YaDeserialize)]\n".toList
  match g.targetNs with
  | some ⟨some p, uri⟩ =>
    derives ++ "#[yaserde(prefix = \"".toList ++ p ++ "\", namespace = \"".toList ++ p ++ ": ".toList ++ uri ++ "\")]\n".toList
  | some ⟨none, uri⟩ => derives ++ "#[yaserde(namespace = \"".toList ++ uri ++ "\")]\n".toList
  | none => derives ++ "#[yaserde()]\n".toList

/-- struct.rs:46-68, from the joined texts of the fields' subtypes and of the subtypes. -/
def structSubtypes (g : GenCtx) (structName fieldSubtypes subtypes : Str) : Str :=
  if fieldSubtypes ≠ [] ∨ subtypes ≠ [] then
    "\npub mod ".toList ++ g.name structName ++ " {\n".toList ++ GenCtx.indent ++ "use super::*;".toList ++ subtypes ++
      "\n".toList ++ shift fieldSubtypes GenCtx.indent ++ "\n}\n".toList
  else subtypes ++ "\n".toList ++ fieldSubtypes

/-! ## enum_case.rs -/

/-- `s.split("::").last().unwrap()` -/
def lastPathSegment (s : Str) : Str := go s s
where
  /-- `cur` is what follows the last separator found so far. -/
  go (cur : Str) : Str → Str
  | ':' :: ':' :: cs => go cs cs
  | _ :: cs => go cur cs
  | [] => cur

/-- enum_case.rs:23-29 -/
def caseName (g : GenCtx) (c : EnumCase) : Str := lastPathSegment (defaultFormatType g.U c.name g.targetNs)

/-- enum_case.rs:40-65 -/
def caseMacros (g : GenCtx) (c : EnumCase) : Str :=
  if c.source = .union then []
  else
    match splitName c.name with
    | (some p, n) =>
      GenCtx.indent ++ "#[yaserde(prefix = \"".toList ++ p ++ "\", rename = \"".toList ++ n ++ "\")]\n".toList
    | (none, n) =>
      if n = caseName g c then []
      else GenCtx.indent ++ "#[yaserde(rename = \"".toList ++ n ++ "\")]\n".toList

/-- enum_case.rs:7-21 -/
def genCase (g : GenCtx) (c : EnumCase) : Str :=
  let typename :=
    match c.typeName with
    | some t => "(".toList ++ defaultModifyType (g.typeName t) c.typeModifiers ++ ")".toList
    | none => []
  GenCtx.formatComment c.comment GenCtx.indentSize ++ caseMacros g c ++ GenCtx.indent ++ caseName g c ++ typename ++
    ",".toList

/-! ## enum.rs -/

/-- enum.rs:63-87 -/
def enumMacros (g : GenCtx) (source : EnumSource) : Str :=
  if source = .union then "#[derive(PartialEq, Debug, UtilsUnionSerDe)]".toList
  else
    let derives := "#[derive(PartialEq, Debug, Clone, YaSerialize, YaDeserialize)]".toList
    match g.targetNs with
    | some ⟨some p, uri⟩ =>
      derives ++ "#[yaserde(prefix = \"".toList ++ p ++ "\", namespace = \"".toList ++ p ++ ": ".toList ++ uri ++ "\")]\n".toList
    | some ⟨none, uri⟩ => derives ++ "#[yaserde(namespace = \"".toList ++ uri ++ "\")]\n".toList
    | none => derives ++ "#[yaserde()]\n".toList

/-- enum.rs:11-19 -/
def enumDefault (name : Str) : Str :=
  "impl Default for ".toList ++ name ++ " {\n".toList ++ GenCtx.indent ++ "fn default() -> ".toList ++ name ++ " {\n".toList ++
    GenCtx.indent ++ GenCtx.indent ++ "Self::__Unknown__(\"No valid variants\".into())\n".toList ++ GenCtx.indent ++ "}\n}".toList

/-- enum.rs:21-39, given the text of the subtypes -/
def enumText (g : GenCtx) (name : Str) (cases : List EnumCase) (comment : Option Str) (typeName : Str)
    (source : EnumSource) (subtypes : Str) : Str :=
  let n := g.typeName name
  GenCtx.formatComment comment 0 ++ enumMacros g source ++ "\npub enum ".toList ++ n ++ " {\n".toList ++
    joinWith "\n".toList (cases.map (genCase g)) ++ "\n".toList ++ GenCtx.indent ++ "__Unknown__(".toList ++ g.typeName typeName ++
    "),\n}\n\n".toList ++ enumDefault n ++ "\n\n".toList ++ genValidateImpl n [] ++ "\n\n".toList ++ subtypes ++ "\n\n".toList

/-! ## tuple_struct.rs -/

/-- tuple_struct.rs:28-35 -/
def tupleTypeName (g : GenCtx) (typeName : Str) (ms : List TypeModifier) : Str :=
  defaultModifyType (g.typeName typeName) ms

/-- tuple_struct.rs:49-54: the bodies for the facets, one after the other. -/
def facetBodies (typename : Str) : List Facet → Res Str
  | [] => .ok []
  | f :: fs =>
    (genFacetValidation f.facetType "0".toList typename).bind fun t =>
      (facetBodies typename fs).bind fun ts => .ok (t ++ ts)

/-- tuple_struct.rs:12-22, given the text of the subtypes -/
def tupleText (g : GenCtx) (name : Str) (comment : Option Str) (typeName : Str) (ms : List TypeModifier)
    (facets : List Facet) (subtypes : Str) : Res Str :=
  (facetBodies (tupleTypeName g typeName ms) facets).bind fun body =>
    .ok (GenCtx.formatComment comment 0 ++
      "#[derive(Default, Clone, PartialEq, Debug, UtilsTupleIo, UtilsDefaultSerde)]\n".toList ++ "pub struct ".toList ++
      g.typeName name ++ " (pub ".toList ++ tupleTypeName g typeName ms ++ ");\n".toList ++ subtypes ++ "\n".toList ++
      genValidateImpl (g.typeName name) body ++ "\n".toList)

/-! ## alias.rs, import.rs -/

/-- alias.rs:4-11 -/
def genAlias (g : GenCtx) (name original : Str) (comment : Option Str) : Str :=
  "//".toList ++ GenCtx.formatComment comment 0 ++ " pub type ".toList ++ g.typeName name ++ " = ".toList ++ g.typeName original ++
    ";\n".toList

/-- import.rs:4-6 -/
def genImport (i : Import) : Str := "//use ".toList ++ i.location ++ "  ".toList ++ i.name ++ ";\n".toList

/-! ## The recursion: mod.rs:49-60, base.rs:46-48 -/

/-- struct.rs:9-19, given the texts of the subtypes -/
def structText (g : GenCtx) (name : Str) (comment : Option Str) (fields : List StructField)
    (fieldSubtypes subtypes : Str) : Str :=
  GenCtx.formatComment comment 0 ++ structMacros g ++ "pub struct ".toList ++ g.typeName name ++ " {".toList ++
    genFields g name fields ++ "}\n\n".toList ++ genValidateImpl (g.typeName name) [] ++ "\n".toList ++
    structSubtypes g name fieldSubtypes subtypes ++ "\n".toList

mutual
/-- mod.rs:49-60 -/
def generate (g : GenCtx) : RsEntity → Res Str
  | .struct (.mk name comment fields _ subtypes) =>
    (genFieldSubtypes g fields).bind fun fs =>
      (genList g subtypes).bind fun ss =>
        .ok (structText g name comment fields fs.flatten (joinWith "\n".toList ss))
  | .tupleStruct (.mk name comment typeName subtypes ms facets) =>
    (genList g subtypes).bind fun ss => tupleText g name comment typeName ms facets (joinWith "\n".toList ss)
  | .enum (.mk name cases comment typeName subtypes source) =>
    (genList g subtypes).bind fun ss => .ok (enumText g name cases comment typeName source (joinWith "\n".toList ss))
  | .structField f => .ok (genField g f)
  | .enumCase c => .ok (genCase g c)
  | .alias (.mk name original comment _) => .ok (genAlias g name original comment)
  | .import i => .ok (genImport i)
/-- The texts of the entities of a list (`iter().map(|f| gen.generate(f))`). -/
def genList (g : GenCtx) : List RsEntity → Res (List Str)
  | [] => .ok []
  | e :: es => (generate g e).bind fun t => (genList g es).bind fun ts => .ok (t :: ts)
/-- struct.rs:47-53: for each field the joined texts of its subtypes. -/
def genFieldSubtypes (g : GenCtx) : List StructField → Res (List Str)
  | [] => .ok []
  | .mk _ _ _ subtypes _ _ :: fs =>
    (genList g subtypes).bind fun ss =>
      (genFieldSubtypes g fs).bind fun ts => .ok (joinWith "\n".toList ss :: ts)
end

mutual
/-- What generating leaves behind of the entity: the fields of every struct it comes by are changed
(struct.rs:24-28). -/
def afterGenerate (g : GenCtx) : RsEntity → RsEntity
  | .struct (.mk name comment fields ags subtypes) =>
    .struct (.mk name comment (afterFields g (g.name name) fields) ags (afterList g subtypes))
  | .tupleStruct (.mk name comment typeName subtypes ms facets) =>
    .tupleStruct (.mk name comment typeName (afterList g subtypes) ms facets)
  | .enum (.mk name cases comment typeName subtypes source) =>
    .enum (.mk name cases comment typeName (afterList g subtypes) source)
  | e => e
def afterList (g : GenCtx) : List RsEntity → List RsEntity
  | [] => []
  | e :: es => afterGenerate g e :: afterList g es
def afterFields (g : GenCtx) (modName : Str) : List StructField → List StructField
  | [] => []
  | .mk n t c s src m :: fs =>
    .mk n (if s.isEmpty then t else modName ++ "::".toList ++ t) c (afterList g s) src m :: afterFields g modName fs
end

/-- mod.rs:43-47 (the namespaces of the file are put into the generator first); text and the file as left
behind. -/
def generateRsFile (U : UnicodeTable) (f : RsFile) : Res Str × RsFile :=
  let g : GenCtx := ⟨U, f.targetNs, f.xsdNs⟩
  ((genList g f.types).bind fun ts => .ok ts.flatten, { f with types := afterList g f.types })

end Verif.Model
