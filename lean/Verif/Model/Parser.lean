import Verif.Ext.RoXml
import Verif.Model.Entities

/-!
# Model of the schema parser: `xsd-parser/src/parser/*.rs`

A `&Node` of the code knows its parent and its children.  Here a node is taken together with its parent, the
ancestors of the parent (nearest first), and its children, each with what `parse_node` gives for it
(`Place`).  `parse_node` is then defined by recursion on the tree; a child which the code does not parse is
not looked at.  Messages of panics are dropped, as is the order in which several panics would occur.  The depth
of the stack is not modelled.
-/

namespace Verif.Model

open Verif.RoXml

/-! ## xsd_elements.rs -/

/-- xsd_elements.rs:63-67 -/
inductive ExtensionType where
  | complexContent | simpleContent
  deriving DecidableEq, Repr

/-- xsd_elements.rs:69-74 -/
inductive RestrictionType where
  | complexContent | simpleContent | simpleType
  deriving DecidableEq, Repr

/-- xsd_elements.rs:3-38, without the messages of `XsdError`. -/
inductive ElementType where
  | all | annotation | any | anyAttribute | appInfo | attribute | attributeGroup | choice | complexContent
  | complexType | documentation | element | extension (e : ExtensionType) | field | group | import | include
  | key | keyRef | list | notation | redefine | restriction (r : RestrictionType) | schema | selector
  | sequence | simpleContent | simpleType | union | unique | facet (f : FacetType)
  | unknownElement (tag : Str) | xsdError
  deriving DecidableEq, Repr

def attrName (n : Node) : Option Str := n.attr "name".toList
def attrType (n : Node) : Option Str := n.attr "type".toList
def attrRef (n : Node) : Option Str := n.attr "ref".toList
def attrValue (n : Node) : Option Str := n.attr "value".toList
def attrBase (n : Node) : Option Str := n.attr "base".toList

/-- xsd_elements.rs:101-111 -/
def extensionType : Option Str → ElementType
  | some p =>
    if p = "complexContent".toList then .extension .complexContent
    else if p = "simpleContent".toList then .extension .simpleContent
    else .xsdError
  | none => .xsdError

/-- xsd_elements.rs:121-132 -/
def restrictionType : Option Str → ElementType
  | some p =>
    if p = "complexContent".toList then .restriction .complexContent
    else if p = "simpleContent".toList then .restriction .simpleContent
    else if p = "simpleType".toList then .restriction .simpleType
    else .xsdError
  | none => .xsdError

/-- xsd_elements.rs:141-151 with `get_string_value` (194-198) -/
def valueFacet (n : Node) (f : Str → FacetType) : Res ElementType :=
  (Res.unwrap (attrValue n)).bind fun v => .ok (.facet (f v))

/-- xsd_elements.rs:152-160 -/
def whiteSpaceFacet (n : Node) : Res ElementType :=
  (Res.unwrap (attrValue n)).bind fun v =>
    if v = "preserve".toList then .ok (.facet (.whiteSpace .preserve))
    else if v = "replace".toList then .ok (.facet (.whiteSpace .replace))
    else if v = "collapse".toList then .ok (.facet (.whiteSpace .collapse))
    else .panic

/-- `xsd_type` — xsd_elements.rs:86-164; `parent` is the tag of the parent element. -/
def xsdType (parent : Option Str) (n : Node) : Res ElementType :=
  let t := n.tag
  if t = "all".toList then .ok .all
  else if t = "annotation".toList then .ok .annotation
  else if t = "any".toList then .ok .any
  else if t = "anyAttribute".toList then .ok .anyAttribute
  else if t = "appInfo".toList then .ok .appInfo
  else if t = "attribute".toList then .ok .attribute
  else if t = "attributeGroup".toList then .ok .attributeGroup
  else if t = "choice".toList then .ok .choice
  else if t = "complexContent".toList then .ok .complexContent
  else if t = "complexType".toList then .ok .complexType
  else if t = "documentation".toList then .ok .documentation
  else if t = "element".toList then .ok .element
  else if t = "extension".toList then .ok (extensionType parent)
  else if t = "field".toList then .ok .field
  else if t = "group".toList then .ok .group
  else if t = "import".toList then .ok .import
  else if t = "include".toList then .ok .include
  else if t = "key".toList then .ok .key
  else if t = "keyRef".toList then .ok .keyRef
  else if t = "list".toList then .ok .list
  else if t = "notation".toList then .ok .notation
  else if t = "redefine".toList then .ok .redefine
  else if t = "restriction".toList then .ok (restrictionType parent)
  else if t = "schema".toList then .ok .schema
  else if t = "selector".toList then .ok .selector
  else if t = "sequence".toList then .ok .sequence
  else if t = "simpleContent".toList then .ok .simpleContent
  else if t = "simpleType".toList then .ok .simpleType
  else if t = "union".toList then .ok .union
  else if t = "unique".toList then .ok .unique
  else if t = "enumeration".toList then valueFacet n .enumeration
  else if t = "fractionDigits".toList then valueFacet n .fractionDigits
  else if t = "length".toList then valueFacet n .length
  else if t = "maxExclusive".toList then valueFacet n .maxExclusive
  else if t = "maxInclusive".toList then valueFacet n .maxInclusive
  else if t = "maxLength".toList then valueFacet n .maxLength
  else if t = "minExclusive".toList then valueFacet n .minExclusive
  else if t = "minInclusive".toList then valueFacet n .minInclusive
  else if t = "minLength".toList then valueFacet n .minLength
  else if t = "pattern".toList then valueFacet n .pattern
  else if t = "totalDigits".toList then valueFacet n .totalDigits
  else if t = "whiteSpace".toList then whiteSpaceFacet n
  else .ok (.unknownElement t)

/-- xsd_elements.rs:200-204 -/
inductive UseType where
  | required | prohibited | optional
  deriving DecidableEq, Repr

/-- `attr_use` — xsd_elements.rs:178-187 -/
def attrUse (n : Node) : Res UseType :=
  let u := (n.attr "use".toList).getD "optional".toList
  if u = "optional".toList then .ok .optional
  else if u = "prohibited".toList then .ok .prohibited
  else if u = "required".toList then .ok .required
  else .panic

/-- `usize::MAX` on a 64-bit target. -/
abbrev usizeMax : Nat := 18446744073709551615

/-- xsd_elements.rs:207-211 -/
inductive MaxOccurs where
  | bounded (n : Nat) | unbounded | none
  deriving DecidableEq, Repr

/-- xsd_elements.rs:213-215 -/
def minOccurs (n : Node) : Nat :=
  ((n.attr "minOccurs".toList).bind (Str.parseUnsigned usizeMax)).getD 1

/-- xsd_elements.rs:217-225 -/
def maxOccurs (n : Node) : MaxOccurs :=
  match n.attr "maxOccurs".toList with
  | some s =>
    if s = "unbounded".toList then .unbounded
    else
      match Str.parseUnsigned usizeMax s with
      | some v => .bounded v
      | none => .none
  | none => .none

/-! ## utils.rs -/

/-- utils.rs:12-17 (`target_namespace`) -/
def targetNamespace (n : Node) : Option Namespace :=
  match n.attr "targetNamespace".toList with
  | some tn => n.namespaces.find? fun a => a.uri = tn
  | none => none

/-- utils.rs:19-21 -/
def findChild (n : Node) (tag : Str) : Option Node :=
  n.children.find? fun e => e.isElement && e.tag = tag

/-- utils.rs:23-27 -/
def getDocumentation (n : Node) : Option Str :=
  ((findChild n "annotation".toList).bind fun a => findChild a "documentation".toList).bind fun d => d.firstText

/-- utils.rs:29-43, for a node with these ancestors, nearest first. -/
def getParentName : List Node → Res Str
  | [] => .ok "UnsupportedName".toList
  | p :: above =>
    (xsdType (above.head?.map Node.tag) p).bind fun t =>
      if t = .schema then .ok "SchemaElement".toList
      else
        match attrName p with
        | some s => .ok s
        | none => getParentName above

/-- A node in its document. -/
structure Place where
  node : Node
  /-- the children, each with the value of `parse_node(child, node)` -/
  kids : List (Node × Res RsEntity)
  parent : Node
  /-- the ancestors of the parent -/
  above : List Node

namespace Place

/-- `parent.xsd_type()` -/
def parentType (c : Place) : Res ElementType := xsdType (c.above.head?.map Node.tag) c.parent

/-- `node.xsd_type()` -/
def type (c : Place) : Res ElementType := xsdType (some c.parent.tag) c.node

/-- The children with their `xsd_type()`, which the filters of the code ask of every child. -/
def typedKids (c : Place) : Res (List (ElementType × Node × Res RsEntity)) :=
  Res.mapM' (fun k => (xsdType (some c.node.tag) k.1).bind fun t => .ok (t, k)) c.kids

/-- `get_parent_name(node)` -/
def parentName (c : Place) : Res Str := getParentName (c.parent :: c.above)

/-- `node.children().filter(|n| p(n.xsd_type())).last()` -/
def lastKid (c : Place) (p : ElementType → Node → Bool) : Res (Option (Node × Res RsEntity)) :=
  c.typedKids.bind fun ks => .ok ((ks.filter fun k => p k.1 k.2.1).getLast?.map (·.2))

end Place

/-- The `match` of utils.rs:54-57 -/
def asField : RsEntity → Res StructField
  | .structField f => .ok f
  | _ => .panic

/-- The `match` of utils.rs:64-67 -/
def asAlias : RsEntity → Res RAlias
  | .alias a => .ok a
  | _ => .panic

/-- utils.rs:49-59, also attribute_group.rs:38-48 -/
def attributesToFields (c : Place) : Res (List StructField) :=
  c.typedKids.bind fun ks =>
    Res.mapM' (fun k => k.2.2.bind asField) (ks.filter fun k => k.1 = .attribute ∨ k.1 = .anyAttribute)

/-- utils.rs:61-69 -/
def attributeGroupsToAliases (c : Place) : Res (List RAlias) :=
  c.typedKids.bind fun ks =>
    Res.mapM' (fun k => k.2.2.bind asAlias) (ks.filter fun k => k.1 = .attributeGroup)

/-- utils.rs:71-79 -/
def enumToField : REnum → StructField
  | .mk n cs c t s src => .mk n n none [.enum (.mk n cs c t s src)] .element []

/-! ## any.rs, any_attribute.rs, import.rs -/

/-- any.rs:8-17 -/
def parseAny (n : Node) : RsEntity :=
  .structField (.mk "any".toList "String".toList (getDocumentation n) [] .element [.empty])

/-- any_attribute.rs:8-17 -/
def parseAnyAttribute (n : Node) : RsEntity :=
  .structField (.mk "any_attribute".toList "String".toList (getDocumentation n) [] .attribute [.empty])

/-- import.rs:8-14 -/
def parseImport (n : Node) : RsEntity :=
  .import ⟨(n.attr "namespace".toList).getD [], (n.attr "schemaLocation".toList).getD [], none⟩

/-! ## element.rs -/

/-- element.rs:142-170 -/
def elementModifier (n : Node) : TypeModifier :=
  match minOccurs n with
  | 0 =>
    match maxOccurs n with
    | .none => .option
    | .unbounded => .array
    | .bounded v => if v > 1 then .array else .none
  | 1 =>
    match maxOccurs n with
    | .none => .none
    | .unbounded => .array
    | .bounded v => if v > 1 then .array else .none
  | _ => .array

/-- element.rs:26-34 -/
def elementDefault (n : Node) : RsEntity :=
  .alias (.mk "UNSUPPORTED".toList ((attrType n).getD "UNSUPPORTED".toList) (getDocumentation n) [])

/-- element.rs:36-71 -/
def parseCaseOfChoice (n : Node) : RsEntity :=
  match attrRef n with
  | some r =>
    .enumCase { name := r, comment := getDocumentation n, value := [], typeName := some r,
                typeModifiers := [elementModifier n], source := .choice }
  | none =>
    .enumCase { name := (attrName n).getD "UNSUPPORTED_ELEMENT_NAME".toList, comment := getDocumentation n, value := [],
                typeName := attrType n, typeModifiers := [elementModifier n], source := .choice }

/-- The filter at element.rs:95 and 126 -/
def isContentType (t : ElementType) (_ : Node) : Bool := t = .simpleType ∨ t = .complexType

/-- element.rs:73-111 -/
def parseFieldOfSequence (c : Place) : Res RsEntity :=
  let n := c.node
  let name := (attrName n).getD ((attrRef n).getD "UNSUPPORTED_ELEMENT_NAME".toList)
  if n.hasAttribute "type".toList || n.hasAttribute "ref".toList then
    .ok (.structField (.mk name ((attrType n).getD ((attrRef n).getD "String".toList)) (getDocumentation n) [] .element
      [elementModifier n]))
  else
    (c.lastKid isContentType).bind fun k =>
      (Res.unwrap k).bind fun k =>
        k.2.bind fun e =>
          let ty := e.setName (name ++ "Type".toList)
          .ok (.structField (.mk name ty.name (getDocumentation n) [ty] .element [elementModifier n]))

/-- element.rs:113-140 -/
def parseGlobalElement (c : Place) : Res RsEntity :=
  (Res.unwrap (attrName c.node)).bind fun name =>
    match attrType c.node with
    | some t => .ok (.alias (.mk name t (getDocumentation c.node) []))
    | none =>
      (c.lastKid isContentType).bind fun
        | some k => k.2.bind fun e => .ok (e.setName name)
        | none => .ok (.struct (.mk name (getDocumentation c.node) [] [] []))

/-- element.rs:16-24 -/
def parseElement (c : Place) : Res RsEntity :=
  c.parentType.bind fun
    | .schema => parseGlobalElement c
    | .all => parseFieldOfSequence c
    | .sequence => parseFieldOfSequence c
    | .choice => .ok (parseCaseOfChoice c.node)
    | _ => .ok (elementDefault c.node)

/-! ## attribute.rs, attribute_group.rs -/

/-- attribute.rs:23-27 -/
def useModifier : UseType → TypeModifier
  | .optional => .option
  | .prohibited => .empty
  | .required => .none

/-- attribute.rs:39-69 -/
def parseGlobalAttribute (c : Place) : Res RsEntity :=
  match attrRef c.node with
  | some r => .ok (.alias (.mk r r (getDocumentation c.node) []))
  | none =>
    (Res.unwrap (attrName c.node)).bind fun name =>
      match attrType c.node with
      | some t => .ok (.alias (.mk name t (getDocumentation c.node) []))
      | none =>
        (c.lastKid fun t n => n.isElement ∧ t = .simpleType).bind fun
          | some k => k.2.bind fun e => .ok (e.setName name)
          | none => .ok (.struct (.mk name none [] [] []))

/-- attribute.rs:10-37 -/
def parseAttribute (c : Place) : Res RsEntity :=
  c.parentType.bind fun pt =>
    if pt = .schema then parseGlobalAttribute c
    else
      (Res.unwrap ((attrName c.node).or (attrRef c.node))).bind fun name =>
        (attrUse c.node).bind fun u =>
          .ok (.structField (.mk name (((attrType c.node).or (attrRef c.node)).getD "String".toList)
            (getDocumentation c.node) [] .attribute [useModifier u]))

/-- attribute_group.rs:10-36 -/
def parseAttributeGroup (c : Place) : Res RsEntity :=
  c.parentType.bind fun pt =>
    if pt = .schema then
      (Res.unwrap (attrName c.node)).bind fun name =>
        (attributesToFields c).bind fun fields => .ok (.struct (.mk name none fields [] []))
    else
      (Res.unwrap (attrRef c.node)).bind fun r => .ok (.alias (.mk r r (getDocumentation c.node) []))

/-! ## sequence.rs, all.rs, choice.rs -/

/-- The `match` of sequence.rs:27-39 and all.rs:27-39 -/
def memberField (parentName : Str) : RsEntity → Res StructField
  | .structField (.mk n t c s src ms) =>
    .ok (.mk n t c s src (if parentName.isSuffixOf t then ms ++ [.recursive] else ms))
  | .enum (.mk _ cs c t s src) => .ok (enumToField (.mk (parentName ++ "Choice".toList) cs c t s src))
  | _ => .panic

/-- The filter `n.is_element() && n.xsd_type() != ElementType::Annotation` -/
def isMember (t : ElementType) (n : Node) : Bool := n.isElement ∧ t ≠ .annotation

/-- sequence.rs:23-41 and all.rs:23-41 -/
def elementsToFields (c : Place) (parentName : Str) : Res (List StructField) :=
  c.typedKids.bind fun ks =>
    Res.mapM' (fun k => k.2.2.bind (memberField parentName)) (ks.filter fun k => isMember k.1 k.2.1)

/-- sequence.rs:12-21 and all.rs:12-21 -/
def parseSequence (c : Place) : Res RsEntity :=
  c.parentName.bind fun name =>
    (elementsToFields c name).bind fun fields =>
      .ok (.struct (.mk name (getDocumentation c.parent) fields [] []))

/-- The `match` of choice.rs:13-16 -/
def asCase : RsEntity → Res EnumCase
  | .enumCase c => .ok c
  | _ => .panic

/-- choice.rs:9-25 -/
def parseChoice (c : Place) : Res RsEntity :=
  c.typedKids.bind fun ks =>
    (Res.mapM' (fun k => k.2.2.bind asCase) (ks.filter fun k => k.2.1.isElement ∧ k.1 = .element)).bind fun cases =>
      .ok (.enum (.mk [] cases none "String".toList [] .choice))

/-! ## complex_type.rs, complex_content.rs, simple_content.rs -/

/-- complex_type.rs:16-23 and the filter at 37 -/
def isComplexContent (t : ElementType) (n : Node) : Bool :=
  n.isElement ∧ (t = .all ∨ t = .choice ∨ t = .complexContent ∨ t = .group ∨ t = .sequence ∨ t = .simpleContent)

/-- complex_type.rs:26-31 -/
def complexTypeName (c : Place) : Res Str :=
  c.parentType.bind fun pt => if pt = .schema then Res.unwrap (attrName c.node) else c.parentName

/-- complex_type.rs:54-77 -/
def finishComplexType (c : Place) (name : Str) (fields : List StructField) : RsEntity → Res RsEntity
  | .struct (.mk _ cm fs ag sub) => .ok (.struct (.mk name cm (fs ++ fields) ag sub))
  | .enum (.mk _ cs cm t _ src) =>
    let en := name ++ "Choice".toList
    (attributeGroupsToAliases c).bind fun ag =>
      .ok (.enum (.mk en cs cm t
        [.struct (.mk name (getDocumentation c.node) (fields ++ [.mk en en none [] .choice []]) ag [])] src))
  | e => .ok e

/-- complex_type.rs:25-78 -/
def parseComplexType (c : Place) : Res RsEntity :=
  (complexTypeName c).bind fun name =>
    (attributesToFields c).bind fun fields =>
      (c.lastKid isComplexContent).bind fun
        | none =>
          (attributeGroupsToAliases c).bind fun ag =>
            .ok (.struct (.mk name (getDocumentation c.node) fields ag []))
        | some k =>
          if (k.1.children.filter Node.isElement).length = 0 then
            (attributeGroupsToAliases c).bind fun ag =>
              .ok (.struct (.mk name (getDocumentation c.node) fields ag []))
          else k.2.bind (finishComplexType c name fields)

/-- complex_content.rs:9-17 and simple_content.rs:9-17 -/
def parseContent (c : Place) : Res RsEntity :=
  (c.lastKid isMember).bind fun k => (Res.unwrap k).bind fun k => k.2

/-! ## extension.rs -/

/-- constants.rs:2 -/
def baseTag : Str := "__base__".toList

/-- The field pushed at extension.rs:35-41, 57-63 and restriction.rs:69-75 -/
def baseField (n : Node) (base : Str) : StructField := .mk baseTag base (getDocumentation n) [] .base []

/-- extension.rs:31-50 -/
def simpleContentExtension (c : Place) : Res RsEntity :=
  (Res.unwrap (attrBase c.node)).bind fun base =>
    (attributesToFields c).bind fun fields =>
      (attributeGroupsToAliases c).bind fun ag =>
        .ok (.struct (.mk [] (getDocumentation c.node) (fields ++ [baseField c.node base]) ag []))

/-- extension.rs:67-71 with 13-20 -/
def isExtensionContent (t : ElementType) (n : Node) : Bool :=
  n.isElement ∧ t ≠ .attribute ∧
    (t = .all ∨ t = .attribute ∨ t = .attributeGroup ∨ t = .choice ∨ t = .group ∨ t = .sequence)

/-- extension.rs:83-88 and restriction.rs:95-100 -/
def derivedWithoutContent (c : Place) (fields : List StructField) : Res RsEntity :=
  (attributeGroupsToAliases c).bind fun ag => .ok (.struct (.mk [] (getDocumentation c.node) fields ag []))

/-- extension.rs:75-80 and restriction.rs:87-92 -/
def derivedWithContent (c : Place) (fields : List StructField) : RsEntity → Res RsEntity
  | .struct (.mk n _ fs ag sub) => .ok (.struct (.mk n (getDocumentation c.node) (fs ++ fields) ag sub))
  | _ => derivedWithoutContent c fields

/-- extension.rs:52-89 -/
def complexContentExtension (c : Place) : Res RsEntity :=
  (Res.unwrap (attrBase c.node)).bind fun base =>
    (attributesToFields c).bind fun fields =>
      (c.lastKid isExtensionContent).bind fun
        | some k => k.2.bind (derivedWithContent c (fields ++ [baseField c.node base]))
        | none => derivedWithoutContent c (fields ++ [baseField c.node base])

/-- extension.rs:22-29 -/
def parseExtension (c : Place) : Res RsEntity :=
  c.type.bind fun
    | .extension .simpleContent => simpleContentExtension c
    | .extension .complexContent => complexContentExtension c
    | _ => .panic

/-! ## restriction.rs -/

/-- restriction.rs:103-110 -/
def facets (c : Place) : Res (List Facet) :=
  c.typedKids.bind fun ks => .ok (ks.filterMap fun k =>
    match k.1 with
    | .facet f => some ⟨f, getDocumentation k.2.1⟩
    | _ => none)

/-- restriction.rs:112-127 -/
def facetCases (fs : List Facet) : List EnumCase :=
  fs.filterMap fun f =>
    match f.facetType with
    | .enumeration v =>
      some { name := v, comment := f.comment, value := v, typeName := none, typeModifiers := [],
             source := .restriction }
    | _ => none

/-- restriction.rs:135-138 -/
def isSimpleEnumeration (U : UnicodeTable) (v : Str) : Bool :=
  !v.isEmpty && v.all fun c => U.isAlphanumeric c || c = '-'

/-- restriction.rs:129-133: the value of an enumeration is that in its type. -/
def isSimpleEnumerations (U : UnicodeTable) (c : Place) : Res Bool :=
  c.typedKids.bind fun ks => .ok (ks.all fun k =>
    match k.1 with
    | .facet (.enumeration v) => isSimpleEnumeration U v
    | _ => true)

/-- restriction.rs:39-57 -/
def simpleTypeRestriction (U : UnicodeTable) (c : Place) : Res RsEntity :=
  (Res.unwrap (attrBase c.node)).bind fun base =>
    (facets c).bind fun fs =>
      (isSimpleEnumerations U c).bind fun simple =>
        if simple ∧ facetCases fs ≠ [] then
          c.parentName.bind fun name =>
            .ok (.enum (.mk (name ++ "Enum".toList) (facetCases fs) none base [] .restriction))
        else .ok (.tupleStruct (.mk [] none base [] [] fs))

/-- restriction.rs:79-83 with 19-27 -/
def isRestrictionContent (t : ElementType) (n : Node) : Bool :=
  n.isElement ∧ t ≠ .attribute ∧
    (t = .all ∨ t = .anyAttribute ∨ t = .attribute ∨ t = .attributeGroup ∨ t = .choice ∨ t = .group ∨ t = .sequence)

/-- restriction.rs:65-101 -/
def complexContentRestriction (c : Place) : Res RsEntity :=
  (Res.unwrap (attrBase c.node)).bind fun base =>
    (attributesToFields c).bind fun fields =>
      (c.lastKid isRestrictionContent).bind fun
        | some k => k.2.bind (derivedWithContent c (fields ++ [baseField c.node base]))
        | none => derivedWithoutContent c (fields ++ [baseField c.node base])

/-- restriction.rs:29-37, with the `unimplemented!` of 59-61 -/
def parseRestriction (U : UnicodeTable) (c : Place) : Res RsEntity :=
  c.type.bind fun
    | .restriction .simpleType => simpleTypeRestriction U c
    | .restriction .simpleContent => .panic
    | .restriction .complexContent => complexContentRestriction c
    | _ => .panic

/-! ## list.rs, union.rs, simple_type.rs -/

/-- list.rs:18-26 -/
def listItem : RsEntity → Res TupleStruct
  | .enum (.mk n cs c t s src) => .ok (.mk [] none n [.enum (.mk n cs c t s src)] [] [])
  | .tupleStruct t => .ok t
  | _ => .panic

/-- list.rs:29-30 -/
def pushArray : TupleStruct → RsEntity
  | .mk n c t s ms fs => .tupleStruct (.mk n c t s (ms ++ [.array]) fs)

/-- list.rs:10-31 -/
def parseList (c : Place) : Res RsEntity :=
  match c.node.attr "itemType".toList with
  | some t => .ok (pushArray (.mk [] none t [] [] []))
  | none =>
    (Res.unwrap (c.kids.find? fun k => k.1.isElement && k.1.tag = "simpleType".toList)).bind fun k =>
      k.2.bind fun e => (listItem e).bind fun t => .ok (pushArray t)

/-- union.rs:57-68 -/
def createEnumCases (memberTypes : Str) : List EnumCase :=
  ((Str.splitOn ' ' memberTypes).filter (· ≠ [])).map fun mt =>
    { name := mt, typeName := some mt, source := .union }

/-- union.rs:70-74 over union.rs:20-21, from index `i` on. -/
def unionSubtypes : Nat → List (Res RsEntity) → Res (List RsEntity)
  | _, [] => .ok []
  | i, r :: rs =>
    r.bind fun e => (unionSubtypes (i + 1) rs).bind fun es =>
      .ok (e.setName ("EnumCaseType_".toList ++ Str.natStr i) :: es)

/-- union.rs:25-34, from index `i` on. -/
def unionCases : Nat → List RsEntity → List EnumCase
  | _, [] => []
  | i, e :: es =>
    { name := "EnumCase_".toList ++ Str.natStr i, typeName := some e.name, source := .union } :: unionCases (i + 1) es

/-- union.rs:13-55 -/
def parseUnion (c : Place) : Res RsEntity :=
  c.typedKids.bind fun ks =>
    (unionSubtypes 0 ((ks.filter fun k => k.2.1.isElement ∧ k.1 = .simpleType).map (·.2.2))).bind fun subtypes =>
      (attributesToFields c).bind fun fields =>
        let cases := ((c.node.attr "memberTypes".toList).map createEnumCases).getD [] ++ unionCases 0 subtypes
        if fields.isEmpty then
          .ok (.enum (.mk [] cases (getDocumentation c.node) "String".toList subtypes .union))
        else
          c.parentName.bind fun p =>
            .ok (.struct (.mk [] none
              (fields ++ [enumToField (.mk (p ++ "Choice".toList) cases (getDocumentation c.node) "String".toList
                subtypes .union)]) [] []))

/-- simple_type.rs:29-31 -/
def setNameIf : Option Str → RsEntity → RsEntity
  | some n, e => e.setName n
  | none, e => e

/-- simple_type.rs:10-34 -/
def parseSimpleType (c : Place) : Res RsEntity :=
  c.parentType.bind fun pt =>
    if decide (pt = .schema) ≠ (attrName c.node).isSome then .panic
    else
      (c.lastKid isMember).bind fun k =>
        (Res.unwrap k).bind fun k =>
          k.2.bind fun e => .ok ((setNameIf (attrName c.node) e).setComment (getDocumentation c.node))

/-! ## node_parser.rs -/

/-- node_parser.rs:25-49 -/
def parsePlace (U : UnicodeTable) (c : Place) : Res RsEntity :=
  c.type.bind fun
    | .all => parseSequence c
    | .any => .ok (parseAny c.node)
    | .anyAttribute => .ok (parseAnyAttribute c.node)
    | .attribute => parseAttribute c
    | .attributeGroup => parseAttributeGroup c
    | .choice => parseChoice c
    | .complexContent => parseContent c
    | .complexType => parseComplexType c
    | .element => parseElement c
    | .extension _ => parseExtension c
    | .import => .ok (parseImport c.node)
    | .include => .ok (parseImport c.node)
    | .list => parseList c
    | .restriction _ => parseRestriction U c
    | .sequence => parseSequence c
    | .simpleContent => parseContent c
    | .simpleType => parseSimpleType c
    | .union => parseUnion c
    | _ => .panic

mutual
/-- `parse_node(node, parent)` — node_parser.rs:25-49 -/
def parseNode (U : UnicodeTable) : Node → Node → List Node → Res RsEntity
  | .element u t as ns cs, parent, above =>
    parsePlace U ⟨.element u t as ns cs, parseKids U cs (.element u t as ns cs) (parent :: above), parent, above⟩
  | .text s, parent, above => parsePlace U ⟨.text s, [], parent, above⟩
  | .other, parent, above => parsePlace U ⟨.other, [], parent, above⟩
/-- The children of a node. -/
def parseKids (U : UnicodeTable) : List Node → Node → List Node → List (Node × Res RsEntity)
  | [], _, _ => []
  | n :: ns, parent, above => (n, parseNode U n parent above) :: parseKids U ns parent above
end

/-- A node in its place. -/
def placeOf (U : UnicodeTable) (n parent : Node) (above : List Node) : Place :=
  ⟨n, n.children.map fun k => (k, parseNode U k n (parent :: above)), parent, above⟩

/-! ## schema.rs -/

/-- schema.rs:11-13 -/
def xsdUri : Str := "http://www.w3.org/2001/XMLSchema".toList

/-- schema.rs:11-13, 19-23 -/
def xsdNamespace (schema : Node) : Option Namespace :=
  let nss := schema.namespaces.filter fun n => n.uri = xsdUri
  (nss.find? fun n => n.name.isSome).or nss.head?

/-- schema.rs:10-39; `above` are the ancestors of the schema element (none unless it is embedded). -/
def parseSchema (U : UnicodeTable) (schema : Node) (above : List Node) : Res RsFile :=
  (Res.mapM' (fun n => (xsdType (some schema.tag) n).bind fun t => .ok (t, n)) schema.children).bind fun ks =>
    (Res.mapM' (fun k => parseNode U k.2 schema above)
      (ks.filter fun k => k.2.isElement ∧ k.1 ≠ .annotation ∧ k.1 ≠ .attributeGroup)).bind fun types =>
      (Res.mapM' (fun k => parseNode U k.2 schema above)
        (ks.filter fun k => k.2.isElement ∧ k.1 = .attributeGroup)).bind fun groups =>
        .ok ⟨[], none, types, groups, targetNamespace schema, xsdNamespace schema⟩

end Verif.Model
