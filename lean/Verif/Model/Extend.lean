import Verif.Model.Parser

/-!
# Model of `parse`: `xsd-parser/src/parser/mod.rs` and the methods of `Struct` in `parser/types.rs`

The code builds a `HashMap<&String, &Struct>` of the structs of a file and then changes the structs one after
the other through their `RefCell`s.  Here the structs which can be in the map are those of the lists `types` and
`attribute_groups`, known by their position; the current contents of all of them are the list of entities.
A struct in `Struct::subtypes` would be in the map too (types.rs:30-34); `parse_node` never puts one there
(`Verif.Lemmas.Parse.structs_have_no_subtypes`), so these are not in the map here.
-/

namespace Verif.Model

open Verif.RoXml

/-- The map of mod.rs:44-54: the position of the struct a name stands for.  A later struct of the same name
replaces an earlier one. -/
def typesMap : List RsEntity → Str → Option Nat
  | [], _ => none
  | e :: es, key =>
    match typesMap es key with
    | some i => some (i + 1)
    | none =>
      match e with
      | .struct s => if s.name = key then some 0 else none
      | _ => none

/-- The lookup and clone at types.rs:45-49: `look` gives the fields of the struct of this name, if there is
one; it panics if that struct is mutably borrowed. -/
def baseFields (look : Str → Res (List StructField)) : List StructField → Res (List StructField)
  | [] => .ok []
  | f :: fs =>
    if f.name = baseTag then
      (look (lastSegment f.typeName)).bind fun a => (baseFields look fs).bind fun b => .ok (a ++ b)
    else baseFields look fs

/-- types.rs:50-58: append those fields whose name is not taken, then remove the markers. -/
def mergeBase (own inherited : List StructField) : List StructField :=
  (own ++ inherited.filter fun f => !own.any fun g => g.name = f.name).filter fun f => f.name ≠ baseTag

mutual
/-- `Struct::extend_base` for a struct which is not in the map — types.rs:38-65 -/
def extendStruct (look : Str → Res (List StructField)) : RStruct → Res RStruct
  | .mk n c fs ag sub =>
    (extendFields look fs).bind fun fs =>
      (baseFields look fs).bind fun inh =>
        (extendSubtypes look sub).bind fun sub => .ok (.mk n c (mergeBase fs inh) ag sub)
/-- types.rs:39 -/
def extendFields (look : Str → Res (List StructField)) : List StructField → Res (List StructField)
  | [] => .ok []
  | f :: fs => (extendField look f).bind fun f => (extendFields look fs).bind fun fs => .ok (f :: fs)
/-- `StructField::extend_base` — types.rs:93-99 -/
def extendField (look : Str → Res (List StructField)) : StructField → Res StructField
  | .mk n t c sub src ms => (extendSubtypes look sub).bind fun sub => .ok (.mk n t c sub src ms)
/-- types.rs:94-98 and 60-64 -/
def extendSubtypes (look : Str → Res (List StructField)) : List RsEntity → Res (List RsEntity)
  | [] => .ok []
  | e :: es => (extendEntity look e).bind fun e => (extendSubtypes look es).bind fun es => .ok (e :: es)
/-- types.rs:95-97 and 61-63 -/
def extendEntity (look : Str → Res (List StructField)) : RsEntity → Res RsEntity
  | .struct s => (extendStruct look s).bind fun s => .ok (.struct s)
  | e => .ok e
end

/-- The current fields of the entity at a position. -/
def fieldsAt (es : List RsEntity) (i : Nat) : List StructField :=
  match es[i]? with
  | some (.struct s) => s.fields
  | _ => []

/-- `types.get(&key).map(|s| s.fields.borrow().clone()).unwrap_or_default()` — types.rs:48 and 74; `own` is what
happens on looking at the struct at position `i`, which is being extended. -/
def lookAt (map : Str → Option Nat) (es : List RsEntity) (i : Nat) (own : Res (List StructField)) (key : Str) :
    Res (List StructField) :=
  match map key with
  | some j => if j = i then own else .ok (fieldsAt es j)
  | none => .ok []

/-- types.rs:71-75 -/
def groupFields (look : Str → Res (List StructField)) : List RAlias → Res (List StructField)
  | [] => .ok []
  | a :: as =>
    (look (lastSegment a.original)).bind fun f => (groupFields look as).bind fun fs => .ok (f ++ fs)

/-- `extend_base` then `extend_attribute_group` for the struct at position `i` — types.rs:38-79.  While the
structs nested in its fields are extended, its own fields are mutably borrowed. -/
def extendTop (map : Str → Option Nat) (es : List RsEntity) (i : Nat) : RStruct → Res RStruct
  | .mk n c fs ag sub =>
    (extendFields (lookAt map es i .panic) fs).bind fun fs =>
      (baseFields (lookAt map es i (.ok fs)) fs).bind fun inh =>
        let fs := mergeBase fs inh
        (extendSubtypes (lookAt map es i (.ok fs)) sub).bind fun sub =>
          (groupFields (lookAt map es i (.ok fs)) ag).bind fun gs => .ok (.mk n c (fs ++ gs) ag sub)

/-- The loop mod.rs:55-60 over the `k` entities from position `i` on; `es` are all entities, as they are now. -/
def extendAll (map : Str → Option Nat) : List RsEntity → Nat → Nat → Res (List RsEntity)
  | es, _, 0 => .ok es
  | es, i, k + 1 =>
    match es[i]? with
    | some (.struct s) => (extendTop map es i s).bind fun s => extendAll map (es.set i (.struct s)) (i + 1) k
    | _ => extendAll map es (i + 1) k

/-- mod.rs:44-62 -/
def extendFile (f : RsFile) : Res RsFile :=
  let all := f.types ++ f.attributeGroups
  (extendAll (typesMap all) all 0 f.types.length).bind fun es =>
    .ok { f with types := es.take f.types.length, attributeGroups := es.drop f.types.length }

/-- `parse` — mod.rs:35-63, from the root element of the document on (`Document::parse` is not modelled; a
document which is not well-formed XML panics). -/
def parseFile (U : UnicodeTable) (root : Node) : Res RsFile :=
  (parseSchema U root []).bind extendFile

end Verif.Model
