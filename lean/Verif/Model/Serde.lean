import Verif.Ext.XmlEvents
import Verif.Ext.ChronoDate

/-!
# XML (de)serialisation helpers

`xsd-types/src/utils/yaserde.rs` and the implementations which the derive macros of
`xsd-macro-utils` (`UtilsDefaultSerde`, `UtilsTupleIo`, `UtilsUnionSerDe`) generate.
-/

namespace Verif.Model

open Verif Xml

/-! ## xsd-types/src/utils/yaserde.rs -/

/-- `serialize` — /repo/xsd-types/src/utils/yaserde.rs:5-29; the writer as left behind is returned
also on failure. -/
def yaSerialize {S : Type} (x : S) (defaultName : Str) (serFn : S → Str) (w : Writer) : Res Unit × Writer :=
  let name := w.startEventName.getD defaultName                                 -- 11
  match (if w.skipStartEnd then some w else w.write (.start name)) with         -- 13-17
  | none => (.err, w)
  | some w =>
    match w.write (.chars (serFn x)) with                                       -- 19-21
    | none => (.err, w)
    | some w =>
      match (if w.skipStartEnd then some w else w.write .close) with            -- 23-27
      | none => (.err, w)
      | some w => (.ok (), w)                                                   -- 29

/-- `deserialize` — yaserde.rs:32-47; returns the reader as left behind. -/
def yaDeserialize {S : Type} (deFn : Str → Res S) (r : Reader) : Res S × Reader :=
  match r with
  | some (.start _) :: r' =>                                                    -- 36-37
    match r' with
    | some (.chars t) :: _ => (deFn t, r')                                      -- 42-43
    | _ => (deFn [], r')                                                        -- 44-46
  | _ => (.err, r)                                                              -- 38-40

/-! ## xsd-macro-utils/src/lib.rs: `default_serde` -/

/-- `serialize` generated by `UtilsDefaultSerde` — lib.rs:24-33 -/
def defaultSerialize {S : Type} (structName : Str) (toStr : S → Str) (x : S) (w : Writer) : Res Unit × Writer :=
  yaSerialize x structName toStr w

/-- `deserialize` generated by `UtilsDefaultSerde` — lib.rs:51-58 -/
def defaultDeserialize {S : Type} (fromStr : Str → Res S) (r : Reader) : Res S × Reader :=
  yaDeserialize fromStr r

/-! ## xsd-macro-utils/src/tuple.rs -/

/-- A `syn::Path`: the segments before the last one (the macro copies them, but does not look at them),
identifier of the last segment and the last generic argument of that segment, if it is a path. -/
inductive RPath where
  | mk (quals : List Str) (ident : Str) (arg : Option RPath)

/-- `enum Type` — tuple.rs:5-10 -/
inductive TupTy where
  | simple (p : RPath)
  | string (p : RPath)
  | struct (p : RPath)
  | vec (p : RPath)

/-- The identifiers matched on tuple.rs:86-87 -/
def simpleIdents : List Str :=
  ["bool", "i8", "u8", "i16", "u16", "i32", "u32", "i64", "u64", "f32", "f64"].map String.toList

/-- `Type::from_path` — tuple.rs:84-96; a `Vec` without type argument panics (at compile time of the
generated code). -/
def TupTy.fromPath : RPath → Res TupTy
  | .mk quals ident arg =>
    if ident ∈ simpleIdents then .ok (.simple (.mk quals ident arg))
    else if ident = "String".toList then .ok (.string (.mk quals ident arg))
    else if ident = "Vec".toList then
      match arg with
      | some sub => .ok (.vec sub)
      | none => .panic
    else .ok (.struct (.mk quals ident arg))

/-- `FromStr`/`Display` of the types a generated struct refers to. -/
structure TypeEnv (V : Type) where
  fromStr : RPath → Str → Res V
  toStr : RPath → V → Str

/-- The single field of a tuple struct. -/
inductive TupVal (V : Type) where
  | text (s : Str)
  | one (v : V)
  | many (vs : List V)

/-- `str::split_whitespace` (std): pieces between white-space characters, empty ones dropped. -/
def splitPieces : Str → List Str
  | [] => [[]]
  | c :: cs =>
    if Chrono.isWhitespace c then [] :: splitPieces cs
    else
      match splitPieces cs with
      | [] => [[c]]
      | p :: ps => (c :: p) :: ps
def splitWhitespace (s : Str) : List Str := (splitPieces s).filter (· ≠ [])

/-- `.filter_map(|s| f(s).ok()).collect()` -/
def filterMapOk {V : Type} (f : Str → Res V) : List Str → Res (List V)
  | [] => .ok []
  | s :: ss =>
    match f s with
    | .ok v => (filterMapOk f ss).bind fun vs => .ok (v :: vs)
    | .err => filterMapOk f ss
    | .panic => .panic

/-- The generated `from_str` — tuple.rs:22-49.  The outer `Res` is the macro expansion: `err` is a
compile error, `panic` a panic of the macro. -/
def tupleFromStr {V : Type} (E : TypeEnv V) (field : RPath) : Res (Str → Res (TupVal V)) :=
  (TupTy.fromPath field).bind fun t =>
  match t with
  | .string _ => .ok fun s => .ok (.text s)                                     -- 24
  | .struct ty => .ok fun s => (E.fromStr ty s).bind fun v => .ok (.one v)      -- 25-27
  | .simple ty => .ok fun s => (E.fromStr ty s).bind fun v => .ok (.one v)
  | .vec sub =>                                                                 -- 28-35
    (TupTy.fromPath sub).bind fun t =>
    match t with
    | .vec _ => .err
    | .string p | .struct p | .simple p =>
      .ok fun s => (filterMapOk (E.fromStr p) (splitWhitespace s)).bind fun vs => .ok (.many vs)

/-- The loop of the generated `Display` for a list — tuple.rs:58-64 -/
def joinDisplay {V : Type} (toStr : V → Str) : List V → Str
  | [] => []
  | v :: vs => toStr v ++ vs.flatMap fun v => ' ' :: toStr v

/-- The generated `Display` — tuple.rs:51-81 -/
def tupleToStr {V : Type} (E : TypeEnv V) (field : RPath) : Res (TupVal V → Option Str) :=
  (TupTy.fromPath field).bind fun t =>
  match t with
  | .string _ => .ok fun
    | .text s => some s
    | _ => none
  | .struct ty | .simple ty => .ok fun
    | .one v => some (E.toStr ty v)
    | _ => none
  | .vec sub =>
    (TupTy.fromPath sub).bind fun t =>
    match t with
    | .vec _ => .err
    | .string p | .struct p | .simple p => .ok fun
      | .many vs => some (joinDisplay (E.toStr p) vs)
      | _ => none

/-! ## xsd-macro-utils/src/union.rs -/

/-- A variant of a union enum: identifier and (optional) type of its first unnamed field; `none` when
the variant has no unnamed field. -/
structure Variant where
  ident : Str
  ty : Option RPath

/-- A value of the generated union enum. -/
inductive UnionVal (V : Type) where
  /-- the variant at this position among the declared variants -/
  | case (ident : Str) (v : V)
  | unknown (s : Str)
  deriving DecidableEq

/-- `variants` — union.rs:8-41: `__Unknown__` left out; a variant without unnamed field is a compile
error. -/
def unionVariants : List Variant → Option (List (Str × RPath))
  | [] => some []
  | v :: vs =>
    if v.ident = "__Unknown__".toList then unionVariants vs
    else
      match v.ty with
      | none => none
      | some ty => (unionVariants vs).map fun r => (v.ident, ty) :: r

/-- `de_variants` followed by `Ok(__Unknown__(s))` — union.rs:52-61, 97-98 -/
def unionParse {V : Type} (E : TypeEnv V) : List (Str × RPath) → Str → Res (UnionVal V)
  | [], s => .ok (.unknown s)
  | (ident, ty) :: vs, s =>
    match E.fromStr ty s with
    | .ok de => .ok (.case ident de)
    | .err => unionParse E vs s
    | .panic => .panic

/-- The `match` of the generated `serialize` — union.rs:43-50, 70-73: the arm of the value's variant. -/
def unionText {V : Type} (E : TypeEnv V) : List (Str × RPath) → UnionVal V → Option Str
  | _, .unknown _ => some []
  | [], .case _ _ => none
  | (ident, ty) :: vs, .case i v =>
    if i = ident then some (E.toStr ty v) else unionText E vs (.case i v)

/-- generated `deserialize` — union.rs:93-100 -/
def unionDeserialize {V : Type} (E : TypeEnv V) (vs : List (Str × RPath)) (r : Reader) : Res (UnionVal V) × Reader :=
  yaDeserialize (unionParse E vs) r

/-- generated `serialize` — union.rs:65-75 (for a value of a declared variant) -/
def unionSerialize {V : Type} (E : TypeEnv V) (vs : List (Str × RPath)) (structName : Str) (x : UnionVal V)
    (w : Writer) : Res Unit × Writer :=
  yaSerialize x structName (fun x => (unionText E vs x).getD []) w

end Verif.Model
