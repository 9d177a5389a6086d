import Verif.Model.Wsdl
import Verif.Spec.Generator
import Mathlib.Data.List.Forall2

/-!
# Specification: web services

Only the data types of the model are used.  Tags are compared by their local names.
-/

namespace Verif.Spec.Wsdl

open Verif Verif.RoXml Verif.Model Verif.Model.Wsdl Verif.Spec

/-- The child elements. -/
def allKids (n : Node) : List Node := n.children.filter Node.isElement

/-- The child elements with this tag. -/
def kids (n : Node) (tag : String) : List Node := n.children.filter fun c => c.isElement && c.tag = tag.toList

/-! ## Operations -/

/-- Neither `input` nor `output`. -/
def Skipped (n : Node) : Prop := n.tag ≠ "input".toList ∧ n.tag ≠ "output".toList

/-- What an operation with these child elements is.  The first `input` or `output` decides; it has to be the
last element, or its counterpart has to follow at once. -/
inductive OpContent : List Node → OperationType → Prop where
  | oneWay {pre i} : (∀ n ∈ pre, Skipped n) → i.tag = "input".toList → OpContent (pre ++ [i]) (.oneWay i)
  | requestResponse {pre i o rest} : (∀ n ∈ pre, Skipped n) → i.tag = "input".toList → o.tag = "output".toList →
      OpContent (pre ++ i :: o :: rest) (.requestResponse i o (rest.filter fun n => n.tag = "fault".toList))
  | notification {pre o} : (∀ n ∈ pre, Skipped n) → o.tag = "output".toList → OpContent (pre ++ [o]) (.notification o)
  | solicitResponse {pre o i rest} : (∀ n ∈ pre, Skipped n) → o.tag = "output".toList → i.tag = "input".toList →
      OpContent (pre ++ o :: i :: rest) (.solicitResponse o i (rest.filter fun n => n.tag = "fault".toList))

/-! ## Documents -/

/-- The entries of a table: one for each of these elements, under the value of its attribute, all different. -/
def Table {α : Type} (attr : String) (R : Node → α → Prop) (ns : List Node) (es : List (List Char × α)) : Prop :=
  List.Forall₂ (fun n e => n.attr attr.toList = some e.1 ∧ R n e.2) ns es ∧ (es.map (·.1)).Nodup

def IsOperation (n : Node) (o : Operation) : Prop := o.node = n ∧ OpContent (allKids n) o.ty

def IsPortType (n : Node) (p : PortType) : Prop :=
  p.node = n ∧ List.Forall₂ IsOperation (kids n "operation") p.operations

def IsMessage (n : Node) (m : Message) : Prop := m.node = n ∧ m.parts = kids n "part"

/-- The last of these elements. -/
def last? (ns : List Node) : Option Node := ns.reverse.head?

def IsBindingOperation (n : Node) (o : BindingOperation) : Prop :=
  o.node = n ∧ o.input = last? (kids n "input") ∧ o.output = last? (kids n "output") ∧ o.faults = kids n "fault"

def IsBinding (n : Node) (b : Binding) : Prop :=
  b.node = n ∧ List.Forall₂ IsBindingOperation (kids n "operation") b.operations

/-- The document with this root. -/
structure IsDefinitions (root : Node) (d : Definitions) : Prop where
  node : d.node = root
  types : d.types = kids root "types"
  imports : Table "namespace" (fun n v => v = n) (kids root "import") d.imports
  messages : Table "name" IsMessage (kids root "message") d.messages
  portTypes : Table "name" IsPortType (kids root "portType") d.portTypes
  bindings : Table "name" IsBinding (kids root "binding") d.bindings

/-! ## Signatures -/

/-- The message which an `input` or `output` refers to: the one with the name after the last colon, if there
is one. -/
inductive Refers (root param : Node) : Option Node → Prop where
  | found {r name m} : param.attr "message".toList = some r → AfterLastColon r name → m ∈ kids root "message" →
      m.attr "name".toList = some name → Refers root param (some m)
  | missing {r name} : param.attr "message".toList = some r → AfterLastColon r name →
      (∀ m ∈ kids root "message", m.attr "name".toList ≠ some name) → Refers root param none

/-- A parameter: its name and the reference to its type. -/
abbrev Arg := List Char × List Char

/-- A part as a parameter: the element it holds, or else the type. -/
inductive PartArg (p : Node) : Arg → Prop where
  | element {n t} : p.attr "name".toList = some n → p.attr "element".toList = some t → PartArg p (n, t)
  | type {n t} : p.attr "name".toList = some n → p.attr "element".toList = none → p.attr "type".toList = some t →
      PartArg p (n, t)

/-- The parameters for an input message. -/
inductive Args : Option Node → List Arg → Prop where
  | none : Args none []
  | single {m p t} : kids m "part" = [p] → p.attr "element".toList = some t → Args (some m) [("request".toList, t)]
  | parts {m as} : (kids m "part").length ≠ 1 → List.Forall₂ PartArg (kids m "part") as → Args (some m) as

/-- The element returned with an output message: that of its first part. -/
inductive Returns : Option Node → Option (List Char) → Prop where
  | none : Returns none none
  | part {m p ps} : kids m "part" = p :: ps → Returns (some m) (p.attr "element".toList)

/-- The signature of the function for an operation. -/
structure Sig where
  name : List Char
  args : List Arg
  ret : Option (List Char)
  doc : Option (List Char)

/-- The text at the start of the first `documentation` which has one. -/
def IsDoc (n : Node) (doc : Option (List Char)) : Prop :=
  (∃ pre d post s rest, n.children = pre ++ d :: post ∧ d.tag = "documentation".toList ∧ d.children = .text s :: rest ∧
    doc = some s ∧ ∀ e ∈ pre, e.tag = "documentation".toList → ∀ s rest, e.children ≠ .text s :: rest) ∨
  (doc = none ∧ ∀ e ∈ n.children, e.tag = "documentation".toList → ∀ s rest, e.children ≠ .text s :: rest)

inductive Signature (root : Node) : Operation → Sig → Prop where
  | oneWay {n i m sig} : Refers root i m → Args m sig.args → sig.ret = none → n.attr "name".toList = some sig.name →
      IsDoc n sig.doc → Signature root ⟨n, .oneWay i⟩ sig
  | requestResponse {n i o fs m m' sig} : Refers root i m → Refers root o m' → Args m sig.args → Returns m' sig.ret →
      n.attr "name".toList = some sig.name → IsDoc n sig.doc → Signature root ⟨n, .requestResponse i o fs⟩ sig

/-! ## Reading functions -/

/-- A function as it is written: the comment in front, name, parameters, type of the result, lines of the body. -/
structure Fn where
  comment : List (List Char)
  name : List Char
  generics : List Char
  params : List (List Char × List Char)
  ret : List Char
  body : List (List Char)
  deriving DecidableEq, Repr

/-- Outside of functions after some comment lines, in a list of parameters, in a body. -/
inductive FnState where
  | out (comment : List (List Char))
  | params (f : Fn)
  | body (f : Fn)

/-- `name: &type` with a comma or not. -/
def readParam (l : List Char) : List Char × List Char :=
  let s := l.dropWhile (· = ' ')
  (s.takeWhile (· ≠ ':'), ((s.dropWhile (· ≠ ':')).drop 3).takeWhile (· ≠ ','))

def readFns : FnState → List (List Char) → List Fn
  | _, [] => []
  | .out c, l :: ls =>
    if isCommentLine l then readFns (.out (c ++ [l])) ls
    else
      match afterPrefix "pub async fn ".toList l with
      | some r =>
        readFns (.params
          ⟨c, r.takeWhile (· ≠ '<'), (((r.dropWhile (· ≠ '<')).drop 1).takeWhile (· ≠ '(')).dropLast, [], [], []⟩) ls
      | none => readFns (.out []) ls
  | .params f, l :: ls =>
    match afterPrefix ") -> Result<".toList l with
    | some r => readFns (.body { f with ret := r.takeWhile (· ≠ ',') }) ls
    | none => readFns (.params { f with params := f.params ++ [readParam l] }) ls
  | .body f, l :: ls =>
    if l = ['}'] then f :: readFns (.out []) ls
    else readFns (.body { f with body := f.body ++ [l.dropWhile (· = ' ')] }) ls

/-- The function has this signature; `nm`, `ty` say how names of functions and references to types are written. -/
def HasSig (nm ty : List Char → List Char) (sig : Sig) (f : Fn) : Prop :=
  f.name = nm sig.name ∧
  f.generics = "T: ".toList ++ ty "transport::Transport".toList ∧
  f.params = ("transport".toList, ty "T".toList) :: sig.args.map (fun a => (a.1, ty a.2)) ∧
  f.ret = ty (sig.ret.getD []) ∧
  f.body = ["transport::request(transport, request).await".toList] ∧
  ∃ per : List (List Char × List (List (List Char))),
    List.intercalate ['\n'] (per.map (·.1)) = sig.doc.getD [] ∧
    f.comment = per.flatMap (fun p => p.2.map (commentLine 0)) ∧
    ∀ p ∈ per, '\n' ∉ p.1 ∧ (Dropped p.1 → p.2 = []) ∧ (¬ Dropped p.1 → ∃ ws, Words p.1 ws ∧ Wrapped 80 0 ws p.2)

/-- Names of parts and references can be copied. -/
def SafeSig (sig : Sig) : Prop :=
  (∀ a ∈ sig.args, (∀ c ∈ a.1, c ∉ codeUnsafe ∧ c ≠ ':') ∧ PrefixSafe a.2) ∧ ∀ t, sig.ret = some t → PrefixSafe t

end Verif.Spec.Wsdl
