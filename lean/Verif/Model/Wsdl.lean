import Verif.Model.Extend
import Verif.Model.Generator

/-!
# Model of `wsdl-parser/src/parser/*.rs` and `wsdl-parser/src/generator/*.rs`

Wrappers around an XML node which hold nothing else (`Import`, `Types`, `Part`, `Param`, `Fault`) are the node
itself.  A `HashMap` is the list of its entries in the order of insertion; where the program walks over the
values of one, the order is a parameter, since the order of a Rust hash map is not determined.  The texts of
panics are not modelled.
-/

namespace Verif.Model.Wsdl

open Verif.RoXml

/-! ## parser/mod.rs -/

/-- parser/mod.rs:17-32 -/
inductive WsdlType where
  | binding | definitions | documentation | «import» | input | fault | message | operation | output | part
  | portType | types
  | unknownElement (name : Str)
  deriving DecidableEq, Repr

/-- parser/mod.rs:34-54; the namespace of the element plays no role. -/
def wsdlType (n : Node) : WsdlType :=
  if n.tag = "binding".toList then .binding
  else if n.tag = "definitions".toList then .definitions
  else if n.tag = "documentation".toList then .documentation
  else if n.tag = "import".toList then .import
  else if n.tag = "input".toList then .input
  else if n.tag = "fault".toList then .fault
  else if n.tag = "message".toList then .message
  else if n.tag = "operation".toList then .operation
  else if n.tag = "output".toList then .output
  else if n.tag = "part".toList then .part
  else if n.tag = "portType".toList then .portType
  else if n.tag = "types".toList then .types
  else .unknownElement n.tag

/-- `node.attribute(name).expect(..)` -/
def required (n : Node) (name : Str) : Res Str := Res.unwrap (n.attr name)

/-! ## parser/port_type.rs -/

/-- port_type.rs:110-116 -/
inductive OperationType where
  | requestResponse (input output : Node) (faults : List Node)
  | oneWay (input : Node)
  | solicitResponse (output input : Node) (faults : List Node)
  | notification (output : Node)

/-- port_type.rs:137-142, 157-162 -/
def faultsOf (ns : List Node) : List Node := ns.filter fun n => wsdlType n = .fault

/-- The loop of port_type.rs:122-171 over the element children which are left. -/
def operationTypeGo : List Node → Res OperationType
  | [] => .panic
  | ch :: rest =>
    if wsdlType ch = .input then
      match rest with
      | o :: more => if wsdlType o = .output then .ok (.requestResponse ch o (faultsOf more)) else .panic
      | [] => .ok (.oneWay ch)
    else if wsdlType ch = .output then
      match rest with
      | i :: more => if wsdlType i = .input then .ok (.solicitResponse ch i (faultsOf more)) else .panic
      | [] => .ok (.notification ch)
    else operationTypeGo rest

/-- `node.children().filter(|n| n.is_element())` -/
def elements (n : Node) : List Node := n.children.filter Node.isElement

/-- port_type.rs:119-172 -/
def operationType (n : Node) : Res OperationType := operationTypeGo (elements n)

/-- port_type.rs:76-80 -/
structure Operation where
  node : Node
  ty : OperationType

/-- port_type.rs:82-85 -/
def Operation.new (n : Node) : Res Operation := (operationType n).bind fun t => .ok ⟨n, t⟩

/-- port_type.rs:87-89 -/
def Operation.name (o : Operation) : Res Str := required o.node "name".toList

/-- port_type.rs:91-93 -/
def Operation.parameterOrder (o : Operation) : Option Str := o.node.attr "parameterOrder".toList

/-- port_type.rs:99-107 -/
def Operation.documentation (o : Operation) : Option Str :=
  o.node.children.findSome? fun n => if wsdlType n = .documentation then n.firstText else none

/-- port_type.rs:16-20 -/
structure PortType where
  node : Node
  operations : List Operation

/-- port_type.rs:22-37 -/
def PortType.new (n : Node) : Res PortType :=
  (Res.mapM' Operation.new (n.children.filter fun k => k.isElement ∧ wsdlType k = .operation)).bind fun ops =>
    .ok ⟨n, ops⟩

/-- port_type.rs:39-41 -/
def PortType.name (p : PortType) : Res Str := required p.node "name".toList

/-! ## parser/message.rs -/

/-- message.rs:27-30 -/
structure Message where
  node : Node
  parts : List Node

/-- message.rs:32-47 -/
def Message.new (n : Node) : Message := ⟨n, n.children.filter fun k => k.isElement ∧ wsdlType k = .part⟩

/-- message.rs:49-51 -/
def Message.name (m : Message) : Res Str := required m.node "name".toList

/-! ## parser/binding.rs -/

/-- binding.rs:36-42 -/
structure BindingOperation where
  node : Node
  input : Option Node
  output : Option Node
  faults : List Node

/-- One iteration of binding.rs:54-61. -/
def BindingOperation.add (o : BindingOperation) (ch : Node) : BindingOperation :=
  match wsdlType ch with
  | .input => { o with input := some ch }
  | .output => { o with output := some ch }
  | .fault => { o with faults := o.faults ++ [ch] }
  | _ => o

/-- binding.rs:49-63 -/
def BindingOperation.new (n : Node) : BindingOperation := (elements n).foldl BindingOperation.add ⟨n, none, none, []⟩

/-- binding.rs:5-9 -/
structure Binding where
  node : Node
  operations : List BindingOperation

/-- binding.rs:20-34 -/
def Binding.new (n : Node) : Binding :=
  ⟨n, (n.children.filter fun k => k.isElement ∧ wsdlType k = .operation).map BindingOperation.new⟩

/-- binding.rs:12-14 -/
def Binding.name (b : Binding) : Res Str := required b.node "name".toList

/-! ## parser/definitions.rs -/

/-- definitions.rs:37-46 -/
structure Definitions where
  node : Node
  imports : List (Str × Node)
  types : List Node
  messages : List (Str × Message)
  portTypes : List (Str × PortType)
  bindings : List (Str × Binding)

/-- `assert!(map.insert(key, value).is_none())` -/
def insertNew {α : Type} (map : List (Str × α)) (key : Str) (value : α) : Res (List (Str × α)) :=
  if map.any (fun e => e.1 = key) then .panic else .ok (map ++ [(key, value)])

/-- `map.get(key)` -/
def get {α : Type} (map : List (Str × α)) (key : Str) : Option α := (map.find? fun e => e.1 = key).map (·.2)

namespace Definitions

/-- definitions.rs:49-54 -/
def targetNs (d : Definitions) : Option Namespace := targetNamespace d.node

/-- definitions.rs:106-112 -/
def addImport (d : Definitions) (n : Node) : Res Definitions :=
  (required n "namespace".toList).bind fun k => (insertNew d.imports k n).bind fun m => .ok { d with imports := m }

/-- definitions.rs:114-120 -/
def addMessage (d : Definitions) (n : Node) : Res Definitions :=
  let v := Message.new n
  v.name.bind fun k => (insertNew d.messages k v).bind fun m => .ok { d with messages := m }

/-- definitions.rs:122-128 -/
def addPortType (d : Definitions) (n : Node) : Res Definitions :=
  (PortType.new n).bind fun v =>
    v.name.bind fun k => (insertNew d.portTypes k v).bind fun m => .ok { d with portTypes := m }

/-- definitions.rs:130-136 -/
def addBinding (d : Definitions) (n : Node) : Res Definitions :=
  let v := Binding.new n
  v.name.bind fun k => (insertNew d.bindings k v).bind fun m => .ok { d with bindings := m }

/-- One iteration of definitions.rs:93-102. -/
def addChild (d : Definitions) (ch : Node) : Res Definitions :=
  match wsdlType ch with
  | .import => d.addImport ch
  | .types => .ok { d with types := d.types ++ [ch] }
  | .message => d.addMessage ch
  | .portType => d.addPortType ch
  | .binding => d.addBinding ch
  | _ => .ok d

/-- The loop of definitions.rs:93-102. -/
def addAll (d : Definitions) : List Node → Res Definitions
  | [] => .ok d
  | ch :: rest => (d.addChild ch).bind fun d => d.addAll rest

/-- definitions.rs:84-104 -/
def new (root : Node) : Res Definitions := addAll ⟨root, [], [], [], [], []⟩ (elements root)

/-- definitions.rs:80-82, for an `input` or `output` node (port_type.rs:189-193 for `message()`). -/
def messageByParam (d : Definitions) (param : Node) : Res (Option Message) :=
  (required param "message".toList).bind fun r => .ok (get d.messages (lastSegment r))

end Definitions

/-- types.rs:22-24 -/
def schemas (types : Node) : List Node := types.children.filter fun n => n.isElement ∧ n.tag = "schema".toList

/-! ## generator/function.rs -/

/-- function.rs:22-26 -/
structure Param where
  name : Str
  typename : Str
  deriving DecidableEq, Repr

/-- function.rs:10 -/
def genericTransport : Param := ⟨"T".toList, "transport::Transport".toList⟩

/-- function.rs:11 -/
def argumentTransport : Param := ⟨"transport".toList, "T".toList⟩

/-- function.rs:28-38 -/
def Param.new (part : Node) : Res Param :=
  (required part "name".toList).bind fun n =>
    (Res.unwrap ((part.attr "element".toList).or (part.attr "type".toList))).bind fun t => .ok ⟨n, t⟩

/-- function.rs:13-20 -/
structure Function where
  genericParams : List Param
  arguments : List Param
  returnType : Str
  documentation : Option Str
  name : Str
  deriving DecidableEq, Repr

/-- function.rs:65-79 -/
def inputParams : Option Message → Res (List Param)
  | none => .ok [argumentTransport]
  | some m =>
    match m.parts with
    | [p] => (required p "element".toList).bind fun t => .ok [argumentTransport, ⟨"request".toList, t⟩]
    | ps => (Res.mapM' Param.new ps).bind fun l => .ok (argumentTransport :: l)

/-- function.rs:58 -/
def outputType : Option Message → Res Str
  | none => .ok []
  | some m =>
    match m.parts with
    | [] => .panic
    | p :: _ => .ok ((p.attr "element".toList).getD [])

/-- function.rs:44-53: the messages for input and output. -/
def operationMessages (d : Definitions) : OperationType → Res (Option Message × Option Message)
  | .requestResponse i o _ => (d.messageByParam i).bind fun a => (d.messageByParam o).bind fun b => .ok (a, b)
  | .oneWay i => (d.messageByParam i).bind fun a => .ok (a, none)
  | _ => .panic

/-- function.rs:40-63 -/
def Function.new (op : Operation) (d : Definitions) : Res Function :=
  (operationMessages d op.ty).bind fun ms =>
    (inputParams ms.1).bind fun args =>
      (outputType ms.2).bind fun r =>
        op.name.bind fun n => .ok ⟨[genericTransport], args, r, op.documentation, n⟩

/-! ## generator/mod.rs

`split_comment_line`, `default_format_comment`, `default_format_type`, `default_format_name`, `split_name`,
`filter_type_name`, `sanitize` and the list of keywords (generator/mod.rs:53-190) are the same text as in
`xsd-parser/src/generator/utils.rs` and `default.rs` up to `pub` and `&Option<Namespace>` for
`Option<&Namespace>`; the models of those are used. -/

/-- generator/mod.rs:22 -/
def requestFuncBody : Str := "transport::request(transport, request).await".toList

/-- generator/mod.rs:24-51 -/
def generateFunction (U : UnicodeTable) (f : Function) (tns : Option Namespace) : Str :=
  let ftype := fun t => defaultFormatType U t tns
  "\n".toList ++ defaultFormatComment f.documentation 80 0 ++ "pub async fn ".toList ++ defaultFormatName U f.name ++
    "<".toList ++ joinWith ", ".toList (f.genericParams.map fun p => p.name ++ ": ".toList ++ ftype p.typename) ++
    ">(\n    ".toList ++ joinWith ",\n    ".toList (f.arguments.map fun p => p.name ++ ": &".toList ++ ftype p.typename) ++
    "\n) -> Result<".toList ++ ftype f.returnType ++ ", transport::Error> {\n    ".toList ++ requestFuncBody ++
    "\n}\n".toList

/-- generator/mod.rs:10-20; `order` are the port types in the order in which the hash map yields them. -/
def generate (U : UnicodeTable) (d : Definitions) (order : List PortType) : Res Str :=
  (Res.mapM' (fun op => (Function.new op d).bind fun f => .ok (generateFunction U f d.targetNs))
    (order.flatMap PortType.operations)).bind fun ts => .ok ts.flatten

/-! ## wsdl-parser-cli/src/main.rs -/

/-- wsdl-parser-cli/src/main.rs:63-71: the code for a WSDL document with this root element.  The embedded
schemas are read with `parse_schema` alone, so the derivation step of `xsd_parser::parser::parse` is not
applied.  All schemas are parsed and generated before the functions. -/
def wsdlCode (U : UnicodeTable) (root : Node) (order : Definitions → List PortType) : Res Str :=
  (Definitions.new root).bind fun d =>
    (Res.mapM' (fun (s : Node × Node) =>
        (parseSchema U s.2 [s.1, root]).bind fun f => (generateRsFile U f).1)
      (d.types.flatMap fun t => (schemas t).map fun s => (t, s))).bind fun code =>
      (generate U d (order d)).bind fun fns => .ok (code ++ [fns]).flatten

end Verif.Model.Wsdl
