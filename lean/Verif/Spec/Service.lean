import Verif.Spec.Alike
import Verif.Spec.Wsdl

/-!
# Specification: service descriptions which say the same

What of a WSDL document is meant to have an influence on the generated client: the embedded schemas, the parts of the
messages, and the operations of the port types with their messages.  Bindings, services, imports, faults, the order of the
declarations and elements of other namespaces are not.
-/

namespace Verif.Spec.Wsdl

open Verif Verif.RoXml Verif.Spec

/-- Parts with the same name and type. -/
def SamePart (p p' : Node) : Prop := ∀ a ∈ ["name", "element", "type"], p.attr a.toList = p'.attr a.toList

/-- Children of operations which stand for the same; of faults and other elements only the tag counts. -/
def SameParam (p p' : Node) : Prop :=
  p.tag = p'.tag ∧ (p.tag ∈ ["input".toList, "output".toList] → p.attr "message".toList = p'.attr "message".toList)

/-- Operations which say the same. -/
structure SameOperation (o o' : Node) : Prop where
  name : o.attr "name".toList = o'.attr "name".toList
  doc : ∀ d, IsDoc o d ↔ IsDoc o' d
  kids : List.Forall₂ SameParam (allKids o) (allKids o')

def SameMessage (m m' : Node) : Prop := List.Forall₂ SamePart (kids m "part") (kids m' "part")

def SamePortType (p p' : Node) : Prop := List.Forall₂ SameOperation (kids p "operation") (kids p' "operation")

/-- The embedded schemas. -/
def embedded (root : Node) : List Node := (kids root "types").flatMap (kids · "schema")

/-- Documents which describe the same service. -/
structure SameService (a b : Node) : Prop where
  target : a.attr "targetNamespace".toList = b.attr "targetNamespace".toList
  namespaces : a.namespaces = b.namespaces
  schemas : List.Forall₂ SameDocument (embedded a) (embedded b)
  names : ∀ nm, (∃ m ∈ kids a "message", m.attr "name".toList = some nm) ↔ ∃ m ∈ kids b "message", m.attr "name".toList = some nm
  messages : ∀ m ∈ kids a "message", ∀ m' ∈ kids b "message", m.attr "name".toList = m'.attr "name".toList → SameMessage m m'
  portTypes : ∀ p ∈ kids a "portType", ∀ p' ∈ kids b "portType", p.attr "name".toList = p'.attr "name".toList → SamePortType p p'

/-- The document with only its schemas, messages and port types. -/
def essence : Node → Node
  | .element u t as ns cs => .element u t as ns (cs.filter fun c => c.isElement && ["types", "message", "portType"].any fun t => decide (c.tag = t.toList))
  | n => n

end Verif.Spec.Wsdl
