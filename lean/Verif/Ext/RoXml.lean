import Verif.Model.GenNames

/-!
# XML documents as `roxmltree` 0.19 presents them (third party – modelled from its documentation)

The XML parser itself is not modelled: a document is the tree it yields.  Comments and processing
instructions are one kind of node, which has neither a name nor children.
-/

namespace Verif.RoXml

open Verif.Model

/-- `roxmltree::Attribute`: namespace URI of a prefixed attribute, local name, value.  Namespace
declarations are not attributes. -/
structure Attr where
  uri : Option Str := none
  name : Str
  value : Str
  deriving DecidableEq, Repr

/-- `roxmltree::Node`; an element has its namespace URI, local name, attributes, the namespaces in scope and
all its child nodes. -/
inductive Node where
  | element (uri : Option Str) (tag : Str) (attrs : List Attr) (namespaces : List Namespace) (children : List Node)
  | text (s : Str)
  | other

namespace Node

/-- `Node::is_element` -/
def isElement : Node → Bool
  | .element .. => true
  | _ => false

/-- `Node::tag_name().name()`: empty for anything but an element. -/
def tag : Node → Str
  | .element _ t _ _ _ => t
  | _ => []

/-- `Node::attributes` -/
def attrs : Node → List Attr
  | .element _ _ a _ _ => a
  | _ => []

/-- `Node::namespaces` -/
def namespaces : Node → List Namespace
  | .element _ _ _ n _ => n
  | _ => []

/-- `Node::children` -/
def children : Node → List Node
  | .element _ _ _ _ c => c
  | _ => []

/-- `Node::attribute(name)`: the attribute of this name without a namespace. -/
def attr (n : Node) (name : Str) : Option Str :=
  (n.attrs.find? fun a => a.uri = none ∧ a.name = name).map (·.value)

/-- `Node::has_attribute(name)` -/
def hasAttribute (n : Node) (name : Str) : Bool := (n.attr name).isSome

/-- `Node::text` for an element: its first child if that is a text node. -/
def firstText (n : Node) : Option Str :=
  match n.children with
  | .text s :: _ => some s
  | _ => none

end Node
end Verif.RoXml
