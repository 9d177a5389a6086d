import Verif.Model.XmlEq

/-! # Specification: the same XML up to white space -/

namespace Verif.Spec

open Verif.Model.XmlEq

/-- The same events, once those for white space are left out of both. -/
inductive SameEvents : List Delivered → List Delivered → Prop where
  | nil : SameEvents [] []
  | left {s xs ys} : SameEvents xs ys → SameEvents (.event (.whitespace s) :: xs) ys
  | right {s xs ys} : SameEvents xs ys → SameEvents xs (.event (.whitespace s) :: ys)
  | both {x xs ys} : SameEvents xs ys → SameEvents (x :: xs) (x :: ys)

/-- Nothing comes after the end of the document or after an error. -/
def Final : Delivered → Prop
  | .event .endDocument => True
  | .error _ => True
  | _ => False

/-- What a reader delivers: up to the end of the document or the first error, and nothing more. -/
def FullStream (xs : List Delivered) : Prop :=
  ∃ ys z, xs = ys ++ [z] ∧ Final z ∧ ∀ y ∈ ys, ¬ Final y

/-! ## Documents -/

/-- A node of a document: an element with its content, a text, a section of character data, an instruction. -/
inductive XNode where
  | element (name : QName) (attributes : List (QName × List Char)) (namespaces : List (List Char × List Char))
      (content : List XNode)
  | text (s : List Char)
  | cdata (s : List Char)
  | instruction (name : List Char) (data : Option (List Char))

/-- White space of XML. -/
def allBlank (s : List Char) : Bool := s.all fun c => c == ' ' || c == '\t' || c == '\n' || c == '\r'

mutual
  /-- The events of a node. -/
  def nodeEvents : XNode → List Event
    | .element n as ns c => .startElement n as ns :: (nodesEvents c ++ [.endElement n])
    | .text s => [if allBlank s then .whitespace s else .characters s]
    | .cdata s => [.cdata s]
    | .instruction n d => [.processingInstruction n d]
  /-- The events of nodes one after the other. -/
  def nodesEvents : List XNode → List Event
    | [] => []
    | n :: ns => nodeEvents n ++ nodesEvents ns
end

/-- The events of a document. -/
def documentEvents (decl : List Char) (nodes : List XNode) : List Delivered :=
  (Event.startDocument decl :: (nodesEvents nodes ++ [.endDocument])).map .event

mutual
  /-- The node without the texts inside it which are white space. -/
  def stripNode : XNode → XNode
    | .element n as ns c => .element n as ns (stripNodes c)
    | .text s => .text s
    | .cdata s => .cdata s
    | .instruction n d => .instruction n d
  /-- The nodes without the texts which are white space. -/
  def stripNodes : List XNode → List XNode
    | [] => []
    | .text s :: ns => if allBlank s then stripNodes ns else .text s :: stripNodes ns
    | n :: ns => stripNode n :: stripNodes ns
end

end Verif.Spec
