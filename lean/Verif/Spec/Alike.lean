import Verif.Spec.Schema

/-!
# Specification: documents which say the same

What of a schema document is meant to have an influence on the generated code: the elements, some of their attributes, the
documentation and the declared namespaces.  Comments, processing instructions, white space between elements, the order of
attributes, attributes and annotations for other programs are not.
-/

namespace Verif.Spec

open Verif Verif.RoXml

/-- The attributes with a meaning for the generated code. -/
def meaningfulAttrs : List String :=
  ["name", "type", "ref", "value", "base", "use", "minOccurs", "maxOccurs", "itemType", "memberTypes", "namespace",
   "schemaLocation", "targetNamespace"]

mutual
/-- Elements which say the same. -/
inductive Alike : Node → Node → Prop where
  | annotation {u u' as as' ns ns' cs cs'} :
      Alike (.element u "annotation".toList as ns cs) (.element u' "annotation".toList as' ns' cs')
  | element {u u' t as as' ns ns' cs cs'} :
      (∀ a ∈ meaningfulAttrs, (Node.element u t as ns cs).attr a.toList = (Node.element u' t as' ns' cs').attr a.toList) →
      docOf (.element u t as ns cs) = docOf (.element u' t as' ns' cs') → AlikeKids cs cs' →
      Alike (.element u t as ns cs) (.element u' t as' ns' cs')
/-- Contents which say the same. -/
inductive AlikeKids : List Node → List Node → Prop where
  | nil : AlikeKids [] []
  | left {c cs cs'} : c.isElement = false → AlikeKids cs cs' → AlikeKids (c :: cs) cs'
  | right {c cs cs'} : c.isElement = false → AlikeKids cs cs' → AlikeKids cs (c :: cs')
  | both {c c' cs cs'} : Alike c c' → AlikeKids cs cs' → AlikeKids (c :: cs) (c' :: cs')
end

/-- Schemas which say the same: the root elements do, and declare the same namespaces. -/
def SameDocument (a b : Node) : Prop := a.tag = "schema".toList ∧ Alike a b ∧ a.namespaces = b.namespaces

mutual
/-- The document without comments, processing instructions and text, except for what is inside annotations. -/
def bare : Node → Node
  | .element u t as ns cs => if t = "annotation".toList then .element u t as ns cs else .element u t as ns (bareKids cs)
  | n => n
def bareKids : List Node → List Node
  | [] => []
  | c :: cs => if c.isElement then bare c :: bareKids cs else bareKids cs
end

end Verif.Spec
