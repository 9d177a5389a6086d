import Verif.Spec.Denote

/-!
# Specification: another prefix for XML Schema

Which prefix a document declares for the namespace of XML Schema, or whether it makes it the default namespace, is up to its
author.
-/

namespace Verif.Spec

open Verif Verif.RoXml Verif.Model

/-- The name with a prefix, or with none in the default namespace. -/
def spell : Option (List Char) → List Char → List Char
  | some p, n => p ++ ':' :: n
  | none, n => n

/-- The name with the prefix `p'` if it has the prefix `p`. -/
def respellName : Option (List Char) → Option (List Char) → List Char → List Char
  | some p, p', v => if (p ++ [':']).isPrefixOf v then spell p' (v.drop (p.length + 1)) else v
  | none, p', v => if ':' ∈ v ∨ v = [] then v else spell p' v

/-- The same for each of the names which are separated by blanks. -/
def respellNames (p p' : Option (List Char)) (v : List Char) : List Char :=
  [' '].intercalate ((Str.splitOn ' ' v).map (respellName p p'))

/-- Attributes which refer to types get the new prefix. -/
def respellAttr (p p' : Option (List Char)) (a : Attr) : Attr :=
  if a.uri = none ∧ a.name ∈ ["type", "base", "itemType"].map String.toList then { a with value := respellName p p' a.value }
  else if a.uri = none ∧ a.name = "memberTypes".toList then { a with value := respellNames p p' a.value }
  else a

/-- The declaration of the prefix `p` becomes one of `p'`. -/
def respellNs (p p' : Option (List Char)) (a : Namespace) : Namespace := if a.name = p then { a with name := p' } else a

mutual
/-- The document with the prefix `p'` instead of `p`. -/
def respell (p p' : Option (List Char)) : Node → Node
  | .element u t as ns cs => .element u t (as.map (respellAttr p p')) (ns.map (respellNs p p')) (respellAll p p' cs)
  | n => n
def respellAll (p p' : Option (List Char)) : List Node → List Node
  | [] => []
  | c :: cs => respell p p' c :: respellAll p p' cs
end

/-- XML Schema's namespace. -/
def xsdNamespaceUri : List Char := "http://www.w3.org/2001/XMLSchema".toList

/-- A type of the published table, or the one which the table lacks. -/
def IsBuiltIn (n : List Char) : Prop := ∃ r ∈ readmeTable ++ undocumentedTable, n = r.1.toList

/-- A reference to a type: with the prefix `p` only to a built-in type; `p'` is not used. -/
def ProperRef (p p' : Option (List Char)) (v : List Char) : Prop := (∀ n, Ref p n v → IsBuiltIn n) ∧ ∀ n, ¬ Ref p' n v

/-- The document uses `p` for XML Schema, and `p'` not at all. -/
structure Respellable (root : Node) (p p' : Option (List Char)) : Prop where
  xsd : ∃ a, XsdNs root (some a) ∧ a.name = p
  unique : ∀ a ∈ root.namespaces, a.name = p → a.uri = xsdNamespaceUri
  /-- what becomes the default namespace has no other prefix -/
  single : p' = none → ∀ a ∈ root.namespaces, a.uri = xsdNamespaceUri → a.name = p
  fresh : ∀ a ∈ root.namespaces, a.name ≠ p'
  /-- the schema is not that of XML Schema itself -/
  target : root.attr "targetNamespace".toList ≠ some xsdNamespaceUri
  prefixes : ∀ q, p = some q ∨ p' = some q → ':' ∉ q ∧ ' ' ∉ q
  names : ∀ n v, PartOf root n → n.attr "name".toList = some v → ':' ∉ v
  /-- nothing is called like a built-in type if these have no prefix, and neither is the type made for a member -/
  taken : ∀ n v, PartOf root n → n.attr "name".toList = some v → p = none ∨ p' = none →
    ¬ IsBuiltIn v ∧ ¬ IsBuiltIn (v ++ "Type".toList)
  refs : ∀ n v, PartOf root n → n.attr "ref".toList = some v → ∀ l, ¬ Ref p l v ∧ ¬ Ref p' l v
  types : ∀ n a v, PartOf root n → a ∈ ["type", "base", "itemType"] → n.attr a.toList = some v → ProperRef p p' v
  memberTypes : ∀ n v ws w, PartOf root n → n.attr "memberTypes".toList = some v → SpaceSeparated v ws → w ∈ ws →
    ProperRef p p' w

end Verif.Spec
