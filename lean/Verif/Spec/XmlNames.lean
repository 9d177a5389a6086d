import Verif.Spec.Items
import Verif.Spec.Denote

/-!
# Specification: the names in XML documents

Which names the elements and attributes have in a document according to the schema, and which names the attributes of the
serialization macros (yaserde) in the code give them: a prefix stands for the namespace which is named for it at the type,
without a prefix it is the namespace named without one, if there is any; an attribute without a prefix has no namespace.
-/

namespace Verif.Spec

open Verif Verif.RoXml Verif.Model

/-- A name in a document: its namespace, if it has one, and its local name. -/
structure XmlName where
  uri : Option (List Char)
  name : List Char
  deriving DecidableEq, Repr

/-! ## In the schema -/

/-- The namespace which a prefix, or the lack of one, stands for. -/
inductive PrefixMeans (ns : List Namespace) : Option (List Char) → Option (List Char) → Prop where
  | declared {a} : a ∈ ns → a.uri ≠ [] → PrefixMeans ns a.name (some a.uri)
  | removed {a} : a ∈ ns → a.name = none → a.uri = [] → PrefixMeans ns none none
  | noDefault : (∀ a ∈ ns, a.name ≠ none) → PrefixMeans ns none none
  | xml : PrefixMeans ns (some "xml".toList) (some "http://www.w3.org/XML/1998/namespace".toList)

/-- A local declaration whose name is in the target namespace; `dflt` is the attribute of the schema with the default. -/
def Qualified (root c : Node) (dflt : String) : Prop :=
  c.attr "form".toList = some "qualified".toList ∨
    (c.attr "form".toList = none ∧ root.attr dflt.toList = some "qualified".toList)

/-- The name which the local element or attribute `c` has in documents. -/
inductive DeclaredName (root c : Node) (dflt : String) : XmlName → Prop where
  | qualified {nm} : c.attr "name".toList = some nm → Qualified root c dflt →
      DeclaredName root c dflt ⟨root.attr "targetNamespace".toList, nm⟩
  | unqualified {nm} : c.attr "name".toList = some nm → ¬ Qualified root c dflt → DeclaredName root c dflt ⟨none, nm⟩
  | ref {r o n u} : c.attr "name".toList = none → c.attr "ref".toList = some r → Ref o n r →
      PrefixMeans c.namespaces o u → DeclaredName root c dflt ⟨u, n⟩

/-- The name which the global element `c` has in documents. -/
inductive GlobalName (root c : Node) : XmlName → Prop where
  | mk {nm} : c.attr "name".toList = some nm → GlobalName root c ⟨root.attr "targetNamespace".toList, nm⟩

/-! ## In the code -/

/-- The attributes of a type name a namespace for a prefix, or for the lack of one. -/
inductive TypeNs (attrs : List (List Char)) : Option (List Char) → List Char → Prop where
  | withPrefix {pre q p uri} : '"' ∉ pre → '"' ∉ q → ':' ∉ p → '"' ∉ p → '"' ∉ uri →
      pre ++ yaserdeAttr [] [("prefix".toList, q), ("namespace".toList, p ++ ": ".toList ++ uri)] ∈ attrs →
      TypeNs attrs (some p) uri
  | bare {pre uri} : '"' ∉ pre → ' ' ∉ uri → '"' ∉ uri → pre ++ yaserdeAttr [] [("namespace".toList, uri)] ∈ attrs →
      TypeNs attrs none uri

/-- The attribute of a member of a type gives it this prefix and name. -/
def Renames (words : List (List Char)) (m : Member) (o : Option (List Char)) (n : List Char) : Prop :=
  '"' ∉ o.getD [] ∧ '"' ∉ n ∧ m.attr = some (nameAttr words none o n)

/-- The name of an element in documents which belongs to a field of the struct at `i`. -/
inductive ElementReads (i : Item) (m : Member) : XmlName → Prop where
  | named {o n uri} : Renames [] m o n → TypeNs i.attrs o uri → ElementReads i m ⟨some uri, n⟩
  | without {n} : Renames [] m none n → (∀ uri, ¬ TypeNs i.attrs none uri) → ElementReads i m ⟨none, n⟩

/-- The name of an attribute in documents which belongs to a field of the struct at `i`. -/
inductive AttributeReads (i : Item) (m : Member) : XmlName → Prop where
  | named {p n uri} : Renames ["attribute".toList] m (some p) n → TypeNs i.attrs (some p) uri →
      AttributeReads i m ⟨some uri, n⟩
  | without {n} : Renames ["attribute".toList] m none n → AttributeReads i m ⟨none, n⟩

/-- The name of an element in documents which belongs to a variant of the enum at `i`; a variant without attribute is
called as it is. -/
inductive VariantReads (i : Item) (m : Member) : XmlName → Prop where
  | field {x} : ElementReads i m x → VariantReads i m x
  | named {uri} : m.attr = none → TypeNs i.attrs none uri → VariantReads i m ⟨some uri, m.name⟩
  | without : m.attr = none → (∀ uri, ¬ TypeNs i.attrs none uri) → VariantReads i m ⟨none, m.name⟩

/-- The name which a document has if its only element is a value of the struct at `i`: as nothing else is said, that of
the type, in the namespace of the prefix of the type. -/
inductive RootReads (i : Item) : XmlName → Prop where
  | withPrefix {a p uri n} : i.attrs = [a, yaserdeAttr [] [("prefix".toList, p), ("namespace".toList, p ++ ": ".toList ++ uri)]] →
      ':' ∉ p → '"' ∉ p → '"' ∉ uri → readHead i.head = some (.struct, n) → RootReads i ⟨some uri, n⟩
  | bare {a uri n} : i.attrs = [a, yaserdeAttr [] [("namespace".toList, uri)]] → ' ' ∉ uri → '"' ∉ uri →
      readHead i.head = some (.struct, n) → RootReads i ⟨some uri, n⟩
  | without {a n} : i.attrs = [a, yaserdeAttr [] []] → readHead i.head = some (.struct, n) → RootReads i ⟨none, n⟩

/-- Words of a capital letter and at least one small letter, one after the other. -/
def CapitalWords (s : List Char) : Prop :=
  ∃ ws : List (List Char), ws ≠ [] ∧ s = ws.flatten ∧
    ∀ w ∈ ws, ∃ u l, w = u :: l ∧ asciiUpper u = true ∧ l ≠ [] ∧ ∀ c ∈ l, asciiLower c = true

/-! ## What the code says about a declaration -/

/-- The target namespace as the schema element declares it: with a prefix or as the default. -/
abbrev targetUri (tns : Option Namespace) : Option (List Char) := tns.map (·.uri)

/-- The name which the code gives to a local element of a sequence: always in the target namespace unless it has another
prefix; then nothing is known about it. -/
inductive SequenceName (tns : Option Namespace) (c : Node) : XmlName → Prop where
  | named {nm} : c.attr "name".toList = some nm → SequenceName tns c ⟨targetUri tns, nm⟩
  | bare {n} : c.attr "name".toList = none → c.attr "ref".toList = some n → ':' ∉ n → SequenceName tns c ⟨targetUri tns, n⟩
  | ref {r p n uri} : c.attr "name".toList = none → c.attr "ref".toList = some r → Ref (some p) n r →
      tns = some ⟨some p, uri⟩ → SequenceName tns c ⟨some uri, n⟩

/-- The name which the code gives to a local attribute. -/
inductive AttributeName (tns : Option Namespace) (c : Node) : XmlName → Prop where
  | named {nm} : c.attr "name".toList = some nm → AttributeName tns c ⟨none, nm⟩
  | bare {n} : c.attr "name".toList = none → c.attr "ref".toList = some n → ':' ∉ n → AttributeName tns c ⟨none, n⟩
  | ref {r p n uri} : c.attr "name".toList = none → c.attr "ref".toList = some r → Ref (some p) n r →
      tns = some ⟨some p, uri⟩ → AttributeName tns c ⟨some uri, n⟩

/-- The target namespace if it is the default namespace. -/
def defaultUri : Option Namespace → Option (List Char)
  | some ⟨none, uri⟩ => some uri
  | _ => none

/-- The name which the code gives to an element of a choice. -/
inductive ChoiceName (tns : Option Namespace) (c : Node) : XmlName → Prop where
  | named {nm} : c.attr "ref".toList = none → c.attr "name".toList = some nm → ChoiceName tns c ⟨defaultUri tns, nm⟩
  | bare {n} : c.attr "ref".toList = some n → ':' ∉ n → ChoiceName tns c ⟨defaultUri tns, n⟩
  | ref {r p n uri} : c.attr "ref".toList = some r → Ref (some p) n r → tns = some ⟨some p, uri⟩ →
      ChoiceName tns c ⟨some uri, n⟩

/-- What well-formed documents with proper URIs satisfy: no colon in prefixes and in declared names, no spaces in URIs. -/
structure ProperNames (root : Node) : Prop where
  prefixes : ∀ a ∈ root.namespaces, ∀ p, a.name = some p → ':' ∉ p
  uris : ∀ a ∈ root.namespaces, ' ' ∉ a.uri
  names : ∀ n nm, PartOf root n → n.attr "name".toList = some nm → ':' ∉ nm

end Verif.Spec
