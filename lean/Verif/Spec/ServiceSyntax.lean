import Verif.Spec.WellNamed
import Verif.Spec.Service
import Verif.Spec.Document

/-!
# Specification: the syntax of service clients

The asynchronous functions among the items of The Rust Reference, and names of a service description which can stand in
them.
-/

namespace Verif.Spec.Syn

open Verif Verif.Model Verif.Model.Wsdl Verif.RoXml Verif.Spec Verif.Spec.Wsdl

/-- `n: &T` -/
inductive Param : List Tok → Prop where
  | mk {n t} : LegalIdent n → Ty t → Param (.word n :: pt ":" :: pt "&" :: t)

/-- `pub async fn n<G: B>(p, …) -> T { e.await }` -/
inductive AsyncFn : List Tok → Prop where
  | mk {n g b t e} {ps : List (List Tok)} : LegalIdent n → LegalIdent g → Path b → (∀ p ∈ ps, Param p) → Ty t → Operand e →
      AsyncFn (kw "pub" :: kw "async" :: kw "fn" :: .word n :: pt "<" :: .word g :: pt ":" :: b ++ pt ">" :: pt "(" :: commas ps ++
        pt ")" :: pt "->" :: t ++ pt "{" :: e ++ [pt ".", kw "await", pt "}"])

/-- The text is a sequence of items and asynchronous functions. -/
def IsClient (t : List Char) : Prop := ∃ ts, Lexed t ts ∧ Many (fun i => Item i ∨ AsyncFn i) ts

/-- The names in a service description are plain. -/
structure PlainService (U : UnicodeTable) (root : Node) : Prop where
  schemas : ∀ s ∈ embedded root, Grammatical s ∧ CopySafe s ∧ PlainNames U s
  operations : ∀ p ∈ kids root "portType", ∀ o ∈ kids p "operation", ∀ v, o.attr "name".toList = some v → PlainName v
  /-- the names of parts are not changed -/
  parts : ∀ m ∈ kids root "message", (kids m "part").length ≠ 1 → ∀ p ∈ kids m "part", ∀ v, p.attr "name".toList = some v →
    LegalIdent v
  refs : ∀ m ∈ kids root "message", ∀ p ∈ kids m "part", ∀ a ∈ ["element", "type"], ∀ v, p.attr a.toList = some v → PlainRef v

/-- The operation gives something back: the output message has an element in its first part. -/
inductive Answers (root : Node) : Operation → Prop where
  | mk {n i o fs m p ps t} : Refers root o (some m) → kids m "part" = p :: ps → p.attr "element".toList = some t →
      Answers root ⟨n, .requestResponse i o fs⟩

end Verif.Spec.Syn
