import Verif.Spec.Service

/-! # Specification: the pieces of the code of a client -/

namespace Verif.Spec.Wsdl

open Verif Verif.RoXml Verif.Spec Verif.Model Verif.Model.Wsdl

/-- The code of a schema of a description. -/
def SchemaCode (U : UnicodeTable) (s : Node) (p : List Char) : Prop := ∃ f, parseSchema U s [] = .ok f ∧ (generateRsFile U f).1 = .ok p

/-- The code of schemas, one after the other. -/
inductive SchemasCode (U : UnicodeTable) : List Node → List Char → Prop where
  | nil : SchemasCode U [] []
  | cons {s ss p q} : SchemaCode U s p → SchemasCode U ss q → SchemasCode U (s :: ss) (p ++ q)

/-- The input or the output of an operation for which there is a function. -/
inductive ParamOf : Operation → Node → Prop where
  | oneWay {n i} : ParamOf ⟨n, .oneWay i⟩ i
  | input {n i o fs} : ParamOf ⟨n, .requestResponse i o fs⟩ i
  | output {n i o fs} : ParamOf ⟨n, .requestResponse i o fs⟩ o

/-- The parameter refers to a message of this name. -/
def RefersToName (i : Node) (nm : List Char) : Prop := ∃ r, i.attr "message".toList = some r ∧ AfterLastColon r nm

end Verif.Spec.Wsdl
