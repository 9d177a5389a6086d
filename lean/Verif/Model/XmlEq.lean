import Verif.Ext.XmlEvents
import Verif.Rust.Res

/-!
# `xsd-types/src/utils/xml_eq.rs`

The reader is xml-rs 0.8 with its default configuration (third party, not modelled): what is compared are the events which it
delivers for the two texts.
-/

namespace Verif.Model.XmlEq

open Verif

/-- `xml::name::OwnedName` -/
structure QName where
  prefix' : Option Str
  uri : Option Str
  name : Str
  deriving DecidableEq, Repr

/-- `xml::reader::XmlEvent`; the fields of the start of a document (version, encoding, standalone) are one text. -/
inductive Event where
  | startDocument (decl : Str)
  | endDocument
  | processingInstruction (name : Str) (data : Option Str)
  | startElement (name : QName) (attributes : List (QName × Str)) (namespaces : List (Str × Str))
  | endElement (name : QName)
  | cdata (s : Str)
  | comment (s : Str)
  | characters (s : Str)
  | whitespace (s : Str)
  deriving DecidableEq, Repr

/-- `Result<XmlEvent, XmlError>`; an error has its position and kind, here one text. -/
inductive Delivered where
  | event (e : Event)
  | error (e : Str)
  deriving DecidableEq, Repr

/-- The filter — xml_eq.rs:12 -/
def notWhitespace : Delivered → Bool
  | .event (.whitespace _) => false
  | _ => true

/-- `without_whitespaces` — xml_eq.rs:9-13 -/
def withoutWhitespaces (events : List Delivered) : List Delivered := events.filter notWhitespace

/-- The loop of `assert_xml_eq` — xml_eq.rs:4-6 -/
def assertAll : List (Delivered × Delivered) → Res Unit
  | [] => .ok ()
  | (a, e) :: r => if a = e then assertAll r else .panic

/-- `assert_xml_eq` — xml_eq.rs:3-7 -/
def assertXmlEq (actual expected : List Delivered) : Res Unit :=
  assertAll ((withoutWhitespaces actual).zip (withoutWhitespaces expected))

end Verif.Model.XmlEq
