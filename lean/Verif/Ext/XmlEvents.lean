import Verif.Rust.Str

/-!
# External: the event interface of xml-rs 0.8 / yaserde 0.7

Only what `xsd-types/src/utils/yaserde.rs` uses.  Attributes and namespaces of a start tag are not
modelled (the code neither reads nor writes them), nor are character escapes (xml-rs escapes on
writing and unescapes on reading).
-/

namespace Verif.Xml

open Verif

/-- An XML event, as written or as delivered by `peek`/`next_event`. -/
inductive Ev where
  /-- start tag -/
  | start (name : Str)
  /-- character data -/
  | chars (text : Str)
  /-- end tag -/
  | close
  /-- anything else -/
  | other
  deriving DecidableEq, Repr

/-- `yaserde::de::Deserializer`: the events to come; `none` is a read error.  At the end of the list
`peek` keeps returning something that is neither a start tag nor text. -/
abbrev Reader := List (Option Ev)

/-- `yaserde::ser::Serializer`: `accepts` says whether the underlying sink takes the next event, given
what was written before. -/
structure Writer where
  startEventName : Option Str
  skipStartEnd : Bool
  out : List Ev
  accepts : List Ev → Ev → Bool

/-- `Serializer::write` -/
def Writer.write (w : Writer) (e : Ev) : Option Writer :=
  if w.accepts w.out e then some { w with out := w.out ++ [e] } else none

/-- XML white space. -/
def isXmlSpace (c : Char) : Bool := c == ' ' || c == '\t' || c == '\n' || c == '\r'

/-- Trimming done by the reader (`ParserConfig::trim_whitespace(true)`, set by yaserde). -/
def trimXml (s : Str) : Str := ((s.dropWhile isXmlSpace).reverse.dropWhile isXmlSpace).reverse

/-- What a reader delivers for one written event: empty (after trimming) text gives no event. -/
def readEvent : Ev → Reader
  | .chars t => if trimXml t = [] then [] else [some (.chars (trimXml t))]
  | e => [some e]

/-- Reading back a written document in which no two text events are adjacent. -/
def readBack (es : List Ev) : Reader := es.flatMap readEvent

end Verif.Xml
