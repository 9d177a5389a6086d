import Verif.Model.Extend
import Verif.Model.Generator

/-! # Model of `process_single_file` of `xsd-parser-cli/src/main.rs`, between reading and writing -/

namespace Verif.Model

open Verif.RoXml

/-- xsd-parser-cli/src/main.rs:60-62, from the root element of the document on. -/
def convertXsd (U : UnicodeTable) (root : Node) : Res Str :=
  (parseFile U root).bind fun f => (generateRsFile U f).1

end Verif.Model
