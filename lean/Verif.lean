import Verif.Props.Timezone
import Verif.Props.Gregorian
import Verif.Props.Duration
import Verif.Props.DurationFloat
import Verif.Props.Integers
import Verif.Props.DateTime
import Verif.Props.Serde
import Verif.Props.GenNames
import Verif.Props.Generator
import Verif.Lemmas.Parse
import Verif.Model.Extend
import Verif.Props.Parser
import Verif.Props.Extend
import Verif.Props.Wsdl
import Verif.Props.Cli
import Verif.Props.Decimal
import Verif.Props.Pipeline
import Verif.Props.Fields
import Verif.Props.Items
import Verif.Props.Traits
import Verif.Props.Size
import Verif.Props.Simple
import Verif.Props.Denote
import Verif.Props.Order
import Verif.Props.Checks
import Verif.Props.XmlNames
import Verif.Spec.XmlMembers
import Verif.Lemmas.XmlMembers
import Verif.Props.XmlMembers
import Verif.Lemmas.XmlEverywhere
import Verif.Props.XmlEverywhere
import Verif.Rust.Prim
import Verif.Model.Builtin
import Verif.Spec.Builtin
import Verif.Lemmas.Prim
import Verif.Lemmas.Builtin
import Verif.Lemmas.Builtin2
import Verif.Props.Builtin
import Verif.Spec.Values
import Verif.Lemmas.Values
import Verif.Props.Values
import Verif.Model.LibOrder
import Verif.Spec.Facets
import Verif.Props.Facets
import Verif.Model.Defaults
import Verif.Spec.Defaults
import Verif.Props.Defaults
import Verif.Props.Alike
import Verif.Props.Local
import Verif.Props.Service
import Verif.Spec.Writes
import Verif.Lemmas.Writes
import Verif.Props.Writes
import Verif.Spec.Prints
import Verif.Lemmas.Prints
import Verif.Props.Prints
import Verif.Props.Returns
import Verif.Spec.Closed
import Verif.Lemmas.Closed
import Verif.Props.Closed
import Verif.Model.Macros
import Verif.Spec.Macros
import Verif.Lemmas.Macros
import Verif.Props.Macros
import Verif.Spec.Expansion
import Verif.Props.Expansion
import Verif.Model.XmlEq
import Verif.Spec.XmlEq
import Verif.Props.XmlEq
import Verif.Props.Unions
import Verif.Spec.Respell
import Verif.Lemmas.Respell
import Verif.Lemmas.RespellParse
import Verif.Lemmas.RespellGen
import Verif.Props.Respell
import Verif.Spec.Characters
import Verif.Lemmas.Characters
import Verif.Lemmas.CharactersDoc
import Verif.Props.Characters
import Verif.Spec.Outline
import Verif.Spec.Headings
import Verif.Lemmas.Outline
import Verif.Lemmas.Outline2
import Verif.Lemmas.Headings
import Verif.Props.Outline
import Verif.Spec.Syntax
import Verif.Spec.WellNamed
import Verif.Lemmas.SynLex
import Verif.Lemmas.SynItems
import Verif.Lemmas.SynItems2
import Verif.Lemmas.SynUnique
import Verif.Lemmas.SynParse
import Verif.Lemmas.SynFile
import Verif.Lemmas.SynNames
import Verif.Props.Syntax
import Verif.Spec.ServiceSyntax
import Verif.Lemmas.SynService
import Verif.Props.ServiceSyntax
import Verif.Spec.Distinct
import Verif.Lemmas.Distinct
import Verif.Lemmas.DistinctDoc
import Verif.Lemmas.DefsUnique
import Verif.Lemmas.DistinctFile
import Verif.Props.Distinct
import Verif.Lemmas.Variants
import Verif.Props.Variants
import Verif.Props.DistinctFields
import Verif.Spec.Client
import Verif.Props.Client
import Verif.Props.ClientTypes
import Verif.Spec.Pieces
import Verif.Props.Pieces
import Verif.Spec.Ready
import Verif.Props.Ready
import Verif.Spec.Hidden
import Verif.Props.Hidden
import Verif.Props.OneType
import Verif.Props.HiddenInside
import Verif.Spec.Words
import Verif.Props.Words
import Verif.Props.Digits
import Verif.Props.Acronyms
import Verif.Props.ClientWords
import Verif.Props.VariantWords
