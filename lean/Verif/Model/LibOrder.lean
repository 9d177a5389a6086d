import Verif.Model.Builtin
import Verif.Model.Order

/-!
# `PartialOrd` and `len` of the Rust types which stand for the built-in types

What the generated checks (/repo/xsd-parser/src/generator/validator.rs:53-140) use of these types.  Left out are the orders of
texts, truth values, doubles and durations (for the latter see `Duration.partialCmp`).
-/

namespace Verif.Model

open Verif

/-- Integer type and its `partial_cmp`. -/
def intOrders : List (String × (Int → Int → Option Ordering)) :=
  [("i64", fun a b => some (compare a b)), ("i32", fun a b => some (compare a b)), ("i16", fun a b => some (compare a b)),
   ("i8", fun a b => some (compare a b)),
   ("u64", fun a b => some (compare a.toNat b.toNat)), ("u32", fun a b => some (compare a.toNat b.toNat)),
   ("u16", fun a b => some (compare a.toNat b.toNat)), ("u8", fun a b => some (compare a.toNat b.toNat)),
   ("xs::Integer", fun a b => Integer.partialCmp ⟨a⟩ ⟨b⟩),
   ("xs::NonNegativeInteger", fun a b => NonNegativeInteger.partialCmp ⟨a.toNat⟩ ⟨b.toNat⟩),
   ("xs::PositiveInteger", fun a b => PositiveInteger.partialCmp ⟨a.toNat⟩ ⟨b.toNat⟩),
   ("xs::NonPositiveInteger", fun a b => NonPositiveInteger.partialCmp ⟨a⟩ ⟨b⟩),
   ("xs::NegativeInteger", fun a b => NegativeInteger.partialCmp ⟨a⟩ ⟨b⟩)]

/-- `<ty as PartialOrd>::partial_cmp`; nothing for values of other types. -/
def libPartialCmp (ty : Str) : LibVal → LibVal → Option (Option Ordering)
  | .int a, .int b => (intOrders.find? fun r => r.1.toList = ty).map fun r => r.2 a b
  | .dec a, .dec b => if ty = "xs::Decimal".toList then some (a.partialCmp b) else none
  | .dateTime a, .dateTime b => if ty = "xs::DateTime".toList then some (a.partialCmp b) else none
  | .stamp a, .stamp b => if ty = "xs::DateTimeStamp".toList then some (a.partialCmp b) else none
  | _, _ => none

end Verif.Model
