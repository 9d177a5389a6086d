import Verif.Spec.Items

/-!
# Specification: the outline of the generated code

What a reader of the text sees of documentation: the comments, and the definitions, fields and cases they stand above.
Every line is looked at on its own.
-/

namespace Verif.Spec

open Verif Verif.Model

/-- What a line of the text tells. -/
inductive Mark where
  /-- a comment, with what comes after the slashes -/
  | comment (text : List Char)
  /-- the beginning of a definition -/
  | item (kind : DefKind) (name : List Char)
  /-- a field of a struct or a case of an enum -/
  | member (name : List Char)
  deriving DecidableEq, Repr

/-- A field starts with `pub`, a case ends with a comma. -/
def readMark (line : List Char) : Option Mark :=
  let l := trimLine line
  match afterPrefix "//".toList l with
  | some r => some (.comment (r.dropWhile (· = '/')))
  | none =>
    match readHead l with
    | some (k, n) => some (.item k n)
    | none =>
      match afterPrefix "pub ".toList l with
      | some r => some (.member (r.takeWhile (· ≠ ':')))
      | none =>
        if l.getLast? = some ',' then some (.member (l.takeWhile fun c => decide (c ≠ '(' ∧ c ≠ ','))) else none

/-- The outline of the text. -/
def HasOutline (t : List Char) (ms : List Mark) : Prop := ∃ ls, Lines t ls ∧ ls.filterMap readMark = ms

/-- The comments for a documentation: for each line of it the words, in order, wrapped. Lines without a word or with a
single one-byte word are left out. -/
def Explains (maxLen indent : Nat) (doc : Option (List Char)) (ms : List Mark) : Prop :=
  ∃ per : List (List Char × List (List (List Char))),
    List.intercalate ['\n'] (per.map (·.1)) = doc.getD [] ∧
    ms = per.flatMap (fun p => p.2.map fun g => .comment (g.flatMap (' ' :: ·))) ∧
    ∀ p ∈ per, '\n' ∉ p.1 ∧ (Dropped p.1 → p.2 = []) ∧ (¬ Dropped p.1 → ∃ ws, Words p.1 ws ∧ Wrapped maxLen indent ws p.2)

/-- The members of a definition: the documentation stands above each one; `name` is how they are written. -/
def memberMarks {α : Type} (docs : Option (List Char) → List Mark) (doc : α → Option (List Char)) (name : α → List Char)
    (xs : List α) : List Mark :=
  xs.flatMap fun x => docs (doc x) ++ [.member (name x)]

mutual
/-- The outline for an entity; `docs` are the comments for a documentation at an indentation. -/
def outlineOf (N : Naming) (docs : Nat → Option (List Char) → List Mark) : RsEntity → List Mark
  | .struct (.mk n c fs _ ss) =>
    docs 0 c ++ .item .struct (N.type n) :: memberMarks (docs 4) (·.comment) (fun f => N.name f.name) (written fs) ++
      if hasInner fs ss then .item .mod (N.name n) :: (outlineList N docs ss ++ outlineFields N docs fs) else []
  | .tupleStruct (.mk n c _ ss _ _) => docs 0 c ++ .item .struct (N.type n) :: outlineList N docs ss
  | .enum (.mk n cs c _ ss _) =>
    docs 0 c ++ .item .enum (N.type n) :: memberMarks (docs 4) (·.comment) (fun c => N.case c.name) cs ++
      .member "__Unknown__".toList :: outlineList N docs ss
  | .alias (.mk n o c _) =>
    if docs 0 c = [] then [.comment (" pub type ".toList ++ N.type n ++ " = ".toList ++ N.type o ++ ";".toList)]
    else docs 0 c ++ [.item .type (N.type n)]
  | .import i => [.comment ("use ".toList ++ i.location ++ "  ".toList ++ i.name ++ ";".toList)]
  | _ => []
def outlineList (N : Naming) (docs : Nat → Option (List Char) → List Mark) : List RsEntity → List Mark
  | [] => []
  | e :: es => outlineOf N docs e ++ outlineList N docs es
/-- What is defined inside the fields. -/
def outlineFields (N : Naming) (docs : Nat → Option (List Char) → List Mark) : List StructField → List Mark
  | [] => []
  | .mk _ _ _ ss _ _ :: fs => outlineList N docs ss ++ outlineFields N docs fs
end

end Verif.Spec
