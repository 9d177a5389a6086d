import Verif.Rust.Res
import Verif.Rust.Str
import Mathlib.Data.List.Infix

/-!
# Model of `xsd-parser-cli/src/main.rs` and `wsdl-parser-cli/src/main.rs`

The two programs are the same apart from the default paths and from what they do with the text of a file, which is
a parameter here (`conv`: the UTF-8 check of `read_to_string`, the parser and the generator).

The file system is a map from paths to files and directories; there are no links, permissions or other kinds of
entries, and nobody else changes it.  A run is the list of the changes it makes and how it ends.  An input or output
operation which fails, and a crash, stop the run after some of its changes: every such state is the result of an
initial part of the list.  The order in which a directory is listed (`ls`) and the pieces in which `write_all` writes
(`chunk`) are parameters.  Command line parsing (clap) and the texts of errors are not modelled.
-/

namespace Verif.Model.Cli

abbrev Bytes := List UInt8

/-- The names on the way from the root. -/
abbrev Path := List Str

inductive Entry where
  | file (content : Bytes)
  | dir
  deriving DecidableEq, Repr

abbrev Fs := Path → Option Entry

def Fs.set (fs : Fs) (p : Path) (e : Entry) : Fs := fun q => if q = p then some e else fs q

/-- A change of the file system. -/
inductive Action where
  | mkdir (p : Path)
  | truncate (p : Path)
  | append (p : Path) (b : Bytes)
  deriving DecidableEq, Repr

def Action.exec (fs : Fs) : Action → Fs
  | .mkdir p => fs.set p .dir
  | .truncate p => fs.set p (.file [])
  | .append p b =>
    match fs p with
    | some (.file c) => fs.set p (.file (c ++ b))
    | _ => fs

def execs (fs : Fs) (as : List Action) : Fs := as.foldl Action.exec fs

/-- How a run ends; `deep` is a recursion which goes deeper than allowed. -/
inductive Out where
  | done | err | panic | deep
  deriving DecidableEq, Repr

abbrev Run := List Action × Out

/-- The rest of the program after a part which ended without error. -/
def Run.andThen (r : Run) (fs : Fs) (k : Fs → Run) : Run :=
  match r.2 with
  | .done => (r.1 ++ (k (execs fs r.1)).1, (k (execs fs r.1)).2)
  | _ => r

/-- What the programs are given from outside. -/
structure World where
  conv : Bytes → Res Bytes
  chunk : Bytes → List Bytes
  ls : Fs → Path → List Str

variable (W : World)

/-- The text before the last dot, if there is one. -/
def beforeLastDot (n : Str) : Option Str :=
  match (n.reverse.dropWhile (· ≠ '.')) with
  | [] => none
  | _ :: r => some r.reverse

/-- `Path::file_stem` for a file name: a dot at the start does not count. -/
def fileStem (n : Str) : Str :=
  match beforeLastDot n with
  | some (c :: cs) => c :: cs
  | _ => n

/-- `PathBuf::from(file_name).with_extension("rs")` -/
def rsName (n : Str) : Str := fileStem n ++ ".rs".toList

/-- `fs::create_dir_all` -/
def createDirAll (fs : Fs) (p : Path) : Run :=
  if p.inits.any (fun q => match fs q with | some (.file _) => true | _ => false) then ([], .err)
  else ((p.inits.filter fun q => (fs q).isNone).map .mkdir, .done)

/-- xsd-parser-cli/src/main.rs:78-81, wsdl-parser-cli/src/main.rs:87-92 -/
def writeToFile (fs : Fs) (p : Path) (text : Bytes) : Run :=
  if fs p = some .dir ∨ fs p.dropLast ≠ some .dir then ([], .err)
  else (.truncate p :: (W.chunk text).map (.append p), .done)

/-- xsd-parser-cli/src/main.rs:58-69, 71-76, wsdl-parser-cli/src/main.rs:60-78, 80-85; without an output path the code
is printed. -/
def processSingleFile (fs : Fs) (input : Path) (output : Option Path) : Run :=
  match fs input with
  | some (.file b) =>
    match W.conv b with
    | .ok code =>
      match output with
      | some o => writeToFile W fs o code
      | none => ([], .done)
    | .err => ([], .err)
    | .panic => ([], .panic)
  | _ => ([], .err)

/-- The loop xsd-parser-cli/src/main.rs:45-54, wsdl-parser-cli/src/main.rs:47-56 over the names in a directory; `rec` is
`process_dir`. -/
def eachEntry (rec : Path → Path → Fs → Run) (input output : Path) : List Str → Fs → Run
  | [], _ => ([], .done)
  | n :: ns, fs =>
    Run.andThen
      (if fs (input ++ [n]) = some .dir then rec (input ++ [n]) (output ++ [n]) fs
        else processSingleFile W fs (input ++ [n]) (some (output ++ [rsName n])))
      fs (eachEntry rec input output ns)

/-- xsd-parser-cli/src/main.rs:41-56, wsdl-parser-cli/src/main.rs:43-58, at most `n` calls deep. -/
def processDir : Nat → Path → Path → Fs → Run
  | 0, _, _, _ => ([], .deep)
  | n + 1, input, output, fs =>
    Run.andThen (if (fs output).isSome then ([], .done) else createDirAll fs output) fs fun fs =>
      match fs input with
      | some .dir => eachEntry W (processDir n) input output (W.ls fs input) fs
      | _ => ([], .err)

/-- xsd-parser-cli/src/main.rs:26-39, wsdl-parser-cli/src/main.rs:27-40; `defIn`, `defOut` are the default paths. -/
def main (n : Nat) (defIn defOut : Path) (input output : Option Path) (fs : Fs) : Run :=
  match fs (input.getD defIn) with
  | none => ([], .panic)
  | some .dir => processDir W n (input.getD defIn) (output.getD defOut) fs
  | some (.file _) => processSingleFile W fs (input.getD defIn) output

end Verif.Model.Cli
