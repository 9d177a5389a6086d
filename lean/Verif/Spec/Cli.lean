import Verif.Model.Cli
import Mathlib.Data.List.Forall2

/-!
# Specification: conversion of files and directories

Only the data types of the model are used.
-/

namespace Verif.Spec.Cli

open Verif Verif.Model Verif.Model.Cli

/-- An entry is in a directory, the root is one, and directories are finite. -/
structure Sound (fs : Fs) : Prop where
  root : fs [] = some .dir
  parent : ∀ p n, fs (p ++ [n]) ≠ none → fs p = some .dir
  finite : ∀ p, ∃ names : List (List Char), ∀ n, fs (p ++ [n]) ≠ none → n ∈ names

/-- The pieces make up the text; a listing has every name once. -/
structure Fair (W : World) : Prop where
  chunk : ∀ b, (W.chunk b).flatten = b
  nodup : ∀ fs p, (W.ls fs p).Nodup
  mem : ∀ fs, Sound fs → ∀ p n, n ∈ W.ls fs p ↔ fs (p ++ [n]) ≠ none

/-- A name without its extension: a dot at the start does not begin one. -/
inductive Stem : List Char → List Char → Prop where
  | ext {s e} : s ≠ [] → '.' ∉ e → Stem (s ++ '.' :: e) s
  | plain {n} : '.' ∉ n.tail → Stem n n

/-- The name of the output file. -/
def OutName (n m : List Char) : Prop := ∃ s, Stem n s ∧ m = s ++ ['.', 'r', 's']

/-! ## Directory trees -/

inductive Tree where
  | file (content : Bytes)
  | dir (entries : List (List Char × Tree))

mutual
/-- The tree is what is found at the path. -/
def Tree.At (fs : Fs) : Path → Tree → Prop
  | p, .file b => fs p = some (.file b)
  | p, .dir ks => fs p = some .dir ∧ (ks.map (·.1)).Nodup ∧ (∀ n, fs (p ++ [n]) ≠ none → n ∈ ks.map (·.1)) ∧
      EntriesAt fs p ks

def EntriesAt (fs : Fs) : Path → List (List Char × Tree) → Prop
  | _, [] => True
  | p, (n, t) :: ks => t.At fs (p ++ [n]) ∧ EntriesAt fs p ks
end

mutual
/-- The files with the names on the way to them. -/
def Tree.files : Tree → List (Path × Bytes)
  | .file b => [([], b)]
  | .dir ks => filesIn ks

def filesIn : List (List Char × Tree) → List (Path × Bytes)
  | [] => []
  | (n, t) :: ks => (t.files.map fun f => (n :: f.1, f.2)) ++ filesIn ks
end

mutual
/-- The directories with the names on the way to them, the tree itself included. -/
def Tree.dirs : Tree → List Path
  | .file _ => []
  | .dir ks => [] :: dirsIn ks

def dirsIn : List (List Char × Tree) → List Path
  | [] => []
  | (n, t) :: ks => (t.dirs.map (n :: ·)) ++ dirsIn ks
end

mutual
/-- Nested directories. -/
def Tree.depth : Tree → Nat
  | .file _ => 0
  | .dir ks => depthIn ks + 1

def depthIn : List (List Char × Tree) → Nat
  | [] => 0
  | (_, t) :: ks => max t.depth (depthIn ks)
end

/-- The same way with the output name at the end. -/
def Mirror (rel rel' : Path) : Prop := ∃ ds n m, rel = ds ++ [n] ∧ rel' = ds ++ [m] ∧ OutName n m

/-- The output for a file. -/
def IsOutput (conv : Bytes → Res Bytes) (output : Path) (f w : Path × Bytes) : Prop :=
  (∃ rel, Mirror f.1 rel ∧ w.1 = output ++ rel) ∧ conv f.2 = .ok w.2

/-! ## Results -/

/-- The content last written to the path. -/
def lastFor (p : Path) : List (Path × Bytes) → Option Bytes
  | [] => none
  | (q, b) :: ws => (lastFor p ws).or (if q = p then some b else none)

/-- The files are written in this order, the missing directories are made, nothing else is changed. -/
def Effect (dirs : Path → Prop) (ws : List (Path × Bytes)) (fs fs' : Fs) : Prop :=
  ∀ p, (∀ b, lastFor p ws = some b → fs' p = some (.file b)) ∧
    (lastFor p ws = none → (dirs p → fs p = none → fs' p = some .dir) ∧ ((dirs p → fs p ≠ none) → fs' p = fs p))

/-- The directories for a tree. -/
def DirFor (output : Path) (t : Tree) (p : Path) : Prop := p <+: output ∨ ∃ d ∈ t.dirs, p = output ++ d

/-- Neither path leads through the other. -/
def Apart (p q : Path) : Prop := ¬ p <+: q ∧ ¬ q <+: p

/-- Room for the output: where a directory is needed there is no file, where a file is written there is no
directory, and no name is needed for both. -/
structure Room (fs : Fs) (input output : Path) : Prop where
  above : ∀ p, p <+: output → ∀ b, fs p ≠ some (.file b)
  dirs : ∀ r, fs (input ++ r) = some .dir → ∀ b, fs (output ++ r) ≠ some (.file b)
  files : ∀ r b, fs (input ++ r) = some (.file b) → ∀ rel, Mirror r rel →
    fs (output ++ rel) ≠ some .dir ∧ fs (input ++ rel) ≠ some .dir

/-- A state on the way: every path is as before, or a new directory of the output, or the output of a file.  Only the
file at `q` may be incomplete. -/
def Stage (conv : Bytes → Res Bytes) (input output : Path) (q : Option Path) (fs fs' : Fs) : Prop :=
  ∀ p, fs' p = fs p ∨
    (fs p = none ∧ fs' p = some .dir ∧ (p <+: output ∨ ∃ r, fs (input ++ r) = some .dir ∧ p = output ++ r)) ∨
    (fs p ≠ some .dir ∧ ∃ r b rel c k, fs (input ++ r) = some (.file b) ∧ Mirror r rel ∧ p = output ++ rel ∧
      conv b = .ok c ∧ fs' p = some (.file k) ∧ k <+: c ∧ (q ≠ some p → k = c))

end Verif.Spec.Cli
