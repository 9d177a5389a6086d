import Verif.Lemmas.CliRun

/-!
# Properties of the command line programs (C52, C53, C61)

`W` stands for the conversion of a text, the way `write_all` splits a text, and the order of directory listings;
`Fair W` says that the pieces make up the text and that a listing has every name once.
-/

namespace Verif.Props

open Verif Verif.Model Verif.Model.Cli Verif.Spec.Cli Verif.Lemmas.Cli

variable {W : World}

/-! ## C52: the output mirrors the input -/

/-- The name of the output file: the text before the last dot, unless that is empty, and `.rs`. -/
theorem C52_name (n m : Str) : rsName n = m ↔ OutName n m := rsName_iff n m

example : rsName "a.b.xsd".toList = "a.b.rs".toList ∧ rsName "Makefile".toList = "Makefile.rs".toList ∧
    rsName ".hidden".toList = ".hidden.rs".toList ∧ rsName "a.".toList = "a.rs".toList := by decide +kernel

/-- A complete run, for every tree and every order of listing: the input was a directory; every file of it was
converted and written to its place, one after the other; the directories were made; nothing else was changed. -/
theorem C52_mirror (hW : Fair W) {n : Nat} {i o : Path} {fs : Fs} {as : List Action} (ha : Apart i o) (hs : Sound fs)
    (h : processDir W n i o fs = (as, .done)) :
    ∃ ks ws, (Tree.dir ks).At fs i ∧ List.Forall₂ (IsOutput W.conv o) (Tree.dir ks).files ws ∧
      Effect (DirFor o (.dir ks)) ws fs (execs fs as) := by
  obtain ⟨ks, ws, h1, h2, h3, -⟩ := processDir_done hW n i o fs as ha hs h
  exact ⟨ks, ws, h1, by rw [Tree.files]; exact h2, h3⟩

open Classical in
/-- If no two files have the same place, every file has its code there; every other path is as it was or is a new
directory for a directory of the input (or one above the output). -/
theorem C52_mirror_partial (hW : Fair W) {n : Nat} {i o : Path} {fs : Fs} {as : List Action} (ha : Apart i o)
    (hs : Sound fs) (h : processDir W n i o fs = (as, .done))
    (hd : ∀ r s a b rel, fs (i ++ r) = some (.file a) → fs (i ++ s) = some (.file b) → Mirror r rel → Mirror s rel → r = s) :
    (∀ r b, fs (i ++ r) = some (.file b) →
      ∃ rel c, Mirror r rel ∧ W.conv b = .ok c ∧ execs fs as (o ++ rel) = some (.file c)) ∧
    (∀ p, (∀ r b rel, fs (i ++ r) = some (.file b) → Mirror r rel → p ≠ o ++ rel) →
      execs fs as p = if fs p = none ∧ (p <+: o ∨ ∃ r, fs (i ++ r) = some .dir ∧ p = o ++ r) then some .dir else fs p) := by
  obtain ⟨ks, ws, h1, h2, h3, -⟩ := processDir_done hW n i o fs as ha hs h
  have hfl : ∀ r b, (r, b) ∈ filesIn ks ↔ fs (i ++ r) = some (.file b) := by
    intro r b
    rw [← At.files_iff hs h1, Tree.files]
  constructor
  · intro r b hr
    have hne : r ≠ [] := by
      rintro rfl
      rw [Tree.At] at h1
      rw [List.append_nil, h1.1] at hr
      cases hr
    obtain ⟨rel, hm⟩ := mirror_exists hne
    obtain ⟨c, hc, hl⟩ := outputs_distinct h2 ((hfl r b).2 hr) hm fun g hg hmg => by
      obtain ⟨s, b'⟩ := g
      have hg' := (hfl s b').1 hg
      have := hd s r _ _ rel hg' hr hmg hm
      subst this
      rw [hr] at hg'
      cases hg'
      rfl
    exact ⟨rel, c, hm, hc, (h3 _).1 c hl⟩
  · intro p hp
    have hn : lastFor p ws = none := by
      cases hl : lastFor p ws with
      | none => rfl
      | some c =>
        obtain ⟨f, hf, rel, m1, m2, -⟩ := outputs_mem h2 hl
        exact absurd m2 (hp f.1 f.2 rel ((hfl _ _).1 hf) m1)
    obtain ⟨g1, g2⟩ := (h3 p).2 hn
    have hD : DirFor o (.dir ks) p ↔ (p <+: o ∨ ∃ r, fs (i ++ r) = some .dir ∧ p = o ++ r) := by
      rw [DirFor]
      simp only [At.dirs_iff hs h1]
    by_cases hc : fs p = none ∧ (p <+: o ∨ ∃ r, fs (i ++ r) = some .dir ∧ p = o ++ r)
    · rw [if_pos hc]
      exact g1 (hD.2 hc.2) hc.1
    · rw [if_neg hc]
      exact g2 fun h h' => hc ⟨h', hD.1 h⟩

/-- The run is complete if all files can be converted, and nothing is in the way of the output. -/
theorem C52_succeeds (hW : Fair W) {n : Nat} {i o : Path} {fs : Fs} {t : Tree} (hs : Sound fs) (ht : t.At fs i)
    (hd : fs i = some .dir) (hn : t.depth ≤ n) (ha : Apart i o) (hr : Room fs i o)
    (hc : ∀ r b, fs (i ++ r) = some (.file b) → ∃ c, W.conv b = .ok c) : (processDir W n i o fs).2 = .done :=
  processDir_ok hW n i o fs t ht hd hn hs ha hr fun f hf => hc f.1 f.2 (At.file ht f hf)

private def twoFiles : Fs :=
  fsOf [([], .dir), ([['i']], .dir), ([['i'], ['a', '.', 'x']], .file [1]), ([['i'], ['a', '.', 'y']], .file [2])]

private theorem twoFiles_sound : Sound twoFiles := fsOf_sound (by decide +kernel) (by decide +kernel)

private def twoTree : Tree := .dir [(['a', '.', 'x'], .file [1]), (['a', '.', 'y'], .file [2])]

private theorem twoFiles_at : twoTree.At twoFiles [['i']] := by
  rw [twoTree, Tree.At]
  refine ⟨by decide +kernel, by decide +kernel, ?_, ?_⟩
  · intro n hn
    obtain ⟨e, he⟩ := Option.ne_none_iff_exists'.1 hn
    have := fsOf_mem he
    simp only [List.mem_cons, Prod.mk.injEq, List.cons_append, List.nil_append, List.cons.injEq, and_true, true_and,
      List.not_mem_nil, or_false, reduceCtorEq, false_and, false_or, List.map_cons, List.map_nil] at this ⊢
    rcases this with h | h
    · exact .inl h.1
    · exact .inr h.1
  · rw [EntriesAt, EntriesAt, EntriesAt, Tree.At, Tree.At]
    exact ⟨by decide +kernel, by decide +kernel, trivial⟩

private theorem twoFiles_apart : Apart [['i']] [['o']] := by
  constructor <;> rw [List.cons_prefix_cons] <;> rintro ⟨h, -⟩ <;> revert h <;> decide

private theorem twoFiles_out (r : Path) : twoFiles (['o'] :: r) = none := by
  cases h : twoFiles (['o'] :: r) with
  | none => rfl
  | some e =>
    have := fsOf_mem h
    simp at this

private theorem twoFiles_dirs {r : Path} (h : twoFiles ([['i']] ++ r) = some .dir) : r = [] := by
  have := fsOf_mem h
  simpa using this

private theorem twoFiles_files {r : Path} {b : Bytes} (h : twoFiles ([['i']] ++ r) = some (.file b)) :
    (r = [['a', '.', 'x']] ∧ b = [1]) ∨ (r = [['a', '.', 'y']] ∧ b = [2]) := by
  have := fsOf_mem h
  simpa using this

private theorem twoFiles_room : Room twoFiles [['i']] [['o']] := by
  refine ⟨?_, ?_, ?_⟩
  · intro p hp b
    have : p = [] ∨ p = [['o']] := by
      cases p with
      | nil => exact .inl rfl
      | cons x p =>
        rw [List.cons_prefix_cons, List.prefix_nil] at hp
        rw [hp.1, hp.2]; exact .inr rfl
    rcases this with rfl | rfl
    · rw [twoFiles_sound.root]; simp
    · rw [twoFiles_out]; simp
  · intro r _ b
    rw [List.singleton_append, twoFiles_out]; simp
  · intro r b _ rel hm
    rw [List.singleton_append, twoFiles_out]
    refine ⟨by simp, fun h => hm.ne_nil (twoFiles_dirs h)⟩

example : (processDir (world .ok) 1 [['i']] [['o']] twoFiles).2 = .done :=
  C52_succeeds (world_fair _) twoFiles_sound twoFiles_at (by decide +kernel) (by decide +kernel) twoFiles_apart
    twoFiles_room fun _ b _ => ⟨b, rfl⟩

/-- Two files which differ only in the extension: the run is complete, but the code of one of them is nowhere. -/
theorem C52_violated : ∃ W fs i o as, Fair W ∧ Sound fs ∧ Apart i o ∧ processDir W 1 i o fs = (as, .done) ∧
    ∃ r b c, fs (i ++ r) = some (.file b) ∧ W.conv b = .ok c ∧ ∀ p, o <+: p → execs fs as p ≠ some (.file c) := by
  have hd : (processDir (world .ok) 1 [['i']] [['o']] twoFiles).2 = .done :=
    C52_succeeds (world_fair _) twoFiles_sound twoFiles_at (by decide +kernel) (by decide +kernel) twoFiles_apart
      twoFiles_room fun _ b _ => ⟨b, rfl⟩
  have hrun := run_eta hd
  obtain ⟨ks, ws, h1, h2, h3⟩ := C52_mirror (world_fair _) twoFiles_apart twoFiles_sound hrun
  refine ⟨_, _, _, _, _, world_fair .ok, twoFiles_sound, twoFiles_apart, hrun, ?_⟩
  generalize (processDir (world .ok) 1 [['i']] [['o']] twoFiles).1 = as at h3
  -- the only place with a file
  have hplace : ∀ p c, [['o']] <+: p → execs twoFiles as p = some (.file c) → p = [['o'], ['a', '.', 'r', 's']] := by
    rintro p c ⟨r, rfl⟩ hp
    cases hl : lastFor ([['o']] ++ r) ws with
    | none =>
      obtain ⟨g1, g2⟩ := (h3 _).2 hl
      by_cases hD : DirFor [['o']] (.dir ks) ([['o']] ++ r)
      · rw [g1 hD (twoFiles_out r)] at hp
        cases hp
      · rw [g2 fun h => absurd h hD] at hp
        rw [List.singleton_append, twoFiles_out] at hp
        cases hp
    | some c' =>
      obtain ⟨f, hf, rel, m1, m2, -⟩ := outputs_mem h2 hl
      have hf' := (At.files_iff twoFiles_sound h1 f.1 f.2).1 hf
      rw [m2]
      rcases twoFiles_files hf' with ⟨e, -⟩ | ⟨e, -⟩
      · rw [e] at m1
        rw [(mirror_iff [] _ _).1 m1]
        decide +kernel
      · rw [e] at m1
        rw [(mirror_iff [] _ _).1 m1]
        decide +kernel
  by_cases hx : execs twoFiles as [['o'], ['a', '.', 'r', 's']] = some (.file [1])
  · refine ⟨[['a', '.', 'y']], [2], [2], by decide +kernel, rfl, fun p hp he => ?_⟩
    rw [hplace p _ hp he, hx] at he
    cases he
  · refine ⟨[['a', '.', 'x']], [1], [1], by decide +kernel, rfl, fun p hp he => ?_⟩
    rw [hplace p _ hp he] at he
    exact hx he

/-- Start of the program: without an input there is a panic, a directory is converted to the given or to the default
directory, a file to the given file only. -/
theorem C52_main (n : Nat) (defIn defOut : Path) (input output : Option Path) (fs : Fs) :
    (fs (input.getD defIn) = none → main W n defIn defOut input output fs = ([], .panic)) ∧
    (fs (input.getD defIn) = some .dir →
      main W n defIn defOut input output fs = processDir W n (input.getD defIn) (output.getD defOut) fs) ∧
    (∀ b, fs (input.getD defIn) = some (.file b) → output = none →
      main W n defIn defOut input output fs =
        ([], match W.conv b with | .ok _ => .done | .err => .err | .panic => .panic)) := by
  refine ⟨fun h => ?_, fun h => ?_, fun b h ho => ?_⟩
  · rw [main, h]
  · rw [main, h]
  · subst ho
    rw [main, h, processSingleFile, h]
    dsimp only
    cases W.conv b <;> rfl

/-! ## C53: interruptions -/

/-- A file is converted completely before its output is touched: if the input cannot be read or converted, nothing is
changed. -/
theorem C53_failed_conversion {fs : Fs} {i : Path} {o : Option Path}
    (h : ∀ b c, fs i = some (.file b) → W.conv b ≠ .ok c) : (processSingleFile W fs i o).1 = [] := by
  rw [processSingleFile]
  split
  · next b hb =>
    split
    · next c hc => exact absurd hc (h b c hb)
    · rfl
    · rfl
  · rfl

example : ∀ b c, twoFiles [['i'], ['a', '.', 'x']] = some (.file b) → (world fun _ => .err).conv b ≠ .ok c := by
  intro b c _ h
  cases h

/-- The conversion of one file, stopped anywhere: nothing is changed, or only the output, which then holds an initial
part of the code. -/
theorem C53_single (hW : Fair W) {fs : Fs} {i o : Path} {pre : List Action}
    (h : pre <+: (processSingleFile W fs i (some o)).1) :
    execs fs pre = fs ∨ ∃ b c k, fs i = some (.file b) ∧ W.conv b = .ok c ∧ k <+: c ∧
      execs fs pre o = some (.file k) ∧ ∀ p, p ≠ o → execs fs pre p = fs p := by
  rw [processSingleFile] at h
  split at h
  · next b hb =>
    split at h
    · next c hc =>
      rcases write_states hW h with e | ⟨-, -, k, e1, e2⟩
      · exact .inl e
      · refine .inr ⟨b, c, k, hb, hc, e1, ?_, fun p hp => ?_⟩
        · rw [e2]; exact set_same ..
        · rw [e2]; exact set_other _ _ hp
    · rw [List.prefix_nil.1 h]; exact .inl rfl
    · rw [List.prefix_nil.1 h]; exact .inl rfl
  · rw [List.prefix_nil.1 h]; exact .inl rfl

/-- The conversion of a directory, however it ends and wherever it is stopped: every path is as before, or is a new
directory, or is the place of an input file and holds the code of one; at most one of these files is incomplete. -/
theorem C53_states (hW : Fair W) {n : Nat} {fs : Fs} {i o : Path} {pre : List Action} (ha : Apart i o)
    (h : pre <+: (processDir W n i o fs).1) : ∃ q, Stage W.conv i o q fs (execs fs pre) :=
  (staged_dir hW n i o fs ha).1 pre h

/-- In particular the input is never changed. -/
theorem C53_input (hW : Fair W) {n : Nat} {fs : Fs} {i o : Path} {pre : List Action} (ha : Apart i o)
    (h : pre <+: (processDir W n i o fs).1) (r : Path) : execs fs pre (i ++ r) = fs (i ++ r) := by
  obtain ⟨q, hq⟩ := C53_states hW ha h
  exact stage_input ha hq r

/-- The previous output is lost before the new one is written. -/
theorem C53_violated : ∃ W fs i o pre old new, Fair W ∧ Sound fs ∧ pre <+: (processSingleFile W fs i (some o)).1 ∧
    (processSingleFile W fs i (some o)).2 = .done ∧ fs o = some (.file old) ∧ fs i = some (.file new) ∧
    W.conv new = .ok new ∧ execs fs pre o ≠ some (.file old) ∧ execs fs pre o ≠ some (.file new) := by
  refine ⟨world .ok, twoFiles, [['i'], ['a', '.', 'x']], [['i'], ['a', '.', 'y']], [.truncate [['i'], ['a', '.', 'y']]],
    [2], [1], world_fair _, twoFiles_sound, ?_, ?_, by decide +kernel, by decide +kernel, rfl, ?_⟩
  · have h1 : twoFiles [['i'], ['a', '.', 'x']] = some (.file [1]) := by decide +kernel
    rw [processSingleFile, h1]
    show _ <+: (writeToFile (world .ok) twoFiles [['i'], ['a', '.', 'y']] [1]).1
    rw [writeToFile, if_neg (by decide +kernel)]
    exact ⟨_, rfl⟩
  · have h1 : twoFiles [['i'], ['a', '.', 'x']] = some (.file [1]) := by decide +kernel
    rw [processSingleFile, h1]
    exact writeToFile_ok (by decide +kernel) (by decide +kernel)
  · have : execs twoFiles [.truncate [['i'], ['a', '.', 'y']]] [['i'], ['a', '.', 'y']] = some (.file []) :=
      show Fs.set twoFiles [['i'], ['a', '.', 'y']] (.file []) [['i'], ['a', '.', 'y']] = _ from set_same _ _ _
    rw [this]
    exact ⟨by decide, by decide⟩

/-! ## C61: output inside the input -/

/-- If the output directory is inside the input directory, no run is ever complete, however deep it may go: the
output is taken for input again and again. -/
theorem C61_inside (hW : Fair W) (n : Nat) {fs : Fs} (hs : Sound fs) (i : Path) {q : Path} (hq : q ≠ []) :
    (processDir W n i (i ++ q) fs).2 ≠ .done := by
  cases q with
  | nil => exact absurd rfl hq
  | cons x q => exact dir_inside hW n i x q fs hs

example : (processDir (world .ok) 100 [['i']] [['i'], ['o']] twoFiles).2 ≠ .done :=
  C61_inside (world_fair _) 100 twoFiles_sound [['i']] (q := [['o']]) (by simp)

end Verif.Props
