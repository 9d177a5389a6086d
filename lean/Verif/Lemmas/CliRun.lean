import Verif.Lemmas.Cli
import Mathlib.Data.List.Nodup
import Mathlib.Data.List.Dedup

/-! # Conversion of directories: success, crashes, overlapping paths -/

namespace Verif.Lemmas.Cli

open Verif Verif.Model Verif.Model.Cli Verif.Spec.Cli

variable {W : World}

/-! ## Trees and the file system -/

mutual
theorem At.file {fs : Fs} : ∀ {t : Tree} {p : Path}, t.At fs p → ∀ f ∈ t.files, fs (p ++ f.1) = some (.file f.2)
  | .file b, p, ha, f, hf => by
    rw [Tree.files] at hf
    rw [Tree.At] at ha
    rw [List.mem_singleton.1 hf, List.append_nil]
    exact ha
  | .dir ks, p, ha, f, hf => by
    rw [Tree.files] at hf
    rw [Tree.At] at ha
    exact EntriesAt.file ha.2.2.2 f hf

theorem EntriesAt.file {fs : Fs} : ∀ {ks : List (Str × Tree)} {p : Path}, EntriesAt fs p ks →
    ∀ f ∈ filesIn ks, fs (p ++ f.1) = some (.file f.2)
  | [], _, _, _, hf => by cases hf
  | (n, t) :: ks, p, ha, f, hf => by
    rw [EntriesAt] at ha
    rw [filesIn] at hf
    rcases List.mem_append.1 hf with hf | hf
    · obtain ⟨g, hg, rfl⟩ := List.mem_map.1 hf
      have := At.file ha.1 g hg
      rw [List.append_assoc] at this
      exact this
    · exact EntriesAt.file ha.2 f hf
end

mutual
theorem At.dir {fs : Fs} : ∀ {t : Tree} {p : Path}, t.At fs p → ∀ d ∈ t.dirs, fs (p ++ d) = some .dir
  | .file b, p, ha, d, hd => by rw [Tree.dirs] at hd; cases hd
  | .dir ks, p, ha, d, hd => by
    rw [Tree.dirs] at hd
    rw [Tree.At] at ha
    rcases List.mem_cons.1 hd with rfl | hd
    · rw [List.append_nil]; exact ha.1
    · exact EntriesAt.dir ha.2.2.2 d hd

theorem EntriesAt.dir {fs : Fs} : ∀ {ks : List (Str × Tree)} {p : Path}, EntriesAt fs p ks →
    ∀ d ∈ dirsIn ks, fs (p ++ d) = some .dir
  | [], _, _, _, hd => by cases hd
  | (n, t) :: ks, p, ha, d, hd => by
    rw [EntriesAt] at ha
    rw [dirsIn] at hd
    rcases List.mem_append.1 hd with hd | hd
    · obtain ⟨g, hg, rfl⟩ := List.mem_map.1 hd
      have := At.dir ha.1 g hg
      rw [List.append_assoc] at this
      exact this
    · exact EntriesAt.dir ha.2 d hd
end

theorem sound_below {fs : Fs} (hs : Sound fs) {p : Path} {n : Str} {r : Path} (h : fs (p ++ n :: r) ≠ none) :
    fs (p ++ [n]) ≠ none := by
  have e : p ++ n :: r = (p ++ [n]) ++ r := by rw [List.append_assoc]; rfl
  rw [e] at h
  rcases sound_prefix hs h (List.prefix_append _ _) with e | e
  · rw [e]; exact h
  · rw [e]; simp

mutual
/-- The tree has everything there is below the path. -/
theorem At.all {fs : Fs} (hs : Sound fs) : ∀ {t : Tree} {p : Path}, t.At fs p → ∀ r,
    (∀ b, fs (p ++ r) = some (.file b) → (r, b) ∈ t.files) ∧ (fs (p ++ r) = some .dir → r ∈ t.dirs)
  | .file b, p, ha, [] => by
    rw [Tree.At] at ha
    rw [List.append_nil, ha, Tree.files]
    exact ⟨fun c hc => by cases hc; exact List.mem_singleton.2 rfl, fun h => by cases h⟩
  | .file b, p, ha, n :: r => by
    rw [Tree.At] at ha
    have : fs (p ++ n :: r) = none := by
      by_contra h
      have := hs.parent p n (sound_below hs h)
      rw [ha] at this
      cases this
    rw [this]
    exact ⟨fun _ h => (by cases h), fun h => (by cases h)⟩
  | .dir ks, p, ha, [] => by
    rw [Tree.At] at ha
    rw [List.append_nil, ha.1, Tree.dirs]
    exact ⟨fun c hc => (by cases hc), fun _ => List.mem_cons_self ..⟩
  | .dir ks, p, ha, n :: r => by
    rw [Tree.At] at ha
    rw [Tree.files, Tree.dirs]
    by_cases hn : fs (p ++ n :: r) = none
    · rw [hn]
      exact ⟨fun _ h => (by cases h), fun h => (by cases h)⟩
    · have := EntriesAt.all hs ha.2.2.2 n (ha.2.2.1 n (sound_below hs hn)) r
      exact ⟨this.1, fun h => List.mem_cons_of_mem _ (this.2 h)⟩

theorem EntriesAt.all {fs : Fs} (hs : Sound fs) : ∀ {ks : List (Str × Tree)} {p : Path}, EntriesAt fs p ks →
    ∀ n, n ∈ ks.map (·.1) → ∀ r,
    (∀ b, fs (p ++ n :: r) = some (.file b) → (n :: r, b) ∈ filesIn ks) ∧
      (fs (p ++ n :: r) = some .dir → n :: r ∈ dirsIn ks)
  | [], _, _, _, hn, _ => by cases hn
  | (m, t) :: ks, p, ha, n, hn, r => by
    rw [EntriesAt] at ha
    rw [filesIn, dirsIn]
    rw [List.map_cons] at hn
    by_cases hm : n = m
    · subst hm
      have := At.all hs ha.1 r
      rw [List.append_assoc] at this
      refine ⟨fun b hb => ?_, fun h => ?_⟩
      · exact List.mem_append_left _ (List.mem_map.2 ⟨(r, b), this.1 b hb, rfl⟩)
      · exact List.mem_append_left _ (List.mem_map.2 ⟨r, this.2 h, rfl⟩)
    · have := EntriesAt.all hs ha.2 n ((List.mem_cons.1 hn).resolve_left hm) r
      exact ⟨fun b hb => List.mem_append_right _ (this.1 b hb), fun h => List.mem_append_right _ (this.2 h)⟩
end

theorem At.files_iff {fs : Fs} (hs : Sound fs) {t : Tree} {p : Path} (ha : t.At fs p) (r : Path) (b : Bytes) :
    (r, b) ∈ t.files ↔ fs (p ++ r) = some (.file b) := ⟨fun h => At.file ha _ h, (At.all hs ha r).1 b⟩

theorem At.dirs_iff {fs : Fs} (hs : Sound fs) {t : Tree} {p : Path} (ha : t.At fs p) (r : Path) :
    r ∈ t.dirs ↔ fs (p ++ r) = some .dir := ⟨fun h => At.dir ha _ h, (At.all hs ha r).2⟩

mutual
/-- No file is counted twice. -/
theorem At.nodup {fs : Fs} : ∀ {t : Tree} {p : Path}, t.At fs p → (t.files.map (·.1)).Nodup
  | .file b, _, _ => by rw [Tree.files]; exact List.nodup_singleton _
  | .dir ks, p, ha => by
    rw [Tree.files]
    rw [Tree.At] at ha
    exact EntriesAt.nodup ha.2.2.2 ha.2.1

theorem EntriesAt.nodup {fs : Fs} : ∀ {ks : List (Str × Tree)} {p : Path}, EntriesAt fs p ks → (ks.map (·.1)).Nodup →
    ((filesIn ks).map (·.1)).Nodup
  | [], _, _, _ => by rw [filesIn]; exact List.nodup_nil
  | (n, t) :: ks, p, ha, hn => by
    rw [EntriesAt] at ha
    rw [List.map_cons, List.nodup_cons] at hn
    rw [filesIn, List.map_append, List.map_map]
    refine List.Nodup.append ?_ (EntriesAt.nodup ha.2 hn.2) ?_
    · have := At.nodup ha.1
      have h2 := this.map (f := (n :: ·)) fun a b h => (List.cons.inj h).2
      rw [List.map_map] at h2
      exact h2
    · intro x h1 h2
      obtain ⟨f, -, rfl⟩ := List.mem_map.1 h1
      obtain ⟨g, hg, e⟩ := List.mem_map.1 h2
      obtain ⟨m, t', r, hm, -, e'⟩ := filesIn_mem.1 hg
      have : n :: f.1 = m :: r := e.symm.trans e'
      cases this
      exact hn.1 (List.mem_map.2 ⟨_, hm, rfl⟩)
end

/-! ## Success -/

theorem andThen_ok {r : Run} {fs : Fs} {k : Fs → Run} (h1 : r.2 = .done) (h2 : (k (execs fs r.1)).2 = .done) :
    (r.andThen fs k).2 = .done := by
  rw [Run.andThen, h1]
  exact h2

theorem run_eta {r : Run} (h : r.2 = .done) : r = (r.1, .done) := by rw [← h]

theorem depthIn_mem {ks : List (Str × Tree)} {n : Str} {t : Tree} (h : (n, t) ∈ ks) : t.depth ≤ depthIn ks := by
  induction ks with
  | nil => cases h
  | cons k ks ih =>
    obtain ⟨m, t'⟩ := k
    rw [depthIn]
    rcases List.mem_cons.1 h with e | h
    · cases e; exact le_max_left _ _
    · exact le_trans (ih h) (le_max_right _ _)

/-- What the loop needs. -/
structure Loop (W : World) (fs : Fs) (i o : Path) : Prop where
  out : fs o = some .dir
  dirs : ∀ r, fs (i ++ r) = some .dir → ∀ b, fs (o ++ r) ≠ some (.file b)
  files : ∀ r b, fs (i ++ r) = some (.file b) → ∀ rel, Mirror r rel →
    fs (o ++ rel) ≠ some .dir ∧ fs (i ++ rel) ≠ some .dir
  conv : ∀ r b, fs (i ++ r) = some (.file b) → ∃ c, W.conv b = .ok c

theorem loop_step {rec : Path → Path → Fs → Run} (hW : Fair W) (hrec : Mirrors W rec) {i o : Path} (ha : Apart i o)
    {n : Str} {fs : Fs} {as : List Action} (hs : Sound fs) (hl : Loop W fs i o) (h1 : step W rec i o n fs = (as, .done)) :
    Loop W (execs fs as) i o ∧ Sound (execs fs as) ∧ ∀ r, execs fs as (i ++ r) = fs (i ++ r) := by
  have ho : fs o ≠ none := by rw [hl.out]; simp
  obtain ⟨hi, h2⟩ := step_keeps hW hrec ha hs ho h1
  obtain ⟨t, ws, t1, t2, t3, t4⟩ := step_done hW hrec ha hs ho h1
  refine ⟨⟨by rw [h2, hl.out], ?_, ?_, ?_⟩, t4, hi⟩
  · intro r hr b hb
    rw [hi] at hr
    obtain ⟨g1, g2⟩ := t3 (o ++ r)
    cases hw : lastFor (o ++ r) ws with
    | some c =>
      obtain ⟨f, hf, rel, hm, e⟩ := outputs_below t2 _ (lastFor_mem hw)
      have : r = rel := List.append_cancel_left e
      subst this
      obtain ⟨g, hg, rfl⟩ := List.mem_map.1 hf
      have hfile := At.file t1 g hg
      rw [List.append_assoc] at hfile
      exact (hl.files _ _ hfile _ hm).2 hr
    | none =>
      obtain ⟨g3, g4⟩ := g2 hw
      by_cases hn : fs (o ++ r) = none
      · by_cases hD : ∃ d ∈ t.dirs, o ++ r = o ++ n :: d
        · rw [g3 hD hn] at hb; cases hb
        · rw [g4 fun h => absurd h hD, hn] at hb; cases hb
      · rw [g4 fun _ => hn] at hb
        exact hl.dirs r hr b hb
  · intro r b hr rel hm
    rw [hi] at hr
    rw [hi]
    refine ⟨?_, (hl.files r b hr rel hm).2⟩
    intro hd
    obtain ⟨g1, g2⟩ := t3 (o ++ rel)
    cases hw : lastFor (o ++ rel) ws with
    | some c => rw [g1 c hw] at hd; cases hd
    | none =>
      obtain ⟨g3, g4⟩ := g2 hw
      by_cases hD : ∃ d ∈ t.dirs, o ++ rel = o ++ n :: d
      · obtain ⟨d, hdt, e⟩ := hD
        have : rel = n :: d := List.append_cancel_left e
        subst this
        have := At.dir t1 d hdt
        rw [List.append_assoc] at this
        exact (hl.files r b hr _ hm).2 this
      · rw [g4 fun h => absurd h hD] at hd
        exact (hl.files r b hr rel hm).1 hd
  · intro r b hr
    rw [hi] at hr
    exact hl.conv r b hr

theorem eachEntry_ok {rec : Path → Path → Fs → Run} (hW : Fair W) (hrec : Mirrors W rec) {i o : Path} (ha : Apart i o)
    (ns : List Str) : ∀ fs, Sound fs → Loop W fs i o → (∀ n ∈ ns, fs (i ++ [n]) ≠ none) →
      (∀ n ∈ ns, ∀ fs', Sound fs' → Loop W fs' i o → (∀ r, fs' (i ++ r) = fs (i ++ r)) → fs (i ++ [n]) = some .dir →
        (rec (i ++ [n]) (o ++ [n]) fs').2 = .done) →
      (eachEntry W rec i o ns fs).2 = .done := by
  induction ns with
  | nil => intro fs _ _ _ _; rfl
  | cons n ns ih =>
    intro fs hs hl he hr
    rw [eachEntry_cons]
    have h1 : (step W rec i o n fs).2 = .done := by
      rw [step]
      by_cases hd : fs (i ++ [n]) = some .dir
      · rw [if_pos hd]
        exact hr n (List.mem_cons_self ..) fs hs hl (fun _ => rfl) hd
      · rw [if_neg hd, processSingleFile]
        cases hf : fs (i ++ [n]) with
        | none => exact absurd hf (he n (List.mem_cons_self ..))
        | some e =>
          cases e with
          | dir => exact absurd hf hd
          | file b =>
            dsimp only
            obtain ⟨c, hc⟩ := hl.conv _ b hf
            rw [hc]
            exact writeToFile_ok (hl.files _ b hf _ (Mirror.one n)).1 (by rw [List.dropLast_concat]; exact hl.out)
    have h2 := run_eta h1
    obtain ⟨l2, s2, i2⟩ := loop_step hW hrec ha hs hl h2
    refine andThen_ok h1 (ih _ s2 l2 ?_ ?_)
    · intro m hm
      rw [i2]; exact he m (List.mem_cons_of_mem _ hm)
    · intro m hm fs' hs' hl' hi' hd
      refine hr m (List.mem_cons_of_mem _ hm) fs' hs' hl' (fun r => (hi' r).trans (i2 r)) ?_
      rw [← i2]; exact hd

theorem processDir_ok (hW : Fair W) (n : Nat) : ∀ (i o : Path) (fs : Fs) (t : Tree), t.At fs i → fs i = some .dir → t.depth ≤ n → Sound fs →
    Apart i o → Room fs i o → (∀ f ∈ t.files, ∃ c, W.conv f.2 = .ok c) → (processDir W n i o fs).2 = .done := by
  induction n with
  | zero =>
    intro i o fs t hat hd hn
    cases t with
    | file b => rw [Tree.At, hd] at hat; cases hat
    | dir ks => rw [Tree.depth] at hn; cases hn
  | succ n ih =>
    intro i o fs t hat hd hn hs ha hroom hconv
    cases t with
    | file b => rw [Tree.At, hd] at hat; cases hat
    | dir ks =>
      rw [processDir]
      have h1 : (if (fs o).isSome then (([], .done) : Run) else createDirAll fs o).2 = .done := by
        split
        · rfl
        · exact createDirAll_ok hroom.above
      obtain ⟨e1, s1, o1⟩ := prepare_done hs (run_eta h1)
      refine andThen_ok h1 ?_
      revert e1 s1 o1
      generalize execs fs _ = fs1
      intro e1 s1 o1
      have hi : ∀ r, fs1 (i ++ r) = fs (i ++ r) := fun r => e1.same (ha.ne r).1 (by simp)
      have hi0 : fs1 i = fs i := by simpa using hi []
      rw [hi0, hd]
      dsimp only
      have hnf : ∀ p b, fs1 p = some (.file b) → fs p = some (.file b) := by
        intro p b hb
        obtain ⟨g1, g2⟩ := (e1 p).2 rfl
        by_cases hp : p <+: o ∧ fs p = none
        · rw [g1 hp.1 hp.2] at hb; cases hb
        · rw [g2 fun h h' => hp ⟨h, h'⟩] at hb; exact hb
      have hl : Loop W fs1 i o := by
        refine ⟨?_, ?_, ?_, ?_⟩
        · cases h : fs1 o with
          | none => exact absurd h o1
          | some e =>
            cases e with
            | dir => rfl
            | file b => exact absurd (hnf o b h) (hroom.above o (List.prefix_refl o) b)
        · intro r hr b hb
          rw [hi] at hr
          exact hroom.dirs r hr b (hnf _ _ hb)
        · intro r b hr rel hm
          rw [hi] at hr
          rw [hi]
          have : fs1 (o ++ rel) = fs (o ++ rel) := by
            refine e1.same (fun hp => hm.ne_nil ?_) (by simp)
            have := hp.length_le
            rw [List.length_append] at this
            exact List.length_eq_zero_iff.1 (by omega)
          rw [this]
          exact hroom.files r b hr rel hm
        · intro r b hr
          rw [hi] at hr
          exact hconv (r, b) ((At.files_iff hs hat r b).2 hr)
      refine eachEntry_ok hW (processDir_done hW n) ha _ fs1 s1 hl (fun m hm => (hW.mem _ s1 _ _).1 hm) ?_
      intro m hm fs' hs' hl' hi' hmd
      have hin : ∀ r, fs' (i ++ r) = fs (i ++ r) := fun r => (hi' r).trans (hi r)
      have hmk : m ∈ ks.map (·.1) := by
        rw [Tree.At] at hat
        refine hat.2.2.1 m ?_
        rw [← hi, hmd]; simp
      obtain ⟨⟨m', t⟩, hk, rfl⟩ := List.mem_map.1 hmk
      have hat' : t.At fs (i ++ [m']) := by
        rw [Tree.At] at hat
        exact entriesAt_mem.1 hat.2.2.2 _ _ hk
      have h3 : ∀ r, fs' (i ++ [m'] ++ r) = fs (i ++ [m'] ++ r) := by
        intro r
        rw [List.append_assoc]; exact hin _
      refine ih _ _ fs' t (At.congr h3 hat') ?_ ?_ hs' (ha.below m') ?_ ?_
      · rw [hi']; exact hmd
      · rw [Tree.depth] at hn
        have := depthIn_mem hk
        omega
      · refine ⟨?_, ?_, ?_⟩
        · intro p hp b hb
          rcases List.prefix_concat_iff.1 hp with rfl | hp
          · exact hl'.dirs [m'] (by rw [hi']; exact hmd) b hb
          · rcases sound_prefix hs' (q := o) (by rw [hl'.out]; simp) hp with rfl | e
            · rw [hl'.out] at hb; cases hb
            · rw [e] at hb; cases hb
        · intro r hr b hb
          rw [List.append_assoc] at hr hb
          exact hl'.dirs _ hr b hb
        · intro r b hr rel hm
          rw [List.append_assoc] at hr
          rw [List.append_assoc, List.append_assoc]
          exact hl'.files _ b hr _ (hm.cons m')
      · intro f hf
        refine hconv (m' :: f.1, f.2) ?_
        rw [Tree.files]
        exact filesIn_mem.2 ⟨m', t, f.1, hk, hf, rfl⟩

/-! ## States on the way -/

theorem stage_refl (conv : Bytes → Res Bytes) (i o : Path) (q : Option Path) (fs : Fs) : Stage conv i o q fs fs :=
  fun _ => .inl rfl

theorem stage_input {conv : Bytes → Res Bytes} {i o : Path} {q : Option Path} {fs fs' : Fs} (ha : Apart i o)
    (h : Stage conv i o q fs fs') (r : Path) : fs' (i ++ r) = fs (i ++ r) := by
  obtain ⟨h1, h2⟩ := ha.ne r
  rcases h (i ++ r) with h | ⟨-, -, h | ⟨d, -, h⟩⟩ | ⟨-, _, _, rel, _, _, -, -, h, -⟩
  · exact h
  · exact absurd h h1
  · exact absurd h (h2 d)
  · exact absurd h (h2 rel)

theorem stage_trans {conv : Bytes → Res Bytes} {i o : Path} {q : Option Path} {fs fs1 fs2 : Fs} (ha : Apart i o)
    (h1 : Stage conv i o none fs fs1) (h2 : Stage conv i o q fs1 fs2) : Stage conv i o q fs fs2 := by
  have hi := stage_input ha h1
  intro p
  rcases h2 p with e | ⟨e1, e2, e3⟩ | ⟨e0, r, b, rel, c, k, e1, e2, e3, e4, e5, e6, e7⟩
  · rw [e]
    rcases h1 p with h | h | ⟨g0, r, b, rel, c, k, g1, g2, g3, g4, g5, g6, g7⟩
    · exact .inl h
    · exact .inr (.inl h)
    · exact .inr (.inr ⟨g0, r, b, rel, c, k, g1, g2, g3, g4, g5, g6, fun _ => g7 (by simp)⟩)
  · rcases h1 p with h | ⟨-, h, -⟩ | ⟨-, r, b, rel, c, k, -, -, -, -, h, -⟩
    · refine .inr (.inl ⟨h ▸ e1, e2, ?_⟩)
      rcases e3 with e3 | ⟨r, e3, e4⟩
      · exact .inl e3
      · rw [hi] at e3
        exact .inr ⟨r, e3, e4⟩
    · rw [e1] at h; cases h
    · rw [e1] at h; cases h
  · rw [hi] at e1
    refine .inr (.inr ⟨?_, r, b, rel, c, k, e1, e2, e3, e4, e5, e6, e7⟩)
    rcases h1 p with h | ⟨h, -⟩ | ⟨h, -⟩
    · rw [← h]; exact e0
    · rw [h]; simp
    · exact h

/-- All states of a run. -/
def Staged (conv : Bytes → Res Bytes) (i o : Path) (fs : Fs) (r : Run) : Prop :=
  (∀ pre, pre <+: r.1 → ∃ q, Stage conv i o q fs (execs fs pre)) ∧ (r.2 = .done → Stage conv i o none fs (execs fs r.1))

theorem staged_nil (conv : Bytes → Res Bytes) (i o : Path) (fs : Fs) (x : Out) : Staged conv i o fs ([], x) := by
  refine ⟨fun pre h => ⟨none, ?_⟩, fun _ => stage_refl _ _ _ _ _⟩
  rw [List.prefix_nil.1 h]
  exact stage_refl _ _ _ _ _

theorem staged_andThen {conv : Bytes → Res Bytes} {i o : Path} {fs : Fs} {r : Run} {k : Fs → Run} (ha : Apart i o)
    (h1 : Staged conv i o fs r)
    (h2 : r.2 = .done → Staged conv i o (execs fs r.1) (k (execs fs r.1))) : Staged conv i o fs (r.andThen fs k) := by
  rw [Run.andThen]
  split
  · next hd =>
    obtain ⟨g1, g2⟩ := h2 hd
    refine ⟨fun pre hp => ?_, fun h => ?_⟩
    · obtain ⟨s, hs⟩ := hp
      dsimp only at hs
      rcases List.append_eq_append_iff.1 hs with ⟨x, hx, -⟩ | ⟨x, hx, hy⟩
      · exact h1.1 pre ⟨x, hx.symm⟩
      · obtain ⟨q, hq⟩ := g1 x ⟨s, hy.symm⟩
        refine ⟨q, ?_⟩
        rw [hx, execs_append]
        exact stage_trans ha (h1.2 hd) hq
    · dsimp only
      rw [execs_append]
      exact stage_trans ha (h1.2 hd) (g2 h)
  · exact h1

theorem flatten_prefix {α : Type} {a b : List (List α)} (h : a <+: b) : a.flatten <+: b.flatten := by
  obtain ⟨s, rfl⟩ := h
  rw [List.flatten_append]
  exact List.prefix_append _ _

theorem prefix_map {α β : Type} {f : α → β} {l : List α} {pre : List β} (h : pre <+: l.map f) :
    ∃ l', l' <+: l ∧ pre = l'.map f := by
  refine ⟨l.take pre.length, List.take_prefix _ _, ?_⟩
  rw [List.map_take]
  exact List.prefix_iff_eq_take.1 h

/-- The states while a file is written. -/
theorem write_states (hW : Fair W) {fs : Fs} {p : Path} {b : Bytes} {pre : List Action}
    (h : pre <+: (writeToFile W fs p b).1) :
    execs fs pre = fs ∨ (fs p ≠ some .dir ∧ fs p.dropLast = some .dir ∧ ∃ k, k <+: b ∧ execs fs pre = fs.set p (.file k)) := by
  rw [writeToFile] at h
  split at h
  · rw [List.prefix_nil.1 h]; exact .inl rfl
  · next hc =>
    rw [not_or, not_not] at hc
    cases pre with
    | nil => exact .inl rfl
    | cons a pre =>
      obtain ⟨rfl, hp⟩ := List.cons_prefix_cons.1 h
      obtain ⟨l, hl, rfl⟩ := prefix_map hp
      refine .inr ⟨hc.1, hc.2, l.flatten, ?_, execs_write l fs p⟩
      have := flatten_prefix hl
      rwa [hW.chunk] at this

theorem staged_single (hW : Fair W) {i o : Path} {fs : Fs} {n : Str} :
    Staged W.conv i o fs (processSingleFile W fs (i ++ [n]) (some (o ++ [rsName n]))) := by
  rw [processSingleFile]
  split
  · next b hb =>
    split
    · next c hc =>
      dsimp only
      have key : ∀ k, k <+: c → fs (o ++ [rsName n]) ≠ some .dir → ∀ q, (q ≠ some (o ++ [rsName n]) → k = c) →
          Stage W.conv i o q fs (fs.set (o ++ [rsName n]) (.file k)) := by
        intro k hk hf q hq p
        by_cases hp : p = o ++ [rsName n]
        · rw [hp]
          exact .inr (.inr ⟨hf, [n], b, [rsName n], c, k, hb, Mirror.one n, rfl, hc, set_same .., hk, hq⟩)
        · exact .inl (set_other _ _ hp)
      refine ⟨fun pre hp => ?_, fun hd => ?_⟩
      · rcases write_states hW hp with e | ⟨e1, -, k, e2, e3⟩
        · rw [e]; exact ⟨none, stage_refl _ _ _ _ _⟩
        · rw [e3]; exact ⟨some _, key k e2 e1 _ fun h => absurd rfl h⟩
      · obtain ⟨e1, -, e2⟩ := writeToFile_done hW (run_eta hd)
        rw [e2]
        exact key c (List.prefix_refl c) e1 none fun _ => rfl
    · exact staged_nil ..
    · exact staged_nil ..
  · exact staged_nil ..

theorem stage_below {conv : Bytes → Res Bytes} {i o : Path} {q : Option Path} {fs fs' : Fs} {n : Str}
    (hd : fs (i ++ [n]) = some .dir) (h : Stage conv (i ++ [n]) (o ++ [n]) q fs fs') : Stage conv i o q fs fs' := by
  intro p
  rcases h p with e | ⟨e1, e2, e3⟩ | ⟨e0, r, b, rel, c, k, e1, e2, e3, e4⟩
  · exact .inl e
  · refine .inr (.inl ⟨e1, e2, ?_⟩)
    rcases e3 with e3 | ⟨r, e3, rfl⟩
    · rcases List.prefix_concat_iff.1 e3 with rfl | e3
      · exact .inr ⟨[n], hd, rfl⟩
      · exact .inl e3
    · rw [List.append_assoc] at e3
      exact .inr ⟨_, e3, by rw [List.append_assoc]⟩
  · rw [List.append_assoc] at e1
    exact .inr (.inr ⟨e0, n :: r, b, n :: rel, c, k, e1, e2.cons n, by rw [e3, List.append_assoc]; rfl, e4⟩)

theorem staged_mkdir {conv : Bytes → Res Bytes} {i o : Path} {fs : Fs} : Staged conv i o fs (createDirAll fs o) := by
  have key : ∀ pre, pre <+: (createDirAll fs o).1 → Stage conv i o none fs (execs fs pre) := by
    intro pre hp
    rw [createDirAll] at hp
    split at hp
    · rw [List.prefix_nil.1 hp]; exact stage_refl _ _ _ _ _
    · obtain ⟨l, hl, rfl⟩ := prefix_map hp
      intro p
      rw [execs_mkdirs]
      by_cases hm : p ∈ l
      · rw [if_pos hm]
        have := hl.subset hm
        rw [List.mem_filter, List.mem_inits, Option.isNone_iff_eq_none] at this
        exact .inr (.inl ⟨this.2, rfl, .inl this.1⟩)
      · exact .inl (if_neg hm)
  exact ⟨fun pre h => ⟨none, key pre h⟩, fun _ => key _ (List.prefix_refl _)⟩

theorem staged_each {rec : Path → Path → Fs → Run} (hW : Fair W)
    (hrec : ∀ i o fs, Apart i o → Staged W.conv i o fs (rec i o fs)) {i o : Path} (ha : Apart i o) (ns : List Str) :
    ∀ fs, Staged W.conv i o fs (eachEntry W rec i o ns fs) := by
  induction ns with
  | nil => intro fs; exact staged_nil ..
  | cons n ns ih =>
    intro fs
    rw [eachEntry_cons]
    refine staged_andThen ha ?_ fun _ => ih _
    rw [step]
    by_cases hd : fs (i ++ [n]) = some .dir
    · rw [if_pos hd]
      obtain ⟨h1, h2⟩ := hrec _ _ fs (ha.below n)
      exact ⟨fun pre hp => (h1 pre hp).imp fun q hq => stage_below hd hq, fun h => stage_below hd (h2 h)⟩
    · rw [if_neg hd]
      exact staged_single hW

theorem staged_dir (hW : Fair W) (n : Nat) : ∀ i o fs, Apart i o → Staged W.conv i o fs (processDir W n i o fs) := by
  induction n with
  | zero => intro i o fs _; exact staged_nil ..
  | succ n ih =>
    intro i o fs ha
    rw [processDir]
    refine staged_andThen ha ?_ fun _ => ?_
    · split
      · exact staged_nil ..
      · exact staged_mkdir
    · generalize execs fs _ = fs1
      split
      · exact staged_each hW ih ha _ _
      · exact staged_nil ..

/-! ## Output inside the input -/

/-- Files stay files, directories stay directories. -/
def Keeps (fs fs' : Fs) : Prop := (∀ p, fs p = some .dir → fs' p = some .dir) ∧ (∀ p, fs p ≠ none → fs' p ≠ none)

theorem keeps_refl (fs : Fs) : Keeps fs fs := ⟨fun _ h => h, fun _ h => h⟩

theorem Keeps.trans {a b c : Fs} (h1 : Keeps a b) (h2 : Keeps b c) : Keeps a c :=
  ⟨fun p h => h2.1 p (h1.1 p h), fun p h => h2.2 p (h1.2 p h)⟩

theorem keeps_set {fs : Fs} {p : Path} {b : Bytes} (h : fs p ≠ some .dir) : Keeps fs (fs.set p (.file b)) := by
  refine ⟨fun q hq => ?_, fun q hq => ?_⟩
  · have : q ≠ p := by rintro rfl; exact h hq
    rw [set_other _ _ this]; exact hq
  · by_cases e : q = p
    · rw [e, set_same]; simp
    · rw [set_other _ _ e]; exact hq

theorem keeps_mkdirs {D : Path → Prop} {fs fs' : Fs} (h : Effect D [] fs fs') : Keeps fs fs' := by
  have : ∀ p, fs p ≠ none → fs' p = fs p := fun p hp => ((h p).2 rfl).2 fun _ => hp
  exact ⟨fun p hp => by rw [this p (by rw [hp]; simp)]; exact hp, fun p hp => by rw [this p hp]; exact hp⟩

def KeepsAll (rec : Path → Path → Fs → Run) : Prop :=
  ∀ i o fs as, Sound fs → rec i o fs = (as, .done) → Sound (execs fs as) ∧ Keeps fs (execs fs as)

theorem step_any {rec : Path → Path → Fs → Run} (hW : Fair W) (hrec : KeepsAll rec) {i o : Path} {n : Str} {fs : Fs}
    {as : List Action} (hs : Sound fs) (h : step W rec i o n fs = (as, .done)) :
    Sound (execs fs as) ∧ Keeps fs (execs fs as) := by
  rw [step] at h
  split at h
  · exact hrec _ _ _ _ hs h
  · obtain ⟨b, c, g1, g2, g3, g4, g5⟩ := single_done hW h
    rw [g5]
    exact ⟨sound_set hs g3 g4, keeps_set g3⟩

theorem each_any {rec : Path → Path → Fs → Run} (hW : Fair W) (hrec : KeepsAll rec) {i o : Path} (ns : List Str) :
    ∀ fs as, Sound fs → eachEntry W rec i o ns fs = (as, .done) → Sound (execs fs as) ∧ Keeps fs (execs fs as) := by
  induction ns with
  | nil => intro fs as hs h; cases h; exact ⟨hs, keeps_refl fs⟩
  | cons n ns ih =>
    intro fs as hs h
    rw [eachEntry_cons] at h
    obtain ⟨a1, a2, h1, h2, rfl⟩ := andThen_done.1 h
    obtain ⟨s1, k1⟩ := step_any hW hrec hs h1
    obtain ⟨s2, k2⟩ := ih _ _ s1 h2
    rw [execs_append]
    exact ⟨s2, k1.trans k2⟩

theorem dir_any (hW : Fair W) (n : Nat) : KeepsAll (processDir W n) := by
  induction n with
  | zero => intro i o fs as _ h; cases h
  | succ n ih =>
    intro i o fs as hs h
    rw [processDir] at h
    obtain ⟨a1, a2, h1, h2, rfl⟩ := andThen_done.1 h
    obtain ⟨e1, s1, -⟩ := prepare_done hs h1
    rw [execs_append]
    split at h2
    · obtain ⟨s2, k2⟩ := each_any hW ih _ _ _ s1 h2
      exact ⟨s2, (keeps_mkdirs e1).trans k2⟩
    · cases h2

theorem each_inside {rec : Path → Path → Fs → Run} (hW : Fair W) (hrec : KeepsAll rec) {i : Path} {x : Str} {q : Path}
    (hx : ∀ fs, Sound fs → (rec (i ++ [x]) (i ++ x :: q ++ [x]) fs).2 ≠ .done) (ns : List Str) :
    ∀ fs, Sound fs → fs (i ++ x :: q) ≠ none → x ∈ ns → (eachEntry W rec i (i ++ x :: q) ns fs).2 ≠ .done := by
  induction ns with
  | nil => intro _ _ _ h; cases h
  | cons n ns ih =>
    intro fs hs ho hm hdone
    rw [eachEntry_cons] at hdone
    obtain ⟨a1, a2, h1, h2, -⟩ := andThen_done.1 (run_eta hdone)
    by_cases hn : n = x
    · subst hn
      rw [step] at h1
      by_cases hd : fs (i ++ [n]) = some .dir
      · rw [if_pos hd] at h1
        exact hx fs hs (by rw [h1])
      · rw [if_neg hd] at h1
        obtain ⟨b, c, g1, g2, g3, g4, g5⟩ := single_done hW h1
        rw [List.dropLast_concat] at g4
        have e : i ++ n :: q = (i ++ [n]) ++ q := by rw [List.append_assoc]; rfl
        rcases sound_prefix hs ho (p := i ++ [n]) ⟨q, by rw [e]⟩ with h | h
        · rw [← h] at g4; exact hd g4
        · exact hd h
    · obtain ⟨s1, k1⟩ := step_any hW hrec hs h1
      exact ih _ s1 (k1.2 _ ho) ((List.mem_cons.1 hm).resolve_left fun h => hn h.symm) (by rw [h2])

theorem dir_inside (hW : Fair W) (n : Nat) : ∀ i x q fs, Sound fs → (processDir W n i (i ++ x :: q) fs).2 ≠ .done := by
  induction n with
  | zero => intro i x q fs _ h; cases h
  | succ n ih =>
    intro i x q fs hs hdone
    rw [processDir] at hdone
    obtain ⟨a1, a2, h1, h2, -⟩ := andThen_done.1 (run_eta hdone)
    obtain ⟨e1, s1, o1⟩ := prepare_done hs h1
    split at h2
    · refine each_inside hW (dir_any hW n) ?_ _ _ s1 o1 ?_ (by rw [h2])
      · intro fs' hs'
        have := ih (i ++ [x]) (q ++ [x]).head! (q ++ [x]).tail fs' hs'
        have e : (i ++ [x]) ++ (q ++ [x]).head! :: (q ++ [x]).tail = i ++ x :: q ++ [x] := by
          have : (q ++ [x]).head! :: (q ++ [x]).tail = q ++ [x] := by cases q <;> rfl
          rw [this]; simp
        rwa [e] at this
      · exact (hW.mem _ s1 _ _).2 (sound_below s1 o1)
    · cases h2

/-! ## Outputs of different files -/

theorem mirror_iff (ds : Path) (n : Str) (rel : Path) : Mirror (ds ++ [n]) rel ↔ rel = ds ++ [rsName n] := by
  constructor
  · rintro ⟨ds', n', m, h1, rfl, h2⟩
    obtain ⟨rfl, h3⟩ := List.append_inj' h1 rfl
    cases h3
    rw [(rsName_iff n m).2 h2]
  · rintro rfl
    exact ⟨ds, n, _, rfl, rfl, (rsName_iff n _).1 rfl⟩

theorem mirror_unique {r a b : Path} (h1 : Mirror r a) (h2 : Mirror r b) : a = b := by
  obtain ⟨ds, n, m, rfl, h⟩ := h1
  have h3 : Mirror (ds ++ [n]) a := ⟨ds, n, m, rfl, h⟩
  rw [(mirror_iff ds n a).1 h3, (mirror_iff ds n b).1 h2]

theorem mirror_exists {r : Path} (h : r ≠ []) : ∃ rel, Mirror r rel := by
  rcases List.eq_nil_or_concat' r with rfl | ⟨ds, n, rfl⟩
  · exact absurd rfl h
  · exact ⟨_, (mirror_iff ds n _).2 rfl⟩

theorem outputs_distinct {conv : Bytes → Res Bytes} {o : Path} {fl ws : List (Path × Bytes)}
    (h : List.Forall₂ (IsOutput conv o) fl ws) {f : Path × Bytes} (hf : f ∈ fl) {rel : Path} (hm : Mirror f.1 rel)
    (hd : ∀ g ∈ fl, Mirror g.1 rel → g = f) : ∃ c, conv f.2 = .ok c ∧ lastFor (o ++ rel) ws = some c := by
  induction h with
  | nil => cases hf
  | @cons g w fl ws h1 h2 ih =>
    rw [lastFor]
    by_cases hfl : f ∈ fl
    · obtain ⟨c, hc, hl⟩ := ih hfl fun g hg => hd g (List.mem_cons_of_mem _ hg)
      exact ⟨c, hc, by rw [hl]; rfl⟩
    · have hg : f = g := (List.mem_cons.1 hf).resolve_right hfl
      subst hg
      obtain ⟨⟨rel', m1, m2⟩, m3⟩ := h1
      have hrel : rel' = rel := mirror_unique m1 hm
      subst hrel
      refine ⟨w.2, m3, ?_⟩
      have : lastFor (o ++ rel') ws = none := by
        rw [lastFor_none]
        intro hmem
        obtain ⟨w', hw', e⟩ := List.mem_map.1 hmem
        obtain ⟨g, hg, rel2, hm2, e2⟩ := outputs_below h2 w' hw'
        have : rel' = rel2 := List.append_cancel_left (e.symm.trans e2)
        subst this
        have := hd g (List.mem_cons_of_mem _ hg) hm2
        rw [this] at hg
        exact hfl hg
      rw [this, if_pos m2]
      rfl

/-- When two files have the same place, it gets the code of one of them. -/
theorem outputs_mem {conv : Bytes → Res Bytes} {o : Path} {fl ws : List (Path × Bytes)}
    (h : List.Forall₂ (IsOutput conv o) fl ws) {p : Path} {c : Bytes} (hl : lastFor p ws = some c) :
    ∃ f ∈ fl, ∃ rel, Mirror f.1 rel ∧ p = o ++ rel ∧ conv f.2 = .ok c := by
  have := lastFor_mem hl
  clear hl
  induction h with
  | nil => cases this
  | cons h1 _ ih =>
    rcases List.mem_cons.1 this with e | hm
    · obtain ⟨⟨rel, m1, m2⟩, m3⟩ := h1
      subst e
      exact ⟨_, List.mem_cons_self .., rel, m1, m2, m3⟩
    · obtain ⟨f, hf, h⟩ := ih hm
      exact ⟨f, List.mem_cons_of_mem _ hf, h⟩

/-! ## Small file systems for examples -/

def fsOf (l : List (Path × Entry)) : Fs := fun p => (l.find? fun e => decide (e.1 = p)).map (·.2)

theorem fsOf_mem {l : List (Path × Entry)} {p : Path} {e : Entry} (h : fsOf l p = some e) : (p, e) ∈ l := by
  rw [fsOf, Option.map_eq_some_iff] at h
  obtain ⟨x, hx, rfl⟩ := h
  have h1 := List.mem_of_find?_eq_some hx
  have h2 := List.find?_some hx
  rw [decide_eq_true_eq] at h2
  rw [← h2]
  exact h1

theorem fsOf_sound {l : List (Path × Entry)} (h1 : fsOf l [] = some .dir)
    (h2 : ∀ e ∈ l, e.1 ≠ [] → fsOf l e.1.dropLast = some .dir) : Sound (fsOf l) := by
  refine ⟨h1, ?_, ?_⟩
  · intro p n hp
    obtain ⟨e, he⟩ := Option.ne_none_iff_exists'.1 hp
    have := h2 _ (fsOf_mem he) (by simp)
    rwa [List.dropLast_concat] at this
  · intro p
    refine ⟨l.flatMap (·.1), fun n hn => ?_⟩
    obtain ⟨e, he⟩ := Option.ne_none_iff_exists'.1 hn
    exact List.mem_flatMap.2 ⟨_, fsOf_mem he, by simp⟩

open Classical in
/-- A world which converts with the given function. -/
noncomputable def world (conv : Bytes → Res Bytes) : World where
  conv := conv
  chunk b := b.map fun x => [x]
  ls fs p := if h : Sound fs then (((h.finite p).choose.filter fun n => fs (p ++ [n]) ≠ none)).dedup else []

open Classical in
theorem world_fair (conv : Bytes → Res Bytes) : Fair (world conv) := by
  refine ⟨?_, ?_, ?_⟩
  · intro b
    show (b.map fun x => [x]).flatten = b
    induction b with
    | nil => rfl
    | cons x b ih => rw [List.map_cons, List.flatten_cons, ih]; rfl
  · intro fs p
    show (if h : Sound fs then _ else []).Nodup
    split
    · exact List.nodup_dedup _
    · exact List.nodup_nil
  · intro fs h p n
    show n ∈ (if h : Sound fs then _ else []) ↔ _
    rw [dif_pos h, List.mem_dedup, List.mem_filter]
    constructor
    · intro hn; simpa using hn.2
    · intro hn
      exact ⟨(h.finite p).choose_spec n hn, by simpa using hn⟩

end Verif.Lemmas.Cli
