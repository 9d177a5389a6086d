import Verif.Spec.Cli

/-! # Conversion of directories -/

namespace Verif.Lemmas.Cli

open Verif Verif.Model Verif.Model.Cli Verif.Spec.Cli

/-! ## Names -/

theorem lastDot_cases (n : Str) : '.' ∉ n ∨ ∃ b e, n = b ++ '.' :: e ∧ '.' ∉ e := by
  induction n using List.reverseRecOn with
  | nil => exact .inl (by simp)
  | append_singleton n c ih =>
    by_cases hc : c = '.'
    · subst hc; exact .inr ⟨n, [], rfl, by simp⟩
    · rcases ih with h | ⟨b, e, rfl, he⟩
      · left
        intro hm
        rcases List.mem_append.1 hm with hm | hm
        · exact h hm
        · exact hc (List.mem_singleton.1 hm).symm
      · refine .inr ⟨b, e ++ [c], by simp, ?_⟩
        intro hm
        rcases List.mem_append.1 hm with hm | hm
        · exact he hm
        · exact hc (List.mem_singleton.1 hm).symm

theorem beforeLastDot_some {b e : Str} (he : '.' ∉ e) : beforeLastDot (b ++ '.' :: e) = some b := by
  have : (b ++ '.' :: e).reverse.dropWhile (fun c : Char => decide (c ≠ '.')) = '.' :: b.reverse := by
    rw [List.reverse_append, List.reverse_cons, List.append_assoc, List.dropWhile_append_of_pos]
    · rfl
    · intro c hc
      have : c ≠ '.' := by rintro rfl; exact he (by simpa using hc)
      simpa using this
  rw [beforeLastDot, this]
  simp

theorem beforeLastDot_none {n : Str} (h : '.' ∉ n) : beforeLastDot n = none := by
  have : n.reverse.dropWhile (fun c : Char => decide (c ≠ '.')) = [] := by
    have h' : ∀ c ∈ n.reverse, c ≠ '.' := by rintro c hc rfl; exact h (by simpa using hc)
    generalize n.reverse = l at h'
    induction l with
    | nil => rfl
    | cons c cs ih =>
      rw [List.dropWhile_cons_of_pos (by simpa using h' c (List.mem_cons_self ..))]
      exact ih fun d hd => h' d (List.mem_cons_of_mem _ hd)
  rw [beforeLastDot, this]

theorem stem_iff (n s : Str) : fileStem n = s ↔ Stem n s := by
  constructor
  · rintro rfl
    rcases lastDot_cases n with h | ⟨b, e, rfl, he⟩
    · rw [fileStem, beforeLastDot_none h]
      exact .plain fun hm => h (List.mem_of_mem_tail hm)
    · cases b with
      | nil =>
        rw [fileStem, beforeLastDot_some he]
        exact .plain he
      | cons c cs =>
        rw [fileStem, beforeLastDot_some he]
        exact .ext (by simp) he
  · intro h
    cases h with
    | ext hs he =>
      rw [fileStem, beforeLastDot_some he]
      cases s with
      | nil => exact absurd rfl hs
      | cons c cs => rfl
    | plain h =>
      cases n with
      | nil => rfl
      | cons c cs =>
        by_cases hc : c = '.'
        · subst hc
          rw [fileStem, show beforeLastDot ('.' :: cs) = some [] from beforeLastDot_some (b := []) h]
        · rw [fileStem, beforeLastDot_none]
          intro hm
          rcases List.mem_cons.1 hm with hm | hm
          · exact hc hm.symm
          · exact h hm

theorem rsName_iff (n m : Str) : rsName n = m ↔ OutName n m := by
  rw [rsName]
  constructor
  · rintro rfl
    exact ⟨_, (stem_iff n _).1 rfl, rfl⟩
  · rintro ⟨s, hs, rfl⟩
    rw [(stem_iff n s).2 hs]
    rfl

/-! ## Effects -/

theorem execs_append (fs : Fs) (a b : List Action) : execs fs (a ++ b) = execs (execs fs a) b := List.foldl_append ..

theorem lastFor_append (p : Path) (a b : List (Path × Bytes)) : lastFor p (a ++ b) = (lastFor p b).or (lastFor p a) := by
  induction a with
  | nil => simp [lastFor]
  | cons w a ih =>
    rw [List.cons_append, lastFor, ih, lastFor]
    cases lastFor p b <;> rfl

theorem lastFor_mem {p : Path} {ws : List (Path × Bytes)} {b : Bytes} (h : lastFor p ws = some b) : (p, b) ∈ ws := by
  induction ws with
  | nil => cases h
  | cons w ws ih =>
    rw [lastFor] at h
    cases hl : lastFor p ws with
    | some c =>
      rw [hl] at h
      cases h
      exact List.mem_cons_of_mem _ (ih hl)
    | none =>
      rw [hl] at h
      by_cases hq : w.1 = p
      · rw [if_pos hq] at h
        cases h
        rw [← hq]
        exact List.mem_cons_self ..
      · rw [if_neg hq] at h; cases h

theorem lastFor_none {p : Path} {ws : List (Path × Bytes)} : lastFor p ws = none ↔ p ∉ ws.map (·.1) := by
  induction ws with
  | nil => simp [lastFor]
  | cons w ws ih =>
    rw [lastFor, Option.or_eq_none_iff, ih, List.map_cons, List.mem_cons, not_or]
    constructor
    · rintro ⟨h1, h2⟩
      refine ⟨?_, h1⟩
      rintro rfl
      simp at h2
    · rintro ⟨h1, h2⟩
      exact ⟨h2, if_neg fun h => h1 h.symm⟩

theorem _root_.Verif.Spec.Cli.Effect.nil (fs : Fs) : Effect (fun _ => False) [] fs fs :=
  fun _ => ⟨fun _ h => (by cases h), fun _ => ⟨fun h => h.elim, fun _ => rfl⟩⟩

theorem _root_.Verif.Spec.Cli.Effect.comp {D1 D2 : Path → Prop} {ws1 ws2 : List (Path × Bytes)} {fs fs1 fs2 : Fs} (h1 : Effect D1 ws1 fs fs1)
    (h2 : Effect D2 ws2 fs1 fs2) : Effect (fun p => D1 p ∨ D2 p) (ws1 ++ ws2) fs fs2 := by
  intro p
  obtain ⟨a1, b1⟩ := h1 p
  obtain ⟨a2, b2⟩ := h2 p
  rw [lastFor_append]
  constructor
  · intro b hb
    cases hl : lastFor p ws2 with
    | some c =>
      rw [hl] at hb
      cases hb
      exact a2 b hl
    | none =>
      rw [hl] at hb
      have := a1 b hb
      rw [(b2 hl).2 fun _ h => by rw [this] at h; cases h]
      exact this
  · intro hn
    rw [Option.or_eq_none_iff] at hn
    obtain ⟨c1, d1⟩ := b1 hn.2
    obtain ⟨c2, d2⟩ := b2 hn.1
    constructor
    · intro hD hp
      by_cases hD1 : D1 p
      · have := c1 hD1 hp
        rw [d2 fun _ h => by rw [this] at h; cases h]
        exact this
      · have : fs1 p = fs p := d1 fun h => absurd h hD1
        exact c2 (hD.resolve_left hD1) (this.trans hp)
    · intro hD
      have e1 : fs1 p = fs p := d1 fun h => hD (.inl h)
      rw [d2 fun h => by rw [e1]; exact hD (.inr h)]
      exact e1

/-- Directories which are there already need not be counted. -/
theorem _root_.Verif.Spec.Cli.Effect.adjust {D D' : Path → Prop} {ws : List (Path × Bytes)} {fs fs' : Fs} (h : Effect D ws fs fs')
    (h1 : ∀ p, D p → D' p ∨ fs p ≠ none) (h2 : ∀ p, D' p → D p ∨ fs p ≠ none) : Effect D' ws fs fs' := by
  intro p
  obtain ⟨a, b⟩ := h p
  refine ⟨a, fun hn => ?_⟩
  obtain ⟨c, d⟩ := b hn
  constructor
  · intro hD hp
    exact c ((h2 p hD).resolve_right fun h => h hp) hp
  · intro hD
    refine d fun hDp => ?_
    rcases h1 p hDp with h | h
    · exact hD h
    · exact h

/-- Where nothing is written and no directory is made, nothing changes. -/
theorem _root_.Verif.Spec.Cli.Effect.same {D : Path → Prop} {ws : List (Path × Bytes)} {fs fs' : Fs} (h : Effect D ws fs fs') {p : Path}
    (h1 : ¬ D p) (h2 : p ∉ ws.map (·.1)) : fs' p = fs p := ((h p).2 (lastFor_none.2 h2)).2 fun h => absurd h h1

theorem andThen_done {r : Run} {fs : Fs} {k : Fs → Run} {as : List Action} :
    r.andThen fs k = (as, .done) ↔ ∃ a1 a2, r = (a1, .done) ∧ k (execs fs a1) = (a2, .done) ∧ as = a1 ++ a2 := by
  obtain ⟨a, o⟩ := r
  rw [Run.andThen]
  cases o with
  | done =>
    dsimp only
    constructor
    · intro h
      refine ⟨a, (k (execs fs a)).1, rfl, ?_, (congrArg Prod.fst h).symm⟩
      have : (k (execs fs a)).2 = .done := congrArg Prod.snd h
      rw [← this]
    · rintro ⟨a1, a2, h1, h2, rfl⟩
      cases h1
      rw [h2]
  | err => exact ⟨fun h => (by cases h), fun ⟨_, _, h, _⟩ => (by cases h)⟩
  | panic => exact ⟨fun h => (by cases h), fun ⟨_, _, h, _⟩ => (by cases h)⟩
  | deep => exact ⟨fun h => (by cases h), fun ⟨_, _, h, _⟩ => (by cases h)⟩

/-! ## The single steps -/

theorem set_same (fs : Fs) (p : Path) (e : Entry) : fs.set p e p = some e := if_pos rfl
theorem set_other (fs : Fs) {p q : Path} (e : Entry) (h : q ≠ p) : fs.set p e q = fs q := if_neg h
theorem set_set (fs : Fs) (p : Path) (a b : Entry) : (fs.set p a).set p b = fs.set p b := by
  funext q
  by_cases h : q = p
  · rw [h, set_same, set_same]
  · rw [set_other _ _ h, set_other _ _ h, set_other _ _ h]

theorem execs_appends (cs : List Bytes) (fs : Fs) (p : Path) (c : Bytes) :
    execs (fs.set p (.file c)) (cs.map (.append p)) = fs.set p (.file (c ++ cs.flatten)) := by
  induction cs generalizing c with
  | nil => rw [List.flatten_nil, List.append_nil]; rfl
  | cons b cs ih =>
    have : Action.exec (fs.set p (.file c)) (.append p b) = fs.set p (.file (c ++ b)) := by
      rw [Action.exec, set_same]
      dsimp only
      exact set_set ..
    show execs (Action.exec (fs.set p (.file c)) (.append p b)) _ = _
    rw [this, ih, List.flatten_cons, List.append_assoc]

theorem execs_write (cs : List Bytes) (fs : Fs) (p : Path) :
    execs fs (.truncate p :: cs.map (.append p)) = fs.set p (.file cs.flatten) := execs_appends cs fs p []

theorem effect_set (fs : Fs) (p : Path) (b : Bytes) : Effect (fun _ => False) [(p, b)] fs (fs.set p (.file b)) := by
  intro q
  by_cases h : q = p
  · subst h
    refine ⟨fun c hc => ?_, fun hn => ?_⟩
    · rw [show lastFor q [(q, b)] = some b by simp [lastFor]] at hc
      cases hc
      exact set_same ..
    · simp [lastFor] at hn
  · have : lastFor q [(p, b)] = none := by simp [lastFor, Ne.symm h]
    rw [this]
    exact ⟨fun _ h => (by cases h), fun _ => ⟨fun h => h.elim, fun _ => set_other _ _ h⟩⟩

theorem execs_mkdirs (ps : List Path) (fs : Fs) (q : Path) :
    execs fs (ps.map .mkdir) q = if q ∈ ps then some .dir else fs q := by
  induction ps generalizing fs with
  | nil => rfl
  | cons p ps ih =>
    show execs (fs.set p .dir) (ps.map .mkdir) q = _
    rw [ih]
    by_cases h : q ∈ ps
    · rw [if_pos h, if_pos (List.mem_cons_of_mem _ h)]
    · rw [if_neg h]
      by_cases hq : q = p
      · rw [hq, set_same, if_pos (List.mem_cons_self ..)]
      · rw [set_other _ _ hq, if_neg]
        intro hm
        rcases List.mem_cons.1 hm with hm | hm
        · exact hq hm
        · exact h hm

theorem createDirAll_done {fs : Fs} {p : Path} {as : List Action} (h : createDirAll fs p = (as, .done)) :
    (∀ q, q <+: p → ∀ b, fs q ≠ some (.file b)) ∧ Effect (· <+: p) [] fs (execs fs as) := by
  rw [createDirAll] at h
  split at h
  · cases h
  · next hf =>
    cases h
    refine ⟨fun q hq b hb => ?_, fun q => ⟨fun _ h => (by cases h), fun _ => ?_⟩⟩
    · apply hf
      rw [List.any_eq_true]
      exact ⟨q, (List.mem_inits _ _).2 hq, by rw [hb]⟩
    · rw [execs_mkdirs]
      have hm : q ∈ p.inits.filter (fun q => (fs q).isNone) ↔ q <+: p ∧ fs q = none := by
        rw [List.mem_filter, List.mem_inits, Option.isNone_iff_eq_none]
      constructor
      · intro h1 h2
        rw [if_pos (hm.2 ⟨h1, h2⟩)]
      · intro h1
        rw [if_neg fun h => h1 (hm.1 h).1 (hm.1 h).2]

theorem createDirAll_ok {fs : Fs} {p : Path} (h : ∀ q, q <+: p → ∀ b, fs q ≠ some (.file b)) :
    (createDirAll fs p).2 = .done := by
  rw [createDirAll, if_neg]
  rw [List.any_eq_true]
  rintro ⟨q, hq, hf⟩
  split at hf
  · next b hb => exact h q ((List.mem_inits _ _).1 hq) b hb
  · cases hf

variable {W : World}

theorem writeToFile_done {fs : Fs} {p : Path} {b : Bytes} {as : List Action} (hW : Fair W)
    (h : writeToFile W fs p b = (as, .done)) :
    fs p ≠ some .dir ∧ fs p.dropLast = some .dir ∧ execs fs as = fs.set p (.file b) := by
  rw [writeToFile] at h
  split at h
  · cases h
  · next hc =>
    cases h
    rw [not_or, not_not] at hc
    rw [execs_write, hW.chunk]
    exact ⟨hc.1, hc.2, rfl⟩

theorem writeToFile_ok {fs : Fs} {p : Path} {b : Bytes} (h1 : fs p ≠ some .dir) (h2 : fs p.dropLast = some .dir) :
    (writeToFile W fs p b).2 = .done := by
  rw [writeToFile, if_neg]
  rintro (h | h)
  · exact h1 h
  · exact h h2

theorem single_done {fs : Fs} {i o : Path} {as : List Action} (hW : Fair W)
    (h : processSingleFile W fs i (some o) = (as, .done)) :
    ∃ b c, fs i = some (.file b) ∧ W.conv b = .ok c ∧ fs o ≠ some .dir ∧ fs o.dropLast = some .dir ∧
      execs fs as = fs.set o (.file c) := by
  rw [processSingleFile] at h
  split at h
  · next b hb =>
    split at h
    · next c hc =>
      obtain ⟨h1, h2, h3⟩ := writeToFile_done hW h
      exact ⟨b, c, hb, hc, h1, h2, h3⟩
    · cases h
    · cases h
  · cases h

/-! ## Soundness is kept -/

theorem sound_prefix {fs : Fs} (h : Sound fs) {p q : Path} (hp : fs q ≠ none) (hpq : p <+: q) : p = q ∨ fs p = some .dir := by
  obtain ⟨r, rfl⟩ := hpq
  induction r using List.reverseRecOn with
  | nil => left; simp
  | append_singleton r n ih =>
    right
    rw [← List.append_assoc] at hp
    have hd := h.parent _ _ hp
    rcases ih (by rw [hd]; simp) with e | e
    · rw [e]; exact hd
    · exact e

theorem sound_set {fs : Fs} (h : Sound fs) {p : Path} {b : Bytes} (h1 : fs p ≠ some .dir) (h2 : fs p.dropLast = some .dir) :
    Sound (fs.set p (.file b)) := by
  have hp : p ≠ [] := by rintro rfl; exact h1 h.root
  refine ⟨by rw [set_other _ _ (Ne.symm hp)]; exact h.root, ?_, ?_⟩
  swap
  · intro q
    obtain ⟨l, hl⟩ := h.finite q
    refine ⟨l ++ p, fun n hn => ?_⟩
    by_cases he : q ++ [n] = p
    · rw [← he]; simp
    · rw [set_other _ _ he] at hn
      exact List.mem_append_left _ (hl n hn)
  intro q n hq
  have key : fs q = some .dir := by
    by_cases he : q ++ [n] = p
    · rw [← he, List.dropLast_concat] at h2
      exact h2
    · rw [set_other _ _ he] at hq
      exact h.parent q n hq
  by_cases he : q = p
  · rw [he] at key; exact absurd key h1
  · rw [set_other _ _ he]; exact key

theorem sound_mkdirs {fs fs' : Fs} (h : Sound fs) {p : Path} (h1 : ∀ q, q <+: p → ∀ b, fs q ≠ some (.file b))
    (h2 : Effect (· <+: p) [] fs fs') : Sound fs' := by
  have hval : ∀ q, fs q = some .dir → fs' q = some .dir := by
    intro q hq
    rw [((h2 q).2 rfl).2 fun _ => by rw [hq]; simp]
    exact hq
  refine ⟨hval _ h.root, ?_, ?_⟩
  swap
  · intro q
    obtain ⟨l, hl⟩ := h.finite q
    refine ⟨l ++ p, fun n hn => ?_⟩
    by_cases he : q ++ [n] <+: p
    · exact List.mem_append_right _ (he.subset (by simp))
    · rw [((h2 _).2 rfl).2 fun h => absurd h he] at hn
      exact List.mem_append_left _ (hl n hn)
  intro q n hq
  by_cases hn : fs (q ++ [n]) = none
  · by_cases hp : q ++ [n] <+: p
    · have hqp : q <+: p := List.IsPrefix.trans ⟨[n], rfl⟩ hp
      cases hf : fs q with
      | none => exact ((h2 q).2 rfl).1 hqp hf
      | some e =>
        cases e with
        | file b => exact absurd hf (h1 q hqp b)
        | dir => exact hval q hf
    · rw [((h2 _).2 rfl).2 fun h => absurd h hp] at hq
      exact absurd hn hq
  · exact hval _ (h.parent q n hn)

/-! ## Paths -/

theorem _root_.Verif.Spec.Cli.Apart.below {i o : Path} (h : Apart i o) (n : Str) : Apart (i ++ [n]) (o ++ [n]) := by
  constructor
  · intro hp
    rcases List.prefix_concat_iff.1 hp with e | e
    · exact h.1 (by rw [List.append_cancel_right e])
    · exact h.1 (List.IsPrefix.trans ⟨[n], rfl⟩ e)
  · intro hp
    rcases List.prefix_concat_iff.1 hp with e | e
    · exact h.2 (by rw [List.append_cancel_right e])
    · exact h.2 (List.IsPrefix.trans ⟨[n], rfl⟩ e)

/-- Paths below one are not related to the other. -/
theorem _root_.Verif.Spec.Cli.Apart.ne {i o : Path} (h : Apart i o) (r : Path) : ¬ i ++ r <+: o ∧ ∀ s, i ++ r ≠ o ++ s := by
  refine ⟨fun hp => h.1 (List.IsPrefix.trans ⟨r, rfl⟩ hp), fun s e => ?_⟩
  have h1 : i <+: o ++ s := ⟨r, e⟩
  have h2 : o <+: o ++ s := ⟨s, rfl⟩
  rcases List.prefix_or_prefix_of_prefix h1 h2 with hp | hp
  · exact h.1 hp
  · exact h.2 hp

/-! ## Trees -/

mutual
theorem At.congr {fs fs' : Fs} : ∀ {t : Tree} {p : Path}, (∀ r, fs' (p ++ r) = fs (p ++ r)) → t.At fs p → t.At fs' p
  | .file b, p, h, ha => by
    have := h []
    rw [List.append_nil] at this
    rw [Tree.At] at ha ⊢
    rw [this]; exact ha
  | .dir ks, p, h, ha => by
    have := h []
    rw [List.append_nil] at this
    rw [Tree.At] at ha ⊢
    refine ⟨by rw [this]; exact ha.1, ha.2.1, fun n hn => ha.2.2.1 n (by rw [← h]; exact hn), ?_⟩
    exact EntriesAt.congr h ha.2.2.2

theorem EntriesAt.congr {fs fs' : Fs} : ∀ {ks : List (Str × Tree)} {p : Path}, (∀ r, fs' (p ++ r) = fs (p ++ r)) →
    EntriesAt fs p ks → EntriesAt fs' p ks
  | [], _, _, _ => by rw [EntriesAt]; trivial
  | (n, t) :: ks, p, h, ha => by
    rw [EntriesAt] at ha ⊢
    refine ⟨At.congr (fun r => ?_) ha.1, EntriesAt.congr h ha.2⟩
    rw [List.append_assoc]
    exact h _
end

theorem filesIn_mem {ks : List (Str × Tree)} {f : Path × Bytes} : f ∈ filesIn ks ↔
    ∃ n t r, (n, t) ∈ ks ∧ (r, f.2) ∈ t.files ∧ f.1 = n :: r := by
  induction ks with
  | nil => simp [filesIn]
  | cons k ks ih =>
    obtain ⟨n, t⟩ := k
    rw [filesIn, List.mem_append, ih, List.mem_map]
    constructor
    · rintro (⟨g, hg, rfl⟩ | ⟨m, t', r, h1, h2, h3⟩)
      · exact ⟨n, t, g.1, List.mem_cons_self .., hg, rfl⟩
      · exact ⟨m, t', r, List.mem_cons_of_mem _ h1, h2, h3⟩
    · rintro ⟨m, t', r, h1, h2, h3⟩
      rcases List.mem_cons.1 h1 with e | h1
      · cases e
        exact .inl ⟨(r, f.2), h2, by rw [← h3]⟩
      · exact .inr ⟨m, t', r, h1, h2, h3⟩

theorem dirsIn_mem {ks : List (Str × Tree)} {d : Path} : d ∈ dirsIn ks ↔ ∃ n t r, (n, t) ∈ ks ∧ r ∈ t.dirs ∧ d = n :: r := by
  induction ks with
  | nil => simp [dirsIn]
  | cons k ks ih =>
    obtain ⟨n, t⟩ := k
    rw [dirsIn, List.mem_append, ih, List.mem_map]
    constructor
    · rintro (⟨g, hg, rfl⟩ | ⟨m, t', r, h1, h2, h3⟩)
      · exact ⟨n, t, g, List.mem_cons_self .., hg, rfl⟩
      · exact ⟨m, t', r, List.mem_cons_of_mem _ h1, h2, h3⟩
    · rintro ⟨m, t', r, h1, h2, h3⟩
      rcases List.mem_cons.1 h1 with e | h1
      · cases e
        exact .inl ⟨r, h2, h3.symm⟩
      · exact .inr ⟨m, t', r, h1, h2, h3⟩

theorem entriesAt_mem {fs : Fs} {p : Path} {ks : List (Str × Tree)} : EntriesAt fs p ks ↔
    ∀ n t, (n, t) ∈ ks → t.At fs (p ++ [n]) := by
  induction ks with
  | nil => simp [EntriesAt]
  | cons k ks ih =>
    obtain ⟨n, t⟩ := k
    rw [EntriesAt, ih]
    constructor
    · rintro ⟨h1, h2⟩ m t' hm
      rcases List.mem_cons.1 hm with e | hm
      · cases e; exact h1
      · exact h2 m t' hm
    · intro h
      exact ⟨h n t (List.mem_cons_self ..), fun m t' hm => h m t' (List.mem_cons_of_mem _ hm)⟩

theorem _root_.Verif.Spec.Cli.Mirror.cons {r r' : Path} (h : Mirror r r') (n : Str) : Mirror (n :: r) (n :: r') := by
  obtain ⟨ds, a, b, rfl, rfl, hab⟩ := h
  exact ⟨n :: ds, a, b, rfl, rfl, hab⟩

theorem _root_.Verif.Spec.Cli.Mirror.one (n : Str) : Mirror [n] [rsName n] := ⟨[], n, rsName n, rfl, rfl, (rsName_iff n _).1 rfl⟩

theorem _root_.Verif.Spec.Cli.Mirror.ne_nil {r r' : Path} (h : Mirror r r') : r' ≠ [] := by
  obtain ⟨ds, a, b, rfl, rfl, hab⟩ := h
  simp

/-! ## A complete run -/

/-- What the proof needs of the recursive calls. -/
def Mirrors (W : World) (rec : Path → Path → Fs → Run) : Prop :=
  ∀ i o fs as, Apart i o → Sound fs → rec i o fs = (as, .done) → ∃ ks ws, (Tree.dir ks).At fs i ∧
    List.Forall₂ (IsOutput W.conv o) (filesIn ks) ws ∧ Effect (DirFor o (.dir ks)) ws fs (execs fs as) ∧ Sound (execs fs as)

theorem outputs_below {conv : Bytes → Res Bytes} {o : Path} {fl ws : List (Path × Bytes)}
    (h : List.Forall₂ (IsOutput conv o) fl ws) : ∀ w ∈ ws, ∃ f ∈ fl, ∃ rel, Mirror f.1 rel ∧ w.1 = o ++ rel := by
  induction h with
  | nil => intro w hw; cases hw
  | cons h1 _ ih =>
    intro w hw
    rcases List.mem_cons.1 hw with rfl | hw
    · obtain ⟨⟨rel, h2, h3⟩, -⟩ := h1
      exact ⟨_, List.mem_cons_self .., rel, h2, h3⟩
    · obtain ⟨f, hf, h⟩ := ih w hw
      exact ⟨f, List.mem_cons_of_mem _ hf, h⟩

theorem outputs_cons {conv : Bytes → Res Bytes} {o : Path} {n : Str} {fl ws : List (Path × Bytes)}
    (h : List.Forall₂ (IsOutput conv (o ++ [n])) fl ws) :
    List.Forall₂ (IsOutput conv o) (fl.map fun f => (n :: f.1, f.2)) ws := by
  induction h with
  | nil => exact .nil
  | cons h1 _ ih =>
    obtain ⟨⟨rel, h2, h3⟩, h4⟩ := h1
    refine .cons ⟨⟨n :: rel, h2.cons n, ?_⟩, h4⟩ ih
    rw [h3, List.append_assoc]
    rfl

/-- The input stays as it is. -/
theorem _root_.Verif.Spec.Cli.Effect.input {conv : Bytes → Res Bytes} {i o : Path} (ha : Apart i o) {D : Path → Prop} {fl ws : List (Path × Bytes)}
    {fs fs' : Fs} (h : Effect D ws fs fs') (hD : ∀ p, D p → p <+: o ∨ ∃ d, p = o ++ d)
    (hw : List.Forall₂ (IsOutput conv o) fl ws) (r : Path) : fs' (i ++ r) = fs (i ++ r) := by
  obtain ⟨h1, h2⟩ := ha.ne r
  refine h.same (fun hd => ?_) fun hm => ?_
  · rcases hD _ hd with h | ⟨d, h⟩
    · exact h1 h
    · exact h2 d h
  · obtain ⟨w, hw1, hw2⟩ := List.mem_map.1 hm
    obtain ⟨f, -, rel, -, e⟩ := outputs_below hw w hw1
    exact h2 rel (hw2.symm.trans e)

/-- The body of the loop. -/
def step (W : World) (rec : Path → Path → Fs → Run) (i o : Path) (n : Str) (fs : Fs) : Run :=
  if fs (i ++ [n]) = some .dir then rec (i ++ [n]) (o ++ [n]) fs
  else processSingleFile W fs (i ++ [n]) (some (o ++ [rsName n]))

theorem eachEntry_cons (rec : Path → Path → Fs → Run) (i o : Path) (n : Str) (ns : List Str) (fs : Fs) :
    eachEntry W rec i o (n :: ns) fs = (step W rec i o n fs).andThen fs (eachEntry W rec i o ns) := rfl

theorem step_done {rec : Path → Path → Fs → Run} (hW : Fair W) (hrec : Mirrors W rec) {i o : Path} (ha : Apart i o)
    {n : Str} {fs : Fs} {as : List Action} (hs : Sound fs) (ho : fs o ≠ none) (h1 : step W rec i o n fs = (as, .done)) :
    ∃ (t : Tree) (ws1 : List (Path × Bytes)), t.At fs (i ++ [n]) ∧
        List.Forall₂ (IsOutput W.conv o) (t.files.map fun f => (n :: f.1, f.2)) ws1 ∧
        Effect (fun p => ∃ d ∈ t.dirs, p = o ++ n :: d) ws1 fs (execs fs as) ∧ Sound (execs fs as) := by
  rw [step] at h1
  by_cases hd : fs (i ++ [n]) = some .dir
  · rw [if_pos hd] at h1
    obtain ⟨ks, ws, g1, g2, g3, g4⟩ := hrec _ _ _ _ (ha.below n) hs h1
    refine ⟨.dir ks, ws, g1, outputs_cons g2, ?_, g4⟩
    refine g3.adjust ?_ ?_
    · rintro p (hp | ⟨d, hd, rfl⟩)
      · rcases List.prefix_concat_iff.1 hp with rfl | hp
        · exact .inl ⟨[], by rw [Tree.dirs]; exact List.mem_cons_self .., rfl⟩
        · right
          rcases sound_prefix hs ho hp with rfl | e
          · exact ho
          · rw [e]; simp
      · exact .inl ⟨d, hd, by rw [List.append_assoc]; rfl⟩
    · rintro p ⟨d, hd, rfl⟩
      exact .inl (.inr ⟨d, hd, by rw [List.append_assoc]; rfl⟩)
  · rw [if_neg hd] at h1
    obtain ⟨b, c, g1, g2, g3, g4, g5⟩ := single_done hW h1
    refine ⟨.file b, [(o ++ [rsName n], c)], by rw [Tree.At]; exact g1, ?_, ?_, ?_⟩
    · rw [Tree.files]
      exact .cons ⟨⟨[rsName n], Mirror.one n, rfl⟩, g2⟩ .nil
    · rw [g5]
      refine (effect_set fs _ c).adjust (fun _ h => h.elim) ?_
      rintro p ⟨d, hd, -⟩
      rw [Tree.dirs] at hd
      cases hd
    · rw [g5]
      exact sound_set hs g3 g4

theorem step_keeps {rec : Path → Path → Fs → Run} (hW : Fair W) (hrec : Mirrors W rec) {i o : Path} (ha : Apart i o)
    {n : Str} {fs : Fs} {as : List Action} (hs : Sound fs) (ho : fs o ≠ none) (h1 : step W rec i o n fs = (as, .done)) :
    (∀ r, execs fs as (i ++ r) = fs (i ++ r)) ∧ execs fs as o = fs o := by
  obtain ⟨t, ws1, -, t2, t3, -⟩ := step_done hW hrec ha hs ho h1
  refine ⟨fun r => Effect.input ha t3 (by rintro p ⟨d, -, rfl⟩; exact .inr ⟨_, rfl⟩) t2 r, ?_⟩
  rw [t3.same]
  · rintro ⟨d, -, e⟩
    have := congrArg List.length e
    simp at this
  · intro hm
    obtain ⟨w, hw1, hw2⟩ := List.mem_map.1 hm
    obtain ⟨f, -, rel, hm, e⟩ := outputs_below t2 w hw1
    have := congrArg List.length (hw2.symm.trans e)
    rw [List.length_append] at this
    exact hm.ne_nil (List.length_eq_zero_iff.1 (by omega))

theorem eachEntry_done {rec : Path → Path → Fs → Run} (hW : Fair W) (hrec : Mirrors W rec) {i o : Path} (ha : Apart i o)
    (ns : List Str) : ∀ fs as, Sound fs → fs o ≠ none → eachEntry W rec i o ns fs = (as, .done) →
      ∃ ks ws, ks.map (·.1) = ns ∧ EntriesAt fs i ks ∧ List.Forall₂ (IsOutput W.conv o) (filesIn ks) ws ∧
        Effect (fun p => ∃ d ∈ dirsIn ks, p = o ++ d) ws fs (execs fs as) ∧ Sound (execs fs as) := by
  induction ns with
  | nil =>
    intro fs as hs ho h
    cases h
    refine ⟨[], [], rfl, by rw [EntriesAt]; trivial, .nil, ?_, hs⟩
    refine (Effect.nil fs).adjust (fun _ h => h.elim) ?_
    rintro p ⟨d, hd, -⟩
    cases hd
  | cons n ns ih =>
    intro fs as hs ho h
    rw [eachEntry_cons] at h
    obtain ⟨a1, a2, h1, h2, rfl⟩ := andThen_done.1 h
    obtain ⟨t, ws1, t1, t2, t3, t4⟩ := step_done hW hrec ha hs ho h1
    obtain ⟨hsame, ho1⟩ := step_keeps hW hrec ha hs ho h1
    rw [← ho1] at ho
    obtain ⟨ks, ws2, k1, k2, k3, k4, k5⟩ := ih _ _ t4 ho h2
    refine ⟨(n, t) :: ks, ws1 ++ ws2, ?_, ?_, ?_, ?_, ?_⟩
    · rw [List.map_cons, k1]
    · rw [EntriesAt]
      exact ⟨t1, EntriesAt.congr (fun r => (hsame r).symm) k2⟩
    · rw [filesIn]
      exact List.rel_append t2 k3
    · rw [execs_append]
      refine (t3.comp k4).adjust ?_ ?_
      · rintro p (⟨d, hd, rfl⟩ | ⟨d, hd, rfl⟩)
        · refine .inl ⟨n :: d, ?_, rfl⟩
          rw [dirsIn]
          exact List.mem_append_left _ (List.mem_map.2 ⟨d, hd, rfl⟩)
        · refine .inl ⟨d, ?_, rfl⟩
          rw [dirsIn]
          exact List.mem_append_right _ hd
      · rintro p ⟨d, hd, rfl⟩
        left
        rw [dirsIn] at hd
        rcases List.mem_append.1 hd with hd | hd
        · obtain ⟨e, he, rfl⟩ := List.mem_map.1 hd
          exact .inl ⟨e, he, rfl⟩
        · exact .inr ⟨d, hd, rfl⟩
    · rw [execs_append]; exact k5

theorem prepare_done {fs : Fs} {o : Path} {as : List Action} (hs : Sound fs)
    (h : (if (fs o).isSome then (([], .done) : Run) else createDirAll fs o) = (as, .done)) :
    Effect (· <+: o) [] fs (execs fs as) ∧ Sound (execs fs as) ∧ execs fs as o ≠ none := by
  by_cases ho : (fs o).isSome = true
  · rw [if_pos ho] at h
    cases h
    have ho' : fs o ≠ none := by intro e; rw [e] at ho; cases ho
    refine ⟨(Effect.nil fs).adjust (fun _ h => h.elim) ?_, hs, ho'⟩
    intro p hp
    right
    rcases sound_prefix hs ho' hp with rfl | e
    · exact ho'
    · rw [e]; simp
  · rw [if_neg ho] at h
    obtain ⟨h1, h2⟩ := createDirAll_done h
    refine ⟨h2, sound_mkdirs hs h1 h2, ?_⟩
    rw [((h2 o).2 rfl).1 (List.prefix_refl o) (by simpa using ho)]
    simp

theorem processDir_done (hW : Fair W) (n : Nat) : Mirrors W (processDir W n) := by
  induction n with
  | zero => intro i o fs as _ _ h; cases h
  | succ n ih =>
    intro i o fs as ha hs h
    rw [processDir] at h
    obtain ⟨a1, a2, h1, h2, rfl⟩ := andThen_done.1 h
    obtain ⟨e1, s1, o1⟩ := prepare_done hs h1
    have hsame : ∀ r, execs fs a1 (i ++ r) = fs (i ++ r) := fun r =>
      e1.same (ha.ne r).1 (by simp)
    split at h2
    · next hd =>
      obtain ⟨ks, ws, k1, k2, k3, k4, k5⟩ := eachEntry_done hW ih ha _ _ _ s1 o1 h2
      refine ⟨ks, ws, ?_, k3, ?_, by rw [execs_append]; exact k5⟩
      · rw [Tree.At]
        refine ⟨?_, ?_, ?_, EntriesAt.congr (fun r => (hsame r).symm) k2⟩
        · have := hsame []
          rw [List.append_nil] at this
          rw [← this]; exact hd
        · rw [k1]; exact hW.nodup _ _
        · intro m hm
          rw [k1, hW.mem _ s1, hsame]
          exact hm
      · rw [execs_append]
        refine (e1.comp k4).adjust ?_ ?_
        · rintro p (hp | ⟨d, hd, rfl⟩)
          · exact .inl (.inl hp)
          · exact .inl (.inr ⟨d, by rw [Tree.dirs]; exact List.mem_cons_of_mem _ hd, rfl⟩)
        · rintro p (hp | ⟨d, hd, rfl⟩)
          · exact .inl (.inl hp)
          · rw [Tree.dirs] at hd
            rcases List.mem_cons.1 hd with rfl | hd
            · rw [List.append_nil]
              exact .inl (.inl (List.prefix_refl o))
            · exact .inl (.inr ⟨d, hd, rfl⟩)
    · cases h2

end Verif.Lemmas.Cli
