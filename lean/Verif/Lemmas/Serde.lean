import Verif.Model.Serde
import Verif.Spec.Serde
import Verif.Lemmas.Chrono
import Verif.Lemmas.Str

/-! # Lemmas about XML (de)serialisation and white-space separated lists -/

namespace Verif.Lemmas.Ser

open Verif Verif.Model Verif.Spec Xml

/-! ## serialize / deserialize -/

theorem serialize_takes {S : Type} {x : S} {n : Str} {f : S → Str} {w : Writer}
    (h : Takes w.accepts w.out (elementEvents w.skipStartEnd (w.startEventName.getD n) (f x))) :
    yaSerialize x n f w =
      (.ok (), { w with out := w.out ++ elementEvents w.skipStartEnd (w.startEventName.getD n) (f x) }) := by
  obtain ⟨nm, sk, out, acc⟩ := w
  cases sk <;> cases nm <;>
    simp_all [elementEvents, Takes, yaSerialize, Writer.write]

theorem serialize_refused {S : Type} {x : S} {n : Str} {f : S → Str} {w : Writer}
    (h : ¬ Takes w.accepts w.out (elementEvents w.skipStartEnd (w.startEventName.getD n) (f x))) :
    ∃ k, k < (elementEvents w.skipStartEnd (w.startEventName.getD n) (f x)).length ∧
      yaSerialize x n f w = (.err, { w with
        out := w.out ++ (elementEvents w.skipStartEnd (w.startEventName.getD n) (f x)).take k }) := by
  obtain ⟨nm, sk, out, acc⟩ := w
  cases sk with
  | true =>
    refine ⟨0, by simp [elementEvents], ?_⟩
    simp only [elementEvents, Takes, if_true, and_true] at h
    simp [yaSerialize, Writer.write, h, elementEvents]
  | false =>
    generalize hnm : nm.getD n = name at *
    simp only [elementEvents, Takes, Bool.false_eq_true, if_false, and_true] at h ⊢
    by_cases h1 : acc out (.start name) = true
    · by_cases h2 : acc (out ++ [.start name]) (.chars (f x)) = true
      · have h3 : ¬ acc (out ++ [.start name] ++ [.chars (f x)]) .close = true := fun h3 => h ⟨h1, h2, h3⟩
        refine ⟨2, by simp, ?_⟩
        simp only [List.append_assoc, List.cons_append, List.nil_append] at h3
        simp [yaSerialize, Writer.write, hnm, h1, h2, h3]
      · refine ⟨1, by simp, ?_⟩
        simp [yaSerialize, Writer.write, hnm, h1, h2]
    · refine ⟨0, by simp, ?_⟩
      simp [yaSerialize, Writer.write, hnm, h1]

/-- Characters of the displayed forms: no white space among them. -/
def NoSp (s : Str) : Prop := ∀ c ∈ s, isXmlSpace c = false

theorem dropWhile_noSp {s : Str} (h : NoSp s) : s.dropWhile isXmlSpace = s := by
  cases s with
  | nil => rfl
  | cons c cs => simp [List.dropWhile, h c (by simp)]

theorem trimmed_noSp {s : Str} (h : NoSp s) : Trimmed s := by
  unfold Trimmed trimXml
  rw [dropWhile_noSp h, dropWhile_noSp (s := s.reverse) (fun c hc => h c (by simpa using hc)), List.reverse_reverse]

theorem readBack_element {name t : Str} (h : Trimmed t) :
    readBack (elementEvents false name t) =
      some (.start name) :: (if t = [] then [] else [some (.chars t)]) ++ [some .close] := by
  unfold Trimmed at h
  by_cases ht : t = []
  · subst ht; simp [readBack, elementEvents, readEvent, trimXml]
  · simp [readBack, elementEvents, readEvent, h, ht]

theorem deserialize_element {S : Type} {f : Str → Res S} {name t : Str} (h : Trimmed t) (rest : Reader) :
    yaDeserialize f (readBack (elementEvents false name t) ++ rest) =
      (f t, (if t = [] then [] else [some (.chars t)]) ++ some .close :: rest) := by
  rw [readBack_element h]
  by_cases ht : t = []
  · subst ht; rfl
  · simp [ht, yaDeserialize]

theorem noSp_append {a b : Str} : NoSp (a ++ b) ↔ NoSp a ∧ NoSp b := by
  unfold NoSp; simp only [List.mem_append]
  exact ⟨fun h => ⟨fun c hc => h c (Or.inl hc), fun c hc => h c (Or.inr hc)⟩,
    fun ⟨h1, h2⟩ c hc => hc.elim (h1 c) (h2 c)⟩

theorem noSp_cons {c : Char} {s : Str} : NoSp (c :: s) ↔ isXmlSpace c = false ∧ NoSp s := by
  unfold NoSp; simp

theorem noSp_nil : NoSp [] := by intro c h; simp at h

theorem noSp_digits {s : Str} (h : Str.allDigits s = true) : NoSp s := by
  intro c hc
  have h1 : Str.isAsciiDigit c = true := List.all_eq_true.1 h c hc
  cases hx : isXmlSpace c with
  | false => rfl
  | true =>
    simp only [isXmlSpace, Bool.or_eq_true, beq_iff_eq] at hx
    rcases hx with ((rfl | rfl) | rfl) | rfl <;> revert h1 <;> decide

theorem noSp_natStr (n : Nat) : NoSp (Str.natStr n) := noSp_digits (Str.allDigits_natStr n)
theorem noSp_fmtPadNat (w n : Nat) : NoSp (Str.fmtPadNat w n) := noSp_digits (Str.allDigits_fmtPadNat w n)

theorem noSp_padZeros (w n : Nat) : NoSp (Str.padZeros w (Str.natStr n)) := noSp_fmtPadNat w n

theorem noSp_fmtPad (w : Nat) (v : Int) : NoSp (Str.fmtPad w v) := by
  unfold Str.fmtPad
  split
  · exact noSp_cons.2 ⟨by decide, noSp_padZeros _ _⟩
  · exact noSp_fmtPadNat _ _

theorem noSp_intStr (v : Int) : NoSp (Str.intStr v) := by
  unfold Str.intStr
  split
  · exact noSp_cons.2 ⟨by decide, noSp_natStr _⟩
  · exact noSp_natStr _

theorem noSp_showTz (tz : Option Int) : NoSp (showTz tz) := by
  cases tz with
  | none => exact noSp_nil
  | some o =>
    unfold showTz Chrono.showOffset
    dsimp only
    have hs : isXmlSpace (if o < 0 then '-' else '+') = false := by split <;> decide
    split
    · simp only [noSp_cons, noSp_append, noSp_fmtPadNat, hs, and_true, true_and]; decide
    · simp only [List.cons_append, noSp_cons, noSp_append, noSp_fmtPadNat, hs, and_true, true_and]; decide

/-! ## split_whitespace -/

theorem splitPieces_ne_nil (s : Str) : splitPieces s ≠ [] := by
  cases s with
  | nil => simp [splitPieces]
  | cons c cs =>
    unfold splitPieces
    split
    · simp
    · split <;> simp

theorem splitWhitespace_space {c : Char} {s : Str} (h : Space c) : splitWhitespace (c :: s) = splitWhitespace s := by
  have := Chr.isWhitespace_iff.2 h
  simp [splitWhitespace, splitPieces, this]

theorem splitWhitespace_spaces {w s : Str} (h : Spaces w) : splitWhitespace (w ++ s) = splitWhitespace s := by
  induction w with
  | nil => rfl
  | cons c w ih =>
    rw [List.cons_append, splitWhitespace_space (h c (by simp))]
    exact ih (fun d hd => h d (by simp [hd]))

theorem isWhitespace_false {c : Char} (h : ¬ Space c) : Chrono.isWhitespace c = false := by
  cases hc : Chrono.isWhitespace c with
  | false => rfl
  | true => exact absurd (Chr.isWhitespace_iff.1 hc) h

/-- the pieces of a word followed by white space or the end -/
theorem splitPieces_word {t rest : Str} (ht : ∀ c ∈ t, ¬ Space c) :
    splitPieces (t ++ rest) = match splitPieces rest with
      | [] => [t]
      | p :: ps => (t ++ p) :: ps := by
  induction t with
  | nil =>
    cases h : splitPieces rest with
    | nil => exact absurd h (splitPieces_ne_nil _)
    | cons p ps => simp [h]
  | cons c t ih =>
    rw [List.cons_append, splitPieces, isWhitespace_false (ht c (by simp)), ih (fun d hd => ht d (by simp [hd]))]
    cases splitPieces rest <;> simp

theorem splitWhitespace_word {t rest : Str} (ht : Word t) (hr : ∀ c, rest.head? = some c → Space c) :
    splitWhitespace (t ++ rest) = t :: splitWhitespace rest := by
  unfold splitWhitespace
  rw [splitPieces_word ht.2]
  cases rest with
  | nil => simp [splitPieces, ht.1]
  | cons c r =>
    have h := Chr.isWhitespace_iff.2 (hr c rfl)
    simp [splitPieces, h, ht.1]

theorem words_split {s : Str} {ts : List Str} (h : Words s ts) : splitWhitespace s = ts := by
  induction h with
  | nil hw =>
    have := splitWhitespace_spaces (s := []) hw
    rw [List.append_nil] at this
    rw [this]; simp [splitWhitespace, splitPieces]
  | cons hw ht hr _ ih => rw [List.append_assoc, splitWhitespace_spaces hw, splitWhitespace_word ht hr, ih]

theorem words_exists (n : Nat) : ∀ s : Str, s.length ≤ n → ∃ ts, Words s ts := by
  induction n with
  | zero =>
    intro s hs
    have : s = [] := List.length_eq_zero_iff.1 (by omega)
    subst this
    exact ⟨[], .nil (by intro c h; simp at h)⟩
  | succ n ih =>
    intro s hs
    -- leading spaces
    have hsp : s = s.takeWhile Chrono.isWhitespace ++ s.dropWhile Chrono.isWhitespace := (List.takeWhile_append_dropWhile).symm
    have hw := Chr.spaces_takeWhile s
    cases hd : s.dropWhile Chrono.isWhitespace with
    | nil =>
      rw [hd, List.append_nil] at hsp
      exact ⟨[], .nil (hsp ▸ hw)⟩
    | cons c r =>
      have hc : Chrono.isWhitespace c = false := by
        have := List.head?_dropWhile_not Chrono.isWhitespace s
        rw [hd] at this; simpa using this
      let u := s.dropWhile Chrono.isWhitespace
      have hu : u = u.takeWhile (fun c => !Chrono.isWhitespace c) ++ u.dropWhile (fun c => !Chrono.isWhitespace c) :=
        (List.takeWhile_append_dropWhile).symm
      have hlen : u.length ≤ s.length := (List.dropWhile_sublist _).length_le
      have hne : u.takeWhile (fun c => !Chrono.isWhitespace c) ≠ [] := by
        show (s.dropWhile Chrono.isWhitespace).takeWhile _ ≠ []
        rw [hd]; simp [List.takeWhile, hc]
      have hl2 : (u.dropWhile (fun c => !Chrono.isWhitespace c)).length ≤ n := by
        have := congrArg List.length hu
        rw [List.length_append] at this
        have : 0 < (u.takeWhile (fun c => !Chrono.isWhitespace c)).length := List.length_pos_iff.2 hne
        omega
      obtain ⟨ts, hts⟩ := ih _ hl2
      refine ⟨u.takeWhile (fun c => !Chrono.isWhitespace c) :: ts, ?_⟩
      have := Words.cons hw ⟨hne, ?_⟩ ?_ hts
      · rwa [List.append_assoc, ← hu, ← hsp] at this
      · intro d hdm hsd
        have h1 := List.all_eq_true.1 (List.all_takeWhile (p := fun c => !Chrono.isWhitespace c) (l := u)) d hdm
        rw [Chr.isWhitespace_iff.2 hsd] at h1
        exact absurd h1 (by decide)
      · intro d hdh
        have := List.head?_dropWhile_not (fun c => !Chrono.isWhitespace c) u
        rw [hdh] at this
        exact Chr.isWhitespace_iff.1 (by simpa using this)

theorem splitWhitespace_iff {s : Str} {ts : List Str} : splitWhitespace s = ts ↔ Words s ts := by
  refine ⟨fun h => ?_, words_split⟩
  obtain ⟨ts', h'⟩ := words_exists _ s (Nat.le_refl _)
  rw [words_split h'] at h
  exact h ▸ h'

/-! ## joined display -/

theorem join_tail_split {V : Type} {toStr : V → Str} {vs : List V} (h : ∀ v ∈ vs, Word (toStr v)) :
    splitWhitespace (vs.flatMap fun v => ' ' :: toStr v) = vs.map toStr := by
  induction vs with
  | nil => simp [splitWhitespace, splitPieces]
  | cons v vs ih =>
    rw [List.flatMap_cons, List.cons_append, splitWhitespace_space (by unfold Space; decide),
      splitWhitespace_word (h v (by simp)), ih (fun u hu => h u (by simp [hu])), List.map_cons]
    intro c hc
    cases vs with
    | nil => simp at hc
    | cons u us =>
      simp only [List.flatMap_cons, List.cons_append, List.head?_cons, Option.some.injEq] at hc
      subst hc; unfold Space; decide

theorem join_split {V : Type} {toStr : V → Str} {vs : List V} (h : ∀ v ∈ vs, Word (toStr v)) :
    splitWhitespace (joinDisplay toStr vs) = vs.map toStr := by
  cases vs with
  | nil => simp [joinDisplay, splitWhitespace, splitPieces]
  | cons v vs =>
    unfold joinDisplay
    rw [splitWhitespace_word (h v (by simp)), join_tail_split (fun u hu => h u (by simp [hu])), List.map_cons]
    intro c hc
    cases vs with
    | nil => simp at hc
    | cons u us =>
      simp only [List.flatMap_cons, List.cons_append, List.head?_cons, Option.some.injEq] at hc
      subst hc; unfold Space; decide

theorem filterMapOk_map {V : Type} {f : Str → Res V} {toStr : V → Str} {vs : List V}
    (h : ∀ v ∈ vs, f (toStr v) = .ok v) : filterMapOk f (vs.map toStr) = .ok vs := by
  induction vs with
  | nil => rfl
  | cons v vs ih =>
    simp only [List.map_cons, filterMapOk, h v (by simp), ih (fun u hu => h u (by simp [hu])), Res.ok_bind]

/-- outcome of the list parser when no item makes the item parser panic -/
theorem filterMapOk_eq {V : Type} {f : Str → Res V} {ss : List Str} (h : ∀ s ∈ ss, f s ≠ .panic) :
    filterMapOk f ss = .ok (ss.filterMap fun s => (f s).toOption) := by
  induction ss with
  | nil => rfl
  | cons s ss ih =>
    have ih := ih (fun u hu => h u (by simp [hu]))
    unfold filterMapOk
    cases hs : f s with
    | ok v => simp [hs, ih, Res.toOption]
    | err => simp [hs, ih, Res.toOption]
    | panic => exact absurd hs (h s (by simp))

theorem filterMapOk_panic {V : Type} {f : Str → Res V} {ss : List Str} :
    filterMapOk f ss = .panic ↔ ∃ s ∈ ss, f s = .panic := by
  induction ss with
  | nil => simp [filterMapOk]
  | cons s ss ih =>
    unfold filterMapOk
    cases hs : f s with
    | ok v =>
      cases hr : filterMapOk f ss <;> simp_all
    | err => simp [hs, ih]
    | panic => simp [hs]

/-! ## unions -/

theorem unionVariants_unknown {v : Variant} (h : v.ident = "__Unknown__".toList) (vs : List Variant) :
    unionVariants (v :: vs) = unionVariants vs := by
  rw [unionVariants, if_pos h]

theorem unionVariants_cons {v : Variant} {ty : RPath} (h : v.ident ≠ "__Unknown__".toList) (ht : v.ty = some ty)
    (vs : List Variant) : unionVariants (v :: vs) = (unionVariants vs).map fun r => (v.ident, ty) :: r := by
  rw [unionVariants, if_neg h, ht]

theorem unionParse_case {V : Type} {E : TypeEnv V} {vs : List (Str × RPath)} {s : Str} {i : Str} {v : V} :
    unionParse E vs s = .ok (.case i v) ↔
      ∃ pre ty post, vs = pre ++ (i, ty) :: post ∧ (∀ p ∈ pre, E.fromStr p.2 s = .err) ∧ E.fromStr ty s = .ok v := by
  induction vs with
  | nil => simp [unionParse]
  | cons p vs ih =>
    obtain ⟨j, ty⟩ := p
    unfold unionParse
    cases hp : E.fromStr ty s with
    | ok u =>
      simp only [Res.ok.injEq, UnionVal.case.injEq]
      constructor
      · rintro ⟨rfl, rfl⟩; exact ⟨[], ty, vs, rfl, by simp, hp⟩
      · rintro ⟨pre, ty', post, e, h1, h2⟩
        cases pre with
        | nil => simp at e; obtain ⟨⟨rfl, rfl⟩, rfl⟩ := e; simp_all
        | cons q pre =>
          simp at e; obtain ⟨rfl, rfl⟩ := e
          have := h1 (j, ty) (by simp)
          simp_all
    | err =>
      simp only [ih]
      constructor
      · rintro ⟨pre, ty', post, rfl, h1, h2⟩
        exact ⟨(j, ty) :: pre, ty', post, rfl, by simpa [hp] using h1, h2⟩
      · rintro ⟨pre, ty', post, e, h1, h2⟩
        cases pre with
        | nil => simp at e; obtain ⟨⟨rfl, rfl⟩, rfl⟩ := e; simp_all
        | cons q pre =>
          simp at e; obtain ⟨rfl, rfl⟩ := e
          exact ⟨pre, ty', post, rfl, fun p hp => h1 p (by simp [hp]), h2⟩
    | panic =>
      simp only [reduceCtorEq, false_iff]
      rintro ⟨pre, ty', post, e, h1, h2⟩
      cases pre with
      | nil => simp at e; obtain ⟨⟨rfl, rfl⟩, rfl⟩ := e; simp_all
      | cons q pre =>
        simp at e; obtain ⟨rfl, rfl⟩ := e
        have := h1 (j, ty) (by simp)
        simp_all

theorem unionParse_unknown {V : Type} {E : TypeEnv V} {vs : List (Str × RPath)} {s t : Str} :
    unionParse E vs s = .ok (.unknown t) ↔ t = s ∧ ∀ p ∈ vs, E.fromStr p.2 s = .err := by
  induction vs with
  | nil => simp [unionParse]; exact eq_comm
  | cons p vs ih =>
    obtain ⟨j, ty⟩ := p
    unfold unionParse
    cases hp : E.fromStr ty s <;> simp [hp, ih]

theorem unionParse_ne_err {V : Type} {E : TypeEnv V} {vs : List (Str × RPath)} {s : Str} :
    unionParse E vs s ≠ .err := by
  induction vs with
  | nil => simp [unionParse]
  | cons p vs ih =>
    obtain ⟨j, ty⟩ := p
    unfold unionParse
    cases hp : E.fromStr ty s <;> simp [ih]

theorem unionText_case {V : Type} {E : TypeEnv V} {vs : List (Str × RPath)} {i : Str} {v : V} {t : Str} :
    unionText E vs (.case i v) = some t ↔
      ∃ pre ty post, vs = pre ++ (i, ty) :: post ∧ (∀ p ∈ pre, p.1 ≠ i) ∧ t = E.toStr ty v := by
  induction vs with
  | nil => simp [unionText]
  | cons p vs ih =>
    obtain ⟨j, ty⟩ := p
    unfold unionText
    split
    · rename_i h
      subst h
      constructor
      · intro h; exact ⟨[], ty, vs, rfl, by simp, by simpa using h.symm⟩
      · rintro ⟨pre, ty', post, e, h1, h2⟩
        cases pre with
        | nil => simp at e; obtain ⟨rfl, rfl⟩ := e; simp [h2]
        | cons q pre => simp at e; obtain ⟨rfl, rfl⟩ := e; exact absurd rfl (h1 (i, ty) (by simp))
    · rename_i h
      rw [ih]
      constructor
      · rintro ⟨pre, ty', post, rfl, h1, h2⟩
        refine ⟨(j, ty) :: pre, ty', post, rfl, ?_, h2⟩
        intro p hp
        rcases List.mem_cons.1 hp with rfl | hp
        · exact fun e => h e.symm
        · exact h1 p hp
      · rintro ⟨pre, ty', post, e, h1, h2⟩
        cases pre with
        | nil => simp at e; exact absurd e.1.1.symm h
        | cons q pre =>
          simp at e; obtain ⟨rfl, rfl⟩ := e
          exact ⟨pre, ty', post, rfl, fun p hp => h1 p (by simp [hp]), h2⟩

end Verif.Lemmas.Ser
