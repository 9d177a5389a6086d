import Verif.Lemmas.WsdlSig
import Verif.Lemmas.GenMembers

/-! # The text of functions -/

namespace Verif.Lemmas.Wsdl

open Verif Verif.RoXml Verif.Model Verif.Model.Wsdl Verif.Spec Verif.Spec.Wsdl Verif.Lemmas.Gen

variable (U : UnicodeTable) (tns : Option Namespace)

/-! ## Parameters -/

/-- A parameter as text. -/
def argText (p : Param) : Str := p.name ++ ": &".toList ++ defaultFormatType U p.typename tns

/-- The lines for parameters. -/
def argLines : List Str → List Str
  | [] => []
  | [x] => ["    ".toList ++ x]
  | x :: xs => ("    ".toList ++ x ++ [',']) :: argLines xs

theorem lns_args (xs : List Str) (hne : xs ≠ []) (h : ∀ x ∈ xs, '\n' ∉ x) (r : Str) :
    lns ("    ".toList ++ joinWith ",\n    ".toList xs ++ '\n' :: r) = argLines xs ++ lns r := by
  cases xs with
  | nil => exact absurd rfl hne
  | cons x xs =>
    clear hne
    induction xs generalizing x with
    | nil =>
      rw [joinWith, List.flatMap_nil, List.append_nil, lns_append_nl, lns_single]
      · rfl
      · intro hm
        rcases List.mem_append.1 hm with hm | hm
        · revert hm; decide +kernel
        · exact h x (List.mem_cons_self ..) hm
    | cons y ys ih =>
      have e : "    ".toList ++ joinWith ",\n    ".toList (x :: y :: ys) ++ '\n' :: r =
          ("    ".toList ++ x ++ [',']) ++ '\n' :: ("    ".toList ++ joinWith ",\n    ".toList (y :: ys) ++ '\n' :: r) := by
        rw [joinWith, joinWith, List.flatMap_cons]
        have : ",\n    ".toList = [','] ++ '\n' :: "    ".toList := by decide
        rw [this]
        simp only [List.append_assoc, List.cons_append, List.nil_append]
      rw [e, lns_append_nl, lns_single, ih y fun z hz => h z (List.mem_cons_of_mem _ hz)]
      · rfl
      · intro hm
        rcases List.mem_append.1 hm with hm | hm
        · rcases List.mem_append.1 hm with hm | hm
          · revert hm; decide +kernel
          · exact h x (List.mem_cons_self ..) hm
        · revert hm; decide +kernel

theorem takeWhile_to {c : Char} {n : Str} (h : c ∉ n) (r : Str) : (n ++ c :: r).takeWhile (· ≠ c) = n := by
  induction n with
  | nil => rw [List.nil_append, List.takeWhile_cons_of_neg (by simp)]
  | cons d n ih =>
    rw [List.cons_append, List.takeWhile_cons_of_pos, ih fun hc => h (List.mem_cons_of_mem _ hc)]
    have : d ≠ c := by rintro rfl; exact h (List.mem_cons_self ..)
    simpa using this

theorem takeWhile_all {c : Char} {n : Str} (h : c ∉ n) : n.takeWhile (· ≠ c) = n := by
  induction n with
  | nil => rfl
  | cons d n ih =>
    rw [List.takeWhile_cons_of_pos, ih fun hc => h (List.mem_cons_of_mem _ hc)]
    have : d ≠ c := by rintro rfl; exact h (List.mem_cons_self ..)
    simpa using this

theorem dropWhile_to {c : Char} {n : Str} (h : c ∉ n) (r : Str) : (n ++ c :: r).dropWhile (· ≠ c) = c :: r := by
  induction n with
  | nil => rw [List.nil_append, List.dropWhile_cons_of_neg (by simp)]
  | cons d n ih =>
    rw [List.cons_append, List.dropWhile_cons_of_pos, ih fun hc => h (List.mem_cons_of_mem _ hc)]
    have : d ≠ c := by rintro rfl; exact h (List.mem_cons_self ..)
    simpa using this

theorem dropSpaces_name {n : Str} (h : ' ' ∉ n) (c : Char) (hc : c ≠ ' ') (r : Str) :
    ("    ".toList ++ (n ++ c :: r)).dropWhile (· = ' ') = n ++ c :: r := by
  have hx : (n ++ c :: r).dropWhile (· = ' ') = n ++ c :: r := by
    cases n with
    | nil => rw [List.nil_append, List.dropWhile_cons_of_neg (by simpa using hc)]
    | cons d n =>
      rw [List.cons_append, List.dropWhile_cons_of_neg]
      have : d ≠ ' ' := by rintro rfl; exact h (List.mem_cons_self ..)
      simpa using this
  show (' ' :: ' ' :: ' ' :: ' ' :: (n ++ c :: r)).dropWhile (· = ' ') = _
  rw [List.dropWhile_cons_of_pos (by decide), List.dropWhile_cons_of_pos (by decide),
    List.dropWhile_cons_of_pos (by decide), List.dropWhile_cons_of_pos (by decide), hx]

theorem readParam_line {n t e : Str} (hn : ' ' ∉ n) (hc : ':' ∉ n) (ht : ',' ∉ t) (he : e = [] ∨ e = [',']) :
    readParam ("    ".toList ++ (n ++ ": &".toList ++ t) ++ e) = (n, t) := by
  have e1 : "    ".toList ++ (n ++ ": &".toList ++ t) ++ e = "    ".toList ++ (n ++ ':' :: (' ' :: '&' :: (t ++ e))) := by
    have : ": &".toList = [':', ' ', '&'] := by decide
    rw [this]
    simp only [List.append_assoc, List.cons_append, List.nil_append]
  rw [e1, readParam]
  rw [dropSpaces_name hn ':' (by decide), takeWhile_to hc, dropWhile_to hc]
  congr 1
  show (t ++ e).takeWhile (· ≠ ',') = t
  rcases he with rfl | rfl
  · rw [List.append_nil]; exact takeWhile_all ht
  · exact takeWhile_to ht []

/-- Reading the lines of the parameters. -/
theorem readFns_args (ps : List Param) (hne : ps ≠ [])
    (h : ∀ p ∈ ps, ' ' ∉ p.name ∧ ':' ∉ p.name ∧ ',' ∉ defaultFormatType U p.typename tns) (f : Fn) (ls : List Str) :
    readFns (.params f) (argLines (ps.map (argText U tns)) ++ ls) =
      readFns (.params { f with params := f.params ++ ps.map fun p => (p.name, defaultFormatType U p.typename tns) }) ls := by
  have hpre : ∀ x : Str, afterPrefix ") -> Result<".toList ("    ".toList ++ x) = none := fun x =>
    afterPrefix_head (p := ')') (ps := " -> Result<".toList) (by simp)
  cases ps with
  | nil => exact absurd rfl hne
  | cons p ps =>
    clear hne
    induction ps generalizing p f with
    | nil =>
      obtain ⟨h1, h2, h3⟩ := h p (List.mem_cons_self ..)
      show readFns (.params f) (("    ".toList ++ argText U tns p) :: ls) = _
      rw [readFns, hpre]
      dsimp only
      have := readParam_line h1 h2 h3 (.inl rfl)
      rw [List.append_nil] at this
      rw [argText, this]
      rfl
    | cons q qs ih =>
      obtain ⟨h1, h2, h3⟩ := h p (List.mem_cons_self ..)
      show readFns (.params f) (("    ".toList ++ argText U tns p ++ [',']) ::
        (argLines ((q :: qs).map (argText U tns)) ++ ls)) = _
      rw [readFns, List.append_assoc, hpre]
      dsimp only
      have := readParam_line h1 h2 h3 (.inr rfl)
      rw [← List.append_assoc, argText, this, ih _ q (fun r hr => h r (List.mem_cons_of_mem _ hr))]
      dsimp only
      rw [List.append_assoc]
      rfl

/-! ## One function -/

theorem prefixSafe_noColon {t : Str} (h : ':' ∉ t) : PrefixSafe t := by
  intro p n hr
  have := (splitName_iff.2 hr).symm.trans (splitName_none.2 ⟨h, rfl⟩)
  cases this

theorem prefixSafe_transport : PrefixSafe "transport::Transport".toList := by
  intro p n hr
  have h1 := splitName_iff.2 hr
  have h2 : splitName "transport::Transport".toList = (some "transport".toList, ":Transport".toList) := by decide +kernel
  have := h2.symm.trans h1
  have hp : p = "transport".toList := (Option.some.inj (congrArg Prod.fst this)).symm
  rw [hp]
  decide

/-- The lines of a function after the comment. -/
def headLine (sig : Sig) : Str :=
  "pub async fn ".toList ++ (defaultFormatName U sig.name ++ '<' ::
    (("T: ".toList ++ defaultFormatType U "transport::Transport".toList tns ++ ['>']) ++ ['(']))

def retLine (sig : Sig) : Str :=
  ") -> Result<".toList ++ (defaultFormatType U (sig.ret.getD []) tns ++ ", transport::Error> {".toList)

theorem functionText_eq (sig : Sig) : functionText U tns sig = '\n' :: (defaultFormatComment sig.doc 80 0 ++
    (headLine U tns sig ++ '\n' :: ("    ".toList ++
      joinWith ",\n    ".toList ((argumentTransport :: sig.args.map toParam).map (argText U tns)) ++
      '\n' :: (retLine U tns sig ++ '\n' :: (("    ".toList ++ requestFuncBody) ++ '\n' :: (['}'] ++ ['\n'])))))) := by
  delta functionText generateFunction headLine retLine
  have e1 : ">(\n    ".toList = ['>'] ++ (['('] ++ '\n' :: "    ".toList) := by decide +kernel
  have e2 : "\n) -> Result<".toList = '\n' :: ") -> Result<".toList := by decide +kernel
  have e3 : ", transport::Error> {\n    ".toList = ", transport::Error> {".toList ++ '\n' :: "    ".toList := by
    decide +kernel
  have e4 : "\n}\n".toList = '\n' :: (['}'] ++ ['\n']) := by decide +kernel
  have e5 : "\n".toList = ['\n'] := by decide +kernel
  have e6 : "<".toList = ['<'] := by decide +kernel
  have e7 : "T: ".toList = "T".toList ++ ": ".toList := by decide +kernel
  have e8 : joinWith ", ".toList ((toFunction sig).genericParams.map fun p =>
      p.name ++ ": ".toList ++ defaultFormatType U p.typename tns) =
      "T: ".toList ++ defaultFormatType U "transport::Transport".toList tns := by
    rw [e7]
    exact List.append_nil _
  have e9 : (toFunction sig).arguments.map (fun p => p.name ++ ": &".toList ++ defaultFormatType U p.typename tns) =
      (argumentTransport :: sig.args.map toParam).map (argText U tns) := rfl
  have e10 : (toFunction sig).returnType = sig.ret.getD [] := rfl
  have e11 : (toFunction sig).documentation = sig.doc := rfl
  have e12 : (toFunction sig).name = sig.name := rfl
  rw [e1, e2, e3, e4, e5, e6]
  dsimp only
  rw [e8, e9, e10, e11, e12]
  generalize joinWith _ _ = x1
  generalize defaultFormatType U "transport::Transport".toList tns = x2
  generalize "    ".toList = x3
  generalize "pub async fn ".toList = x4
  generalize ") -> Result<".toList = x5
  generalize ", transport::Error> {".toList = x6
  generalize "T: ".toList = x7
  generalize requestFuncBody = x8
  simp only [List.append_assoc, List.cons_append, List.nil_append]

theorem getD_ret_safe {sig : Sig} (h : SafeSig sig) : PrefixSafe (sig.ret.getD []) := by
  cases hr : sig.ret with
  | none => exact prefixSafe_noColon (by simp)
  | some t => exact h.2 t hr

theorem name_free {n : Str} (h : ∀ c ∈ n, c ∉ codeUnsafe ∧ c ≠ ':') : ' ' ∉ n ∧ ':' ∉ n ∧ '\n' ∉ n :=
  ⟨fun hc => (h _ hc).1 (by decide), fun hc => (h _ hc).2 rfl, fun hc => (h _ hc).1 (by decide)⟩

theorem args_safe {sig : Sig} (h : SafeSig sig) : ∀ p ∈ argumentTransport :: sig.args.map toParam,
    (∀ c ∈ p.name, c ∉ codeUnsafe ∧ c ≠ ':') ∧ WordText (defaultFormatType U p.typename tns) := by
  intro p hp
  rcases List.mem_cons.1 hp with rfl | hp
  · exact ⟨by decide, defaultFormatType_word (prefixSafe_noColon (by decide)) tns⟩
  · obtain ⟨a, ha, rfl⟩ := List.mem_map.1 hp
    exact ⟨(h.1 a ha).1, defaultFormatType_word (h.1 a ha).2 tns⟩

theorem word_comma {t : Str} (h : WordText t) : ',' ∉ t := fun hc => h _ hc (by decide)
theorem word_paren {t : Str} (h : WordText t) : '(' ∉ t := fun hc => h _ hc (by decide)

theorem isCommentLine_of (l : Str) : isCommentLine ('/' :: '/' :: l) = true := by
  rw [isCommentLine]
  show (afterPrefix "//".toList ("//".toList ++ l)).isSome = true
  rw [afterPrefix_append]
  rfl

theorem readFns_comments (ls : List Str) (h : ∀ l ∈ ls, isCommentLine l = true) (c rest : List Str) :
    readFns (.out c) (ls ++ rest) = readFns (.out (c ++ ls)) rest := by
  induction ls generalizing c with
  | nil => rw [List.append_nil]; rfl
  | cons l ls ih =>
    rw [List.cons_append, readFns, if_pos (h l (List.mem_cons_self ..)), ih fun l hl => h l (List.mem_cons_of_mem _ hl)]
    rw [List.append_assoc]
    rfl

/-- What a function says. -/
def fnOf (sig : Sig) (c : List Str) : Fn :=
  ⟨c, defaultFormatName U sig.name, "T: ".toList ++ defaultFormatType U "transport::Transport".toList tns,
    ("transport".toList, defaultFormatType U "T".toList tns) ::
      sig.args.map (fun a => (a.1, defaultFormatType U a.2 tns)),
    defaultFormatType U (sig.ret.getD []) tns, [requestFuncBody]⟩

theorem readFns_lines {sig : Sig} (h : SafeSig sig) (cls rest : List Str) :
    readFns (.out cls) (headLine U tns sig :: (argLines ((argumentTransport :: sig.args.map toParam).map (argText U tns)) ++
        (retLine U tns sig :: ("    ".toList ++ requestFuncBody) :: ['}'] :: rest))) =
      fnOf U tns sig cls :: readFns (.out []) rest := by
  have hargs := args_safe U tns h
  have wT := defaultFormatType_word (U := U) prefixSafe_transport tns
  have wR := defaultFormatType_word (U := U) (getD_ret_safe h) tns
  have wN := name_nameText U sig.name
  have hnc : isCommentLine (headLine U tns sig) = false := by
    have : afterPrefix ['/', '/'] (headLine U tns sig) = none :=
      afterPrefix_head (p := '/') (ps := ['/']) (fun h => by cases h)
    exact congrArg Option.isSome this
  have hhead : afterPrefix "pub async fn ".toList (headLine U tns sig) = some (defaultFormatName U sig.name ++ '<' ::
    (("T: ".toList ++ defaultFormatType U "transport::Transport".toList tns ++ ['>']) ++ ['('])) := afterPrefix_append _ _
  have hret : afterPrefix ") -> Result<".toList (retLine U tns sig) =
      some (defaultFormatType U (sig.ret.getD []) tns ++ ", transport::Error> {".toList) := afterPrefix_append _ _
  have hret2 : (defaultFormatType U (sig.ret.getD []) tns ++ ", transport::Error> {".toList).takeWhile (· ≠ ',') =
      defaultFormatType U (sig.ret.getD []) tns := takeWhile_to (word_comma wR) " transport::Error> {".toList
  have hgen : '(' ∉ "T: ".toList ++ defaultFormatType U "transport::Transport".toList tns ++ ['>'] := by
    intro hm
    rcases List.mem_append.1 hm with hm | hm
    · rcases List.mem_append.1 hm with hm | hm
      · revert hm; decide
      · exact word_paren wT hm
    · revert hm; decide
  have hlt : '<' ∉ defaultFormatName U sig.name := wN.not_mem (by decide) (by decide) (by decide)
  have hbody : ("    ".toList ++ requestFuncBody).dropWhile (· = ' ') = requestFuncBody := by decide +kernel
  have hbrace : "    ".toList ++ requestFuncBody ≠ ['}'] := by decide +kernel
  unfold fnOf
  generalize "    ".toList ++ requestFuncBody = body at *
  generalize "T: ".toList ++ defaultFormatType U "transport::Transport".toList tns = gen at *
  rw [readFns, if_neg (by rw [hnc]; decide), hhead]
  dsimp only
  rw [takeWhile_to hlt, dropWhile_to hlt, List.drop_succ_cons, List.drop_zero, takeWhile_to hgen, List.dropLast_concat]
  rw [readFns_args U tns _ (by simp) fun p hp => ⟨(name_free (hargs p hp).1).1, (name_free (hargs p hp).1).2.1,
    word_comma (hargs p hp).2⟩]
  rw [readFns, hret]
  dsimp only
  rw [hret2, readFns, if_neg hbrace, readFns, if_pos rfl, hbody]
  congr 2
  rw [List.nil_append, List.map_cons, List.map_map]
  rfl

theorem readFns_function {sig : Sig} (h : SafeSig sig) (rest : Str) : ∃ cls : List Str,
    readFns (.out []) (lns (functionText U tns sig ++ rest)) =
      fnOf U tns sig cls :: readFns (.out []) (lns rest) ∧
    (∃ per : List (Str × List (List Str)), List.intercalate ['\n'] (per.map (·.1)) = sig.doc.getD [] ∧
      cls = per.flatMap (fun p => p.2.map (commentLine 0)) ∧
      ∀ p ∈ per, '\n' ∉ p.1 ∧ (Dropped p.1 → p.2 = []) ∧ (¬ Dropped p.1 → ∃ ws, Words p.1 ws ∧ Wrapped 80 0 ws p.2)) := by
  obtain ⟨per, h1, h2, h3⟩ := Props.C34_comment sig.doc 80 0
  refine ⟨per.flatMap (fun p => p.2.map (commentLine 0)), ?_, per, h1, rfl, h3⟩
  have hflat : defaultFormatComment sig.doc 80 0 = (per.flatMap (fun p => p.2.map (commentLine 0))).flatMap (· ++ ['\n']) := by
    rw [h2, List.flatMap_assoc]
    refine List.flatMap_congr fun p _ => ?_
    rw [List.flatMap_map]
  obtain ⟨cls, hc1, hc2⟩ := comment_lines sig.doc 0
  have hcls : per.flatMap (fun p => p.2.map (commentLine 0)) = cls := by
    have hnl : ∀ l ∈ per.flatMap (fun p => p.2.map (commentLine 0)), '\n' ∉ l := by
      intro l hl
      obtain ⟨p, hp, hl⟩ := List.mem_flatMap.1 hl
      obtain ⟨g, hg, rfl⟩ := List.mem_map.1 hl
      obtain ⟨hp1, hp2, hp3⟩ := h3 p hp
      by_cases hd : Dropped p.1
      · rw [hp2 hd] at hg; cases hg
      · obtain ⟨ws, hw, hwr⟩ := hp3 hd
        intro hm
        rw [commentLine] at hm
        rcases List.mem_append.1 hm with hm | hm
        · revert hm; decide
        · obtain ⟨w, hw1, hm⟩ := List.mem_flatMap.1 hm
          rcases List.mem_cons.1 hm with hm | hm
          · revert hm; decide
          · have := words_word hw w (hwr.2.1 ▸ List.mem_flatten.2 ⟨g, hg, hw1⟩)
            exact this.2 _ hm (by simp [Space])
    have a := lns_lined hnl []
    have b := lns_lined (fun l hl => (hc2 l hl).1) []
    rw [List.append_nil] at a b
    have : GenCtx.formatComment sig.doc 0 = defaultFormatComment sig.doc 80 0 := rfl
    rw [← hflat, ← this, hc1] at a
    exact List.append_cancel_right (a.symm.trans b)
  rw [functionText_eq, hflat, hcls]
  rw [hcls] at hflat
  have hargs := args_safe U tns h
  have wT := defaultFormatType_word (U := U) prefixSafe_transport tns
  have wR := defaultFormatType_word (U := U) (getD_ret_safe h) tns
  have wN := name_nameText U sig.name
  -- the lines
  have hl : lns (('\n' :: (cls.flatMap (· ++ ['\n']) ++
      (headLine U tns sig ++ '\n' :: ("    ".toList ++
        joinWith ",\n    ".toList ((argumentTransport :: sig.args.map toParam).map (argText U tns)) ++
        '\n' :: (retLine U tns sig ++ '\n' :: (("    ".toList ++ requestFuncBody) ++ '\n' :: (['}'] ++ ['\n']))))))) ++ rest) =
      [] :: (cls ++ (headLine U tns sig :: (argLines ((argumentTransport :: sig.args.map toParam).map (argText U tns)) ++
        (retLine U tns sig :: ("    ".toList ++ requestFuncBody) :: ['}'] :: lns rest)))) := by
    simp only [List.cons_append, List.append_assoc, List.nil_append]
    rw [lns_nl, lns_lined fun l hl => (hc2 l hl).1, lns_append_nl, lns_single]
    · have := lns_args ((argumentTransport :: sig.args.map toParam).map (argText U tns)) (by simp) ?_
        (retLine U tns sig ++ '\n' :: (("    ".toList ++ requestFuncBody) ++ '\n' :: '}' :: '\n' :: rest))
      · rw [List.append_assoc] at this
        simp only [List.append_assoc] at this
        rw [this, lns_append_nl, lns_single]
        · have e : "    ".toList ++ (requestFuncBody ++ '\n' :: '}' :: '\n' :: rest) =
              ("    ".toList ++ requestFuncBody) ++ '\n' :: (['}'] ++ '\n' :: rest) := by
            rw [List.append_assoc]; rfl
          rw [e, lns_append_nl, lns_append_nl, lns_single (a := "    ".toList ++ requestFuncBody) (by decide +kernel), lns_single (a := ['}']) (by decide)]
          rfl
        · delta retLine
          intro hm
          rcases List.mem_append.1 hm with hm | hm
          · revert hm; decide +kernel
          rcases List.mem_append.1 hm with hm | hm
          · exact wR.nl hm
          · revert hm; decide +kernel
      · intro x hx
        obtain ⟨p, hp, rfl⟩ := List.mem_map.1 hx
        obtain ⟨q1, q2⟩ := hargs p hp
        intro hm
        rw [argText] at hm
        rcases List.mem_append.1 hm with hm | hm
        · rcases List.mem_append.1 hm with hm | hm
          · exact (name_free q1).2.2 hm
          · revert hm; decide +kernel
        · exact q2.nl hm
    · delta headLine
      intro hm
      rcases List.mem_append.1 hm with hm | hm
      · revert hm; decide +kernel
      rcases List.mem_append.1 hm with hm | hm
      · exact wN.word.nl hm
      rcases List.mem_cons.1 hm with hm | hm
      · revert hm; decide +kernel
      rcases List.mem_append.1 hm with hm | hm
      · rcases List.mem_append.1 hm with hm | hm
        · rcases List.mem_append.1 hm with hm | hm
          · revert hm; decide +kernel
          · exact wT.nl hm
        · revert hm; decide +kernel
      · revert hm; decide +kernel
  rw [hl]
  have hblank : ∀ x, readFns (.out []) ([] :: x) = readFns (.out []) x := fun _ => rfl
  rw [hblank]
  rw [readFns_comments _ (fun l hl => by
    obtain ⟨-, r, rfl⟩ := hc2 l hl
    exact isCommentLine_of r), List.nil_append]
  exact readFns_lines U tns h cls (lns rest)

/-- The lines are read to the end of the functions. -/
theorem readFns_all (sigs : List Sig) (h : ∀ sig ∈ sigs, SafeSig sig) :
    List.Forall₂ (HasSig (defaultFormatName U) fun t => defaultFormatType U t tns) sigs
      (readFns (.out []) (lns (sigs.flatMap (functionText U tns)))) := by
  induction sigs with
  | nil => exact .nil
  | cons sig sigs ih =>
    obtain ⟨cls, h1, per, h2, h3, h4⟩ := readFns_function U tns (h sig (List.mem_cons_self ..))
      (sigs.flatMap (functionText U tns))
    rw [List.flatMap_cons, h1]
    exact .cons ⟨rfl, rfl, rfl, rfl, rfl, per, h2, h3, h4⟩ (ih fun s hs => h s (List.mem_cons_of_mem _ hs))

/-! ## Brackets -/

theorem name_neutral {n : Str} (h : ∀ c ∈ n, c ∉ codeUnsafe ∧ c ≠ ':') : Neutral n := by
  apply neutral_plain
  intro c hc hb
  have : ∀ d ∈ ['"', '/', '\'', '(', ')', '[', ']', '{', '}'], d ∈ codeUnsafe := by decide
  exact (h c hc).1 (this c hb)

theorem lcons {m m' m'' : LexMode} {a b c : List Char} {x : Char} {u : Str} (h : LexFrom m a [x] m' b)
    (h' : LexFrom m' b u m'' c) : LexFrom m a (x :: u) m'' c := LexFrom.app h h'

theorem functionText_neutral {sig : Sig} (h : SafeSig sig) : Neutral (functionText U tns sig) := by
  have wT := defaultFormatType_word (U := U) prefixSafe_transport tns
  have wR := defaultFormatType_word (U := U) (getD_ret_safe h) tns
  have wN := name_nameText U sig.name
  have hjoin : Neutral (joinWith ",\n    ".toList ((argumentTransport :: sig.args.map toParam).map (argText U tns))) := by
    apply neutral_joinWith (lit (by decide +kernel))
    intro t ht
    obtain ⟨p, hp, rfl⟩ := List.mem_map.1 ht
    obtain ⟨q1, q2⟩ := args_safe U tns h p hp
    exact .app (.app (name_neutral q1) (lit (by decide +kernel))) q2.neutral
  have hnl : ∀ a, LexFrom .code a ['\n'] .code a := fun a => (show Neutral ['\n'] from lit (by decide +kernel)).at a
  have hhead : LexFrom .code [] (headLine U tns sig) .code [')'] := by
    have a1 : Neutral "pub async fn ".toList := lit (by decide +kernel)
    have a2 : Neutral ['<'] := lit (by decide +kernel)
    have a3 : Neutral "T: ".toList := lit (by decide +kernel)
    have a4 : Neutral ['>'] := lit (by decide +kernel)
    have a5 : LexFrom .code [] ['('] .code [')'] := lit (by decide +kernel)
    exact LexFrom.app a1 (LexFrom.app wN.word.neutral (lcons a2 (LexFrom.app (.app (.app a3 wT.neutral) a4) a5)))
  have hret : LexFrom .code [')'] (retLine U tns sig) .code ['}'] := by
    have a1 : LexFrom .code [')'] ") -> Result<".toList .code [] := lit (by decide +kernel)
    have a2 : LexFrom .code [] ", transport::Error> {".toList .code ['}'] := lit (by decide +kernel)
    exact LexFrom.app a1 (LexFrom.app wR.neutral a2)
  have hbody : LexFrom .code ['}'] ("    ".toList ++ requestFuncBody) .code ['}'] := lit (by decide +kernel)
  have hend : LexFrom .code ['}'] (['}'] ++ ['\n']) .code [] := lit (by decide +kernel)
  have hind : LexFrom .code [')'] "    ".toList .code [')'] := lit (by decide +kernel)
  rw [functionText_eq]
  exact lcons (hnl []) (LexFrom.app (neutral_comment sig.doc 0) (LexFrom.app hhead (lcons (hnl _)
    (LexFrom.app (LexFrom.app hind (hjoin.at _)) (lcons (hnl _) (LexFrom.app hret (lcons (hnl _)
      (LexFrom.app hbody (lcons (hnl _) hend)))))))))

theorem functions_neutral (sigs : List Sig) (h : ∀ sig ∈ sigs, SafeSig sig) :
    Neutral (sigs.flatMap (functionText U tns)) :=
  neutral_flatMap fun sig hs => functionText_neutral U tns (h sig hs)

end Verif.Lemmas.Wsdl
