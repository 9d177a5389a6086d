import Verif.Spec.ServiceSyntax
import Verif.Lemmas.SynNames
import Verif.Lemmas.SynItems2
import Verif.Lemmas.SynUnique
import Verif.Lemmas.WsdlText
import Verif.Lemmas.Service

/-! # Client functions are Rust -/

namespace Verif.Lemmas.Syn

open Verif Verif.Model Verif.Model.Wsdl Verif.RoXml Verif.Spec Verif.Spec.Syn Verif.Spec.Wsdl Verif.Lemmas Verif.Lemmas.Parse
  Verif.Lemmas.Gen Verif.Lemmas.Wsdl Verif.Inflector

variable {U : UnicodeTable} {tns : Option Namespace}

/-! ## `<` is never followed by a comma -/

/-- Whether no `<` is followed by a comma; the flag tells whether a `<` is before. -/
def scan : Bool → List Tok → Bool
  | _, [] => true
  | b, x :: r => !(b && x == pt ",") && scan (x == pt "<") r

/-- Neutral for `scan`, not empty, not starting with a comma and not ending with `<`. -/
def Fit (t : List Tok) : Prop := ∀ b r, scan b (t ++ r) = scan false r

/-- As `Fit`, but may be empty or start with a comma. -/
def Fit0 (t : List Tok) : Prop := ∀ r, scan false (t ++ r) = scan false r

theorem Fit.fit0 {t : List Tok} (h : Fit t) : Fit0 t := h false

theorem fit0_commas {as : List (List Tok)} (h : ∀ a ∈ as, Fit a) : Fit0 (commas as) := by
  cases as with
  | nil => exact fun _ => rfl
  | cons a as =>
    intro r
    show scan false (a ++ as.flatMap (pt "," :: ·) ++ r) = _
    rw [List.append_assoc, h a (by simp)]
    have h := fun x hx => h x (List.mem_cons_of_mem _ hx)
    clear * - h
    induction as with
    | nil => rfl
    | cons a as ih =>
      rw [List.flatMap_cons, List.append_assoc, List.cons_append]
      show (!(false && _) && scan (pt "," == pt "<") _) = _
      rw [show (pt "," == pt "<") = false by decide, h a (by simp), ih fun x hx => h x (by simp [hx])]
      rfl

theorem fit_commas {as : List (List Tok)} (hn : as ≠ []) (h : ∀ a ∈ as, Fit a) : Fit (commas as) := by
  cases as with
  | nil => exact absurd rfl hn
  | cons a as =>
    intro b r
    rw [← fit0_commas h r]
    show scan b (a ++ as.flatMap (pt "," :: ·) ++ r) = scan false (a ++ as.flatMap (pt "," :: ·) ++ r)
    rw [List.append_assoc, h a (by simp), h a (by simp)]

theorem scan_word {b : Bool} {w : Str} {r : List Tok} : scan b (.word w :: r) = scan false r := by
  rw [scan, show (Tok.word w == pt ",") = false by simp, show (Tok.word w == pt "<") = false by simp]
  simp
theorem scan_num {b : Bool} {w : Str} {r : List Tok} : scan b (.num w :: r) = scan false r := by
  rw [scan, show (Tok.num w == pt ",") = false by simp, show (Tok.num w == pt "<") = false by simp]
  simp
theorem scan_str {b : Bool} {w : Str} {r : List Tok} : scan b (.str w :: r) = scan false r := by
  rw [scan, show (Tok.str w == pt ",") = false by simp, show (Tok.str w == pt "<") = false by simp]
  simp
theorem scan_pt {b : Bool} {s : String} {r : List Tok} (h : s.toList ≠ [','] ∧ s.toList ≠ ['<']) : scan b (pt s :: r) = scan false r := by
  rw [scan, show (pt s == pt ",") = false by simpa using h.1, show (pt s == pt "<") = false by simpa using h.2]
  simp
theorem scan_comma {r : List Tok} : scan false (pt "," :: r) = scan false r := by
  rw [scan, show (pt "," == pt "<") = false by decide]; simp
theorem scan_lt {b : Bool} {r : List Tok} : scan b (pt "<" :: r) = scan true r := by
  rw [scan, show (pt "<" == pt ",") = false by decide, show (pt "<" == pt "<") = true by decide]; simp

theorem scan_gap (a r : List Tok) : ∀ b, scan b (a ++ pt "<" :: pt "," :: r) = false := by
  induction a with
  | nil => intro b; rw [List.nil_append, scan_lt]; rfl
  | cons x a ih => intro b; rw [List.cons_append, scan, ih]; simp

theorem path_fit {p : List Tok} (h : Path p) : Fit p := by
  induction h with
  | one h => intro b r; exact scan_word
  | keyword h => intro b r; exact scan_word
  | more _ h ih =>
    intro b r
    rw [List.append_assoc, ih, List.cons_append, scan_pt (by decide), List.cons_append, scan_word]; rfl

theorem ty_fit {t : List Tok} (h : Ty t) : Fit t := by
  induction h with
  | unit =>
    intro b r
    rw [List.cons_append, scan_pt (by decide), List.cons_append, scan_pt (by decide)]; rfl
  | path h => exact path_fit h
  | generic h hn _ ih =>
    intro b r
    simp only [List.append_assoc, List.cons_append, List.nil_append]
    rw [path_fit h, scan_lt, fit_commas hn ih, scan_pt (by decide)]

theorem meta_fit {t : List Tok} (h : Meta t) : Fit t := by
  induction h with
  | path h => exact path_fit h
  | value h =>
    intro b r
    simp only [List.append_assoc, List.cons_append, List.nil_append]
    rw [path_fit h, scan_pt (by decide), scan_str]
  | list h _ ih =>
    intro b r
    simp only [List.append_assoc, List.cons_append, List.nil_append]
    rw [path_fit h, scan_pt (by decide), fit0_commas ih, scan_pt (by decide)]

theorem many_fit {P : List Tok → Prop} (hP : ∀ t, P t → Fit0 t) {t : List Tok} (h : Many P t) : Fit0 t := by
  induction h with
  | nil => exact fun _ => rfl
  | cons h _ ih => intro r; rw [List.append_assoc, hP _ h, ih]

theorem attr_fit {t : List Tok} (h : Attr t) : Fit t := by
  cases h with
  | mk h =>
    intro b r
    simp only [List.append_assoc, List.cons_append, List.nil_append]
    rw [scan_pt (by decide), scan_pt (by decide), meta_fit h, scan_pt (by decide)]

theorem operand_fit {t : List Tok} (h : Operand t) : Fit t := by
  induction h with
  | unit =>
    intro b r
    rw [List.cons_append, scan_pt (by decide), List.cons_append, scan_pt (by decide)]; rfl
  | num => intro b r; exact scan_num
  | str => intro b r; exact scan_str
  | path h => exact path_fit h
  | call h _ ih =>
    intro b r
    simp only [List.append_assoc, List.cons_append, List.nil_append]
    rw [path_fit h, scan_pt (by decide), fit0_commas ih, scan_pt (by decide)]
  | «macro» h _ ih =>
    intro b r
    simp only [List.append_assoc, List.cons_append, List.nil_append]
    rw [path_fit h, scan_pt (by decide), scan_pt (by decide), fit0_commas ih, scan_pt (by decide)]
  | field _ ih =>
    intro b r
    simp only [List.append_assoc, List.cons_append, List.nil_append]
    rw [ih, scan_pt (by decide), scan_num]
  | method _ _ _ ih ih' =>
    intro b r
    simp only [List.append_assoc, List.cons_append, List.nil_append]
    rw [ih, scan_pt (by decide), scan_word, scan_pt (by decide), fit0_commas ih', scan_pt (by decide)]
  | methodAt _ _ h _ ih ih' =>
    intro b r
    simp only [List.append_assoc, List.cons_append, List.nil_append]
    rw [ih, scan_pt (by decide), scan_word, scan_pt (by decide), scan_lt, ty_fit h, scan_pt (by decide), scan_pt (by decide),
      fit0_commas ih', scan_pt (by decide)]

theorem cond_fit {t : List Tok} (h : Cond t) : Fit t := by
  cases h with
  | @mk a o b h1 ho h2 =>
    intro c r
    rw [List.append_assoc, operand_fit h1, List.cons_append, scan]
    rw [operand_fit h2]
    simp

theorem attrs_fit {t : List Tok} (h : Many Attr t) : Fit0 t := many_fit (fun _ h => (attr_fit h).fit0) h

theorem stmt_fit {t : List Tok} (h : Stmt t) : Fit0 t := by
  refine Stmt.rec (motive_1 := fun t _ => Fit0 t) (motive_2 := fun t _ => Fit0 t) ?_ ?_ ?_ ?_ h
  · intro e h r
    simp only [List.append_assoc, List.cons_append, List.nil_append]
    rw [scan_word, operand_fit h, scan_pt (by decide)]
  · intro as c b h1 h2 _ ih r
    simp only [List.append_assoc, List.cons_append, List.nil_append]
    rw [attrs_fit h1, scan_word, cond_fit h2, scan_pt (by decide), ih, scan_pt (by decide)]
  · exact fun _ => rfl
  · intro a b _ _ h1 h2 r; rw [List.append_assoc, h1, h2]

theorem field_fit {t : List Tok} (h : Syn.Field t) : Fit0 t := by
  cases h with
  | mk h1 h2 h3 =>
    intro r
    simp only [List.append_assoc, List.cons_append, List.nil_append]
    rw [attrs_fit h1, scan_word, scan_word, scan_pt (by decide), ty_fit h3, scan_comma]

theorem variant_fit {t : List Tok} (h : Variant t) : Fit0 t := by
  cases h with
  | bare h1 h2 =>
    intro r
    simp only [List.append_assoc, List.cons_append, List.nil_append]
    rw [attrs_fit h1, scan_word, scan_comma]
  | «with» h1 h2 h3 =>
    intro r
    simp only [List.append_assoc, List.cons_append, List.nil_append]
    rw [attrs_fit h1, scan_word, scan_pt (by decide), ty_fit h3, scan_pt (by decide), scan_comma]

theorem func_fit {t : List Tok} (h : Func t) : Fit0 t := by
  cases h with
  | @mk n ps t b e h1 h2 h3 h4 h5 =>
    intro r
    have hp : Fit0 ps := by
      rcases h2 with rfl | rfl
      · exact fun _ => rfl
      · intro r; rw [List.cons_append, scan_pt (by decide), List.cons_append, scan_word]; rfl
    simp only [List.append_assoc, List.cons_append, List.nil_append]
    rw [scan_word, scan_word, scan_pt (by decide), hp, scan_pt (by decide), scan_pt (by decide), ty_fit h3, scan_pt (by decide),
      many_fit (fun _ => stmt_fit) h4, operand_fit h5, scan_pt (by decide)]

theorem item_fit {t : List Tok} (h : Syn.Item t) : Fit0 t := by
  refine Syn.Item.rec (motive_1 := fun t _ => Fit0 t) (motive_2 := fun t _ => Fit0 t) ?_ ?_ ?_ ?_ ?_ ?_ ?_ ?_ ?_ h
  · intro as n fs h1 h2 h3 r
    simp only [List.append_assoc, List.cons_append, List.nil_append]
    rw [attrs_fit h1, scan_word, scan_word, scan_word, scan_pt (by decide), many_fit (fun _ => field_fit) h3, scan_pt (by decide)]
  · intro as n t h1 h2 h3 r
    simp only [List.append_assoc, List.cons_append, List.nil_append]
    rw [attrs_fit h1, scan_word, scan_word, scan_word, scan_pt (by decide), scan_word, ty_fit h3, scan_pt (by decide), scan_pt (by decide)]
  · intro as n fs h1 h2 h3 r
    simp only [List.append_assoc, List.cons_append, List.nil_append]
    rw [attrs_fit h1, scan_word, scan_word, scan_word, scan_pt (by decide), many_fit (fun _ => variant_fit) h3, scan_pt (by decide)]
  · intro n t h1 h2 r
    simp only [List.append_assoc, List.cons_append, List.nil_append]
    rw [scan_word, scan_word, scan_word, scan_pt (by decide), ty_fit h2, scan_pt (by decide)]
  · intro p t fs h1 h2 h3 r
    simp only [List.append_assoc, List.cons_append, List.nil_append]
    rw [scan_word, path_fit h1, scan_word, ty_fit h2, scan_pt (by decide), many_fit (fun _ => func_fit) h3, scan_pt (by decide)]
  · intro p h r
    simp only [List.append_assoc, List.cons_append, List.nil_append]
    rw [scan_word, path_fit h, scan_pt (by decide), scan_pt (by decide), scan_pt (by decide)]
  · intro n is h1 _ ih r
    simp only [List.append_assoc, List.cons_append, List.nil_append]
    rw [scan_word, scan_word, scan_word, scan_pt (by decide), ih, scan_pt (by decide)]
  · exact fun _ => rfl
  · intro a b _ _ h1 h2 r; rw [List.append_assoc, h1, h2]

theorem param_fit {t : List Tok} (h : Syn.Param t) : Fit t := by
  cases h with
  | mk h1 h2 =>
    intro b r
    simp only [List.cons_append]
    rw [scan_word, scan_pt (by decide), scan_pt (by decide), ty_fit h2]

theorem async_fit {t : List Tok} (h : AsyncFn t) : Fit0 t := by
  cases h with
  | mk h1 h2 h3 h4 h5 h6 =>
    intro r
    simp only [List.append_assoc, List.cons_append, List.nil_append]
    rw [scan_word, scan_word, scan_word, scan_word, scan_lt, scan_word, scan_pt (by decide), path_fit h3, scan_pt (by decide),
      scan_pt (by decide), fit0_commas (fun p hp => param_fit (h4 p hp)), scan_pt (by decide), scan_pt (by decide), ty_fit h5,
      scan_pt (by decide), operand_fit h6, scan_pt (by decide), scan_word, scan_pt (by decide)]

/-- In a client no `<` is followed by a comma. -/
theorem client_scan {ts : List Tok} (h : Many (fun i => Syn.Item i ∨ AsyncFn i) ts) : scan false ts = true := by
  have := many_fit (fun _ h => h.elim item_fit async_fit) h []
  rw [List.append_nil] at this
  rw [this]; rfl

theorem client_no_gap {t : Str} {a r : List Tok} (hl : Lexed t (a ++ pt "<" :: pt "," :: r)) : ¬ IsClient t := by
  rintro ⟨us, h1, h2⟩
  have := client_scan (lexed_unique hl h1 rfl ▸ h2)
  rw [scan_gap] at this
  cases this

/-! ## The text of a function -/

/-- The text of a path. -/
def PathText (s : Str) : Prop := ∃ ts, Lexed s ts ∧ Path ts

theorem pathText_word {n : Str} (h : LegalIdent n) : PathText n :=
  ⟨_, by have := opn_word h [] [] (by simp) .nil; simpa using this, .one h⟩

theorem pathText_path {p n : Str} (hp : LegalIdent p) (hn : LegalIdent n) : PathText (p ++ "::".toList ++ n) := by
  have h2 : Seg "::".toList [pt "::"] := seg_of 5 (by decide +kernel)
  have h := ((opn_word hp).app h2 ⟨':', rfl, by decide⟩).appOpn (opn_word hn)
  refine ⟨_, ?_, .more (.one hp) hn⟩
  have := h [] [] (by simp) .nil
  simpa using this

/-- The path for a reference. -/
theorem path_ref {o : Option Str} {n v : Str} (hr : Ref o n v) (hn : Local n) (ho : ∀ p, o = some p → LegalIdent p) :
    PathText (defaultFormatType U v tns) := by
  have hb : matchBuiltInType v (some ⟨some [':'], []⟩) = none := by
    rw [matchBuiltInType, splitName_iff.2 hr]
    refine if_pos ?_
    intro e
    have e : o = some [':'] := e.symm
    have := ho _ e
    obtain ⟨⟨c, cs, h1, h2, -⟩, -⟩ := this
    obtain rfl := (List.cons.inj h1).1
    revert h2; decide
  have e : defaultFormatType U v tns = formatTypeName U tns (some ⟨some [':'], []⟩) v := by rw [formatTypeName, hb]
  rw [e]
  obtain ⟨h1, h2, h3⟩ := Props.C32_qualified U v n o tns _ hr hb
  cases o with
  | none => rw [h1 rfl]; exact pathText_word (local_sanitized hn)
  | some p =>
    by_cases hp : tns.bind (·.name) = some p
    · rw [h2 p rfl hp]; exact pathText_word (local_sanitized hn)
    · have e : formatTypeName U tns _ v = sanitize U (p ++ "::".toList ++ pas U n) := h3 p rfl hp
      rw [e, sanitize_path (ho p rfl)]
      exact pathText_path (ho p rfl) (pas_legal hn)

theorem PathText.ty {s : Str} (h : PathText s) : TypeText s := by
  obtain ⟨ts, h1, h2⟩ := h
  exact ⟨ts, h1, .path h2⟩

theorem plain_path {v : Str} (h : PlainRef v) : PathText (defaultFormatType U v tns) := by
  obtain ⟨o, n, h1, h2, h3⟩ := h
  exact path_ref h1 (PlainName.local h2) h3

theorem transport_path : PathText (defaultFormatType U "transport::Transport".toList tns) := by
  refine path_ref (o := some "transport".toList) (n := ':' :: "Transport".toList) ?_
    (PlainName.local (plainName_of (s := "Transport") (by decide +kernel))).colon ?_
  · exact splitName_iff.1 (show splitName "transport::Transport".toList = _ by decide +kernel)
  · rintro p ⟨⟩; exact legal_of (by decide +kernel)

theorem t_path : PathText (defaultFormatType U "T".toList tns) :=
  path_ref (o := none) (n := "T".toList) (.bare (by decide)) (PlainName.local (plainName_of (s := "T") (by decide +kernel))) (by simp)

/-- What is needed of a signature. -/
def PlainSig (sig : Sig) : Prop :=
  PlainName sig.name ∧ (∀ a ∈ sig.args, LegalIdent a.1 ∧ PlainRef a.2) ∧ ∀ t, sig.ret = some t → PlainRef t

theorem amp_ty {s : Str} {ts : List Tok} (h : Lexed s ts) (ht : Ty ts) : Opn ('&' :: s) (pt "&" :: ts) := by
  refine lexed_opn ?_ (.inr ?_)
  · refine .single (by decide) ?_ h
    intro b hb
    refine ⟨?_, fun h => absurd h (by decide)⟩
    intro hm
    have : b = '=' := by
      simp only [doubles, List.map_cons, List.map_nil, List.mem_cons, List.not_mem_nil, or_false] at hm
      simpa using hm
    obtain ⟨w, hw⟩ := lexed_head h (this ▸ hb)
    exact ty_head ht w hw
  · have := ty_ending ht
    cases ts with
    | nil => rcases this with ⟨w, h⟩ | h | h <;> cases h
    | cons t ts => simpa [Ending, List.getLast?_cons_cons] using this

/-- The text of a parameter. -/
theorem arg_opn {p : Wsdl.Param} (h1 : LegalIdent p.name) (h2 : TypeText (defaultFormatType U p.typename tns)) :
    ∃ ts, Opn (argText U tns p) ts ∧ Syn.Param ts := by
  obtain ⟨ts, k1, k2⟩ := h2
  have hc : Seg ": ".toList [pt ":"] := seg_of 20 (by decide +kernel)
  refine ⟨_, opn_cast (((opn_word h1).app hc ⟨':', rfl, by decide⟩).appOpn (amp_ty k1 k2)) ?_ rfl, .mk h1 k2⟩
  have e : ": &".toList = ": ".toList ++ ['&'] := by decide +kernel
  rw [argText, e]
  simp only [List.append_assoc, List.cons_append, List.nil_append]

theorem args_opn : ∀ {ps : List Wsdl.Param}, (∀ p ∈ ps, LegalIdent p.name ∧ TypeText (defaultFormatType U p.typename tns)) →
    ∃ ts : List (List Tok), (∀ t ∈ ts, Syn.Param t) ∧ ts.length = ps.length ∧
      ∀ b bs, Seg b bs → (∃ d, b.head? = some d ∧ Follow d) → ∀ (x : List Tok) (s : Str), Opn s x →
        Seg (s ++ ps.flatMap (fun p => ",\n    ".toList ++ argText U tns p) ++ b) (x ++ ts.flatMap (pt "," :: ·) ++ bs)
  | [], _ => ⟨[], by simp, rfl, fun b bs hb hd x s hx => by simpa using hx.app hb hd⟩
  | p :: ps, h => by
    obtain ⟨t, h1, h2⟩ := arg_opn (U := U) (tns := tns) (h p (by simp)).1 (h p (by simp)).2
    obtain ⟨ts, k1, k2, k3⟩ := args_opn (ps := ps) fun q hq => h q (by simp [hq])
    refine ⟨t :: ts, by simpa using ⟨h2, k1⟩, by simp [k2], fun b bs hb hd x s hx => ?_⟩
    have hk : Seg ",\n    ".toList [pt ","] := seg_of 20 (by decide +kernel)
    have := k3 b bs hb hd _ _ ((hx.app hk ⟨',', rfl, by decide⟩).appOpn h1)
    refine seg_cast this ?_ ?_
    · simp only [List.flatMap_cons, List.append_assoc]
    · simp only [List.flatMap_cons, List.append_assoc, List.cons_append, List.nil_append]

/-- The tokens after the type of the result. -/
def restToks : List Tok :=
  [pt ",", kw "transport", pt "::", kw "Error", pt ">", pt "{", kw "transport", pt "::", kw "request", pt "(", kw "transport", pt ",",
    kw "request", pt ")", pt ".", kw "await", pt "}"]

/-- The tokens of a function. -/
def fnToks (n : Str) (b : List Tok) (ps : List (List Tok)) (r : List Tok) : List Tok :=
  kw "pub" :: kw "async" :: kw "fn" :: .word n :: pt "<" :: kw "T" :: pt ":" :: b ++ pt ">" :: pt "(" :: commas ps ++
    pt ")" :: pt "->" :: kw "Result" :: pt "<" :: r ++ restToks

theorem rest_seg : Seg (", transport::Error> {".toList ++ '\n' :: (("    ".toList ++ requestFuncBody) ++ '\n' :: (['}'] ++ ['\n'])))
    restToks := seg_of 100 (by decide +kernel)

theorem ret_seg {sig : Sig} (h : ∀ t, sig.ret = some t → PlainRef t) : ∃ r, (sig.ret = none → r = []) ∧ (∀ t, sig.ret = some t → Ty r) ∧
    Seg ('\n' :: (retLine U tns sig ++ '\n' :: (("    ".toList ++ requestFuncBody) ++ '\n' :: (['}'] ++ ['\n']))))
      (pt ")" :: pt "->" :: kw "Result" :: pt "<" :: r ++ restToks) := by
  unfold retLine
  cases hr : sig.ret with
  | none =>
    refine ⟨[], fun _ => rfl, by simp, ?_⟩
    have e : defaultFormatType U ((none : Option Str).getD []) tns = [] := by
      show defaultFormatType U [] tns = []
      cases tns with
      | none => rfl
      | some n => obtain ⟨nm, u⟩ := n; cases nm <;> rfl
    rw [e]
    exact seg_of 100 (by decide +kernel)
  | some t =>
    obtain ⟨r, k1, k2⟩ := (plain_path (U := U) (tns := tns) (h t hr)).ty
    refine ⟨r, by simp, fun _ _ => k2, ?_⟩
    have h1 : Seg ('\n' :: ") -> ".toList) [pt ")", pt "->"] := seg_of 20 (by decide +kernel)
    have h2 := (opn_word (legal_of (s := "Result".toList) (by decide +kernel))).opn (lt_ty k1 k2) ⟨'<', rfl, by decide⟩
    have := h1.app (h2.app rest_seg ⟨',', rfl, by decide⟩)
    refine seg_cast this ?_ ?_
    · have e : ") -> Result<".toList = ") -> ".toList ++ ("Result".toList ++ ['<']) := by decide +kernel
      rw [e]
      show '\n' :: (_ ++ (defaultFormatType U t tns ++ _) ++ _) = _
      generalize ", transport::Error> {".toList = x1
      generalize "    ".toList ++ requestFuncBody = x2
      generalize ") -> ".toList = x3
      generalize "Result".toList = x4
      simp only [List.append_assoc, List.cons_append, List.nil_append]
    · simp only [List.cons_append, List.nil_append]

theorem fn_seg {sig : Sig} (h : PlainSig sig) : ∃ b ps r, Path b ∧ (∀ p ∈ ps, Syn.Param p) ∧ (sig.ret = none → r = []) ∧
    (∀ t, sig.ret = some t → Ty r) ∧ LegalIdent (defaultFormatName U sig.name) ∧
    Seg (functionText U tns sig) (fnToks (defaultFormatName U sig.name) b ps r) := by
  obtain ⟨hn, ha, hr⟩ := h
  obtain ⟨r, r1, r2, r3⟩ := ret_seg (U := U) (tns := tns) hr
  obtain ⟨b, b1, b2⟩ := transport_path (U := U) (tns := tns)
  have hname : LegalIdent (defaultFormatName U sig.name) :=
    field_ref ⟨hn.2.1, .inl rfl⟩ hn.1 (Local.alnum (PlainName.local hn)) hn.2.2.2.2
  obtain ⟨p, p1, p2⟩ := arg_opn (U := U) (tns := tns) (p := argumentTransport) (legal_of (by decide +kernel)) t_path.ty
  obtain ⟨ps, q1, -, q3⟩ := args_opn (U := U) (tns := tns) (ps := sig.args.map toParam) (by
    intro q hq
    obtain ⟨a, hm, rfl⟩ := List.mem_map.1 hq
    exact ⟨(ha a hm).1, (plain_path (ha a hm).2).ty⟩)
  refine ⟨b, p :: ps, r, b2, by simpa using ⟨p2, q1⟩, r1, r2, hname, ?_⟩
  have h1 : Seg "pub async fn ".toList [kw "pub", kw "async", kw "fn"] := seg_of 50 (by decide +kernel)
  have h2 : Seg "<T: ".toList [pt "<", kw "T", pt ":"] := seg_of 50 (by decide +kernel)
  have h3 : Seg ">(\n    ".toList [pt ">", pt "("] := seg_of 50 (by decide +kernel)
  have hb := opn_ty b1 (.path b2)
  have h4 := (h1.appOpn (opn_word hname)).app h2 ⟨'<', rfl, by decide⟩
  have h5 := (h4.appOpn hb).app h3 ⟨'>', rfl, by decide⟩
  have h6 := q3 _ _ r3 ⟨'\n', rfl, by decide⟩ _ _ (h5.appOpn p1)
  have h7 := seg_nl.app ((seg_doc sig.doc 0).app h6)
  refine seg_cast h7 ?_ ?_
  · rw [functionText_eq]
    unfold headLine
    have e1 : "<T: ".toList = '<' :: "T: ".toList := by decide +kernel
    have e2 : ">(\n    ".toList = '>' :: '(' :: '\n' :: "    ".toList := by decide +kernel
    have e3 : GenCtx.formatComment sig.doc 0 = defaultFormatComment sig.doc 80 0 := rfl
    rw [e1, e2, e3, List.map_cons, joinWith, List.flatMap_map]
    generalize retLine U tns sig = x1
    generalize defaultFormatComment sig.doc 80 0 = x2
    generalize defaultFormatType U "transport::Transport".toList tns = x3
    generalize "pub async fn ".toList = x4
    generalize "T: ".toList = x5
    generalize "    ".toList = x6
    generalize requestFuncBody = x7
    generalize argText U tns argumentTransport = x8
    simp only [List.append_assoc, List.cons_append, List.nil_append]
  · unfold fnToks
    simp only [commas, List.append_assoc, List.cons_append, List.nil_append]

theorem fn_async {n : Str} {b r : List Tok} {ps : List (List Tok)} (hn : LegalIdent n) (hb : Path b) (hp : ∀ p ∈ ps, Syn.Param p) (hr : Ty r) :
    AsyncFn (fnToks n b ps r) := by
  have ht : Path [kw "transport", pt "::", kw "Error"] := .more (p := [kw "transport"]) (path_of (by decide +kernel)) (legal_of (by decide +kernel))
  have h2 : Ty ([kw "Result"] ++ pt "<" :: commas [r, [kw "transport", pt "::", kw "Error"]] ++ [pt ">"]) :=
    .generic (path_of (by decide +kernel)) (by simp) (by
      intro a ha
      simp only [List.mem_cons, List.not_mem_nil, or_false] at ha
      rcases ha with rfl | rfl
      · exact hr
      · exact .path ht)
  have h3 : Operand ([kw "transport", pt "::", kw "request"] ++ pt "(" :: commas [[kw "transport"], [kw "request"]] ++ [pt ")"]) :=
    .call (.more (p := [kw "transport"]) (path_of (by decide +kernel)) (legal_of (by decide +kernel))) (by
      intro a ha
      simp only [List.mem_cons, List.not_mem_nil, or_false] at ha
      rcases ha with rfl | rfl <;> exact .path (path_of (by decide +kernel)))
  refine tk (AsyncFn.mk (g := "T".toList) hn (legal_of (by decide +kernel)) hb hp h2 h3) ?_
  unfold fnToks restToks
  simp only [commas, List.append_assoc, List.cons_append, List.nil_append, List.append_nil, List.flatMap_cons, List.flatMap_nil]

end Verif.Lemmas.Syn
