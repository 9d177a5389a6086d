import Verif.Props.Values
import Verif.Lemmas.Closed

/-! # C83: every type which is mentioned is there -/

namespace Verif.Props

open Verif Verif.Model Verif.Spec Verif.RoXml Verif.Lemmas Verif.Lemmas.Parse

open Verif.Props.Sample

/-! ## Types in items -/

private theorem wraps_modify (c : Str) (ms : List TypeModifier) :
    (∃ c', Wraps c' (defaultModifyType c ms) ∧ (c' = c ∨ c' = "()".toList)) := by
  have hf : ∀ (ms : List TypeModifier) (t : Str), Wraps c t → Wraps c (ms.foldl applyModifier t) := by
    intro ms
    induction ms with
    | nil => exact fun t h => h
    | cons m ms ih =>
      intro t h
      refine ih _ ?_
      cases m with
      | array => show Wraps c ("Vec<".toList ++ t ++ ">".toList); rw [List.append_assoc]; exact .vec h
      | option => show Wraps c ("Option<".toList ++ t ++ ">".toList); rw [List.append_assoc]; exact .option h
      | _ => exact h
  unfold defaultModifyType
  split
  · exact ⟨_, .bare, .inr rfl⟩
  · split
    · exact ⟨c, by rw [List.append_assoc]; exact .vec .bare, .inl rfl⟩
    · exact ⟨c, hf ms c .bare, .inl rfl⟩

private theorem dropWhile_paren {a b : Str} (h : '(' ∉ a) : (a ++ '(' :: b).dropWhile (· ≠ '(') = '(' :: b := by
  induction a with
  | nil => simp
  | cons c a ih =>
    have h1 : c ≠ '(' := fun e => h (e ▸ List.mem_cons_self)
    rw [List.cons_append, List.dropWhile_cons_of_pos (by simpa using h1), ih fun hm => h (List.mem_cons_of_mem _ hm)]

private theorem dropWhile_all {a : Str} (h : '(' ∉ a) : a.dropWhile (· ≠ '(') = [] := by
  rw [List.dropWhile_eq_nil_iff]
  intro c hc
  simpa using fun e : c = '(' => h (e ▸ hc)

private theorem takeWhile_paren {a b : Str} (h : ')' ∉ a) : (a ++ ')' :: b).takeWhile (· ≠ ')') = a := by
  induction a with
  | nil => simp
  | cons c a ih =>
    have h1 : c ≠ ')' := fun e => h (e ▸ List.mem_cons_self)
    rw [List.cons_append, List.takeWhile_cons_of_pos (by simpa using h1), ih fun hm => h (List.mem_cons_of_mem _ hm)]

/-- The types in the members of an item for an entity, before they are made options and vectors. -/
private def Mentions (N : Naming) : RsEntity → Str → Prop
  | .struct (.mk n _ fs _ _), t => ∃ f ∈ fs, t = N.type (if f.subtypes.isEmpty then f.typeName else N.name n ++ "::".toList ++ f.typeName)
  | .tupleStruct (.mk _ _ t' _ _ _), t => t = N.type t'
  | .enum (.mk _ cs _ t' _ _), t => t = N.type t' ∨ ∃ c ∈ cs, ∃ u, c.typeName = some u ∧ t = N.type u
  | _, _ => False

private theorem mentions {U : UnicodeTable} {root : Node} {ns : Option Namespace} {e : RsEntity} {i : Item}
    (hs : SafeTexts e) (hm : ∀ n c t ss ms fs, e = .tupleStruct (.mk n c t ss ms fs) → ∀ m ∈ ms, m = .array)
    (hi : EntityItem (naming U root) ns e i) :
    ∀ t ∈ memberTypes i, ∃ u ms, Mentions (naming U root) e u ∧ t = defaultModifyType u ms := by
  have hw : ∀ m, PrefixSafe m → Gen.WordText ((naming U root).type m) := fun m hm =>
    Gen.typeName_word ⟨U, targetNamespace root, xsdNamespace root⟩ hm
  have hpar : ∀ {w : Str}, Gen.WordText w → '(' ∉ w := fun h hc => h _ hc (by decide)
  have hrap : ∀ {w : Str}, Gen.WordText w → ')' ∉ w := fun h hc => h _ hc (by decide)
  intro t ht
  cases e with
  | struct s =>
    obtain ⟨n, c, fs, ag, ss⟩ := s
    have hn := hw n hs.1
    have hh : i.head = "pub struct ".toList ++ ((naming U root).type n ++ ' ' ::
        (if written fs = [] then "{}".toList else "{".toList)) := by
      refine hi.2.2.trans ?_
      split <;> rfl
    have hr : readHead i.head = some (.struct, (naming U root).type n) := by rw [hh, Gen.readHead_struct hn.sp]
    have hd : i.head.dropWhile (· ≠ '(') = [] := by
      refine dropWhile_all ?_
      rw [hh]
      intro hm
      rcases List.mem_append.1 hm with hm | hm
      · exact absurd hm (by decide)
      rcases List.mem_append.1 hm with hm | hm
      · exact hpar hn hm
      · split at hm <;> exact absurd hm (by decide)
    rw [memberTypes, hr] at ht
    dsimp only at ht
    rw [hd] at ht
    have ht : t ∈ (readFieldLines none i.body).filterMap (·.type) := ht
    obtain ⟨m, hm, hmt⟩ := List.mem_filterMap.1 ht
    obtain ⟨f, hf, h1, h2, -⟩ := forall₂_left hi.2.1 m hm
    rw [h2] at hmt
    exact ⟨_, _, ⟨f, (List.mem_filter.1 hf).1, rfl⟩, (Option.some.inj hmt).symm⟩
  | tupleStruct s =>
    obtain ⟨n, c, t', ss, ms, fs⟩ := s
    have hn := hw n hs.1
    have hh : i.head = "pub struct ".toList ++ ((naming U root).type n ++ ' ' ::
        ("(pub ".toList ++ (defaultModifyType ((naming U root).type t') ms ++ ");".toList))) := hi.2.1
    have hr : readHead i.head = some (.struct, (naming U root).type n) := by rw [hh, Gen.readHead_struct hn.sp]
    have hty : Gen.WordText (defaultModifyType ((naming U root).type t') ms) :=
      Gen.modifyType_word (hw t' hs.2.1) fun h => absurd (hm _ _ _ _ _ _ rfl _ h) (by decide)
    have hd : (i.head.dropWhile (· ≠ '(')).takeWhile (· ≠ ')') =
        "(pub ".toList ++ defaultModifyType ((naming U root).type t') ms := by
      rw [hh, show "pub struct ".toList ++ ((naming U root).type n ++ ' ' ::
        ("(pub ".toList ++ (defaultModifyType ((naming U root).type t') ms ++ ");".toList))) =
        ("pub struct ".toList ++ ((naming U root).type n ++ " ".toList)) ++
        '(' :: ("pub ".toList ++ (defaultModifyType ((naming U root).type t') ms ++ ");".toList)) by simp, dropWhile_paren]
      · rw [show '(' :: ("pub ".toList ++ (defaultModifyType ((naming U root).type t') ms ++ ");".toList)) =
          ("(pub ".toList ++ defaultModifyType ((naming U root).type t') ms) ++ ')' :: ";".toList by simp, takeWhile_paren]
        intro hm
        rcases List.mem_append.1 hm with hm | hm
        · exact absurd hm (by decide)
        · exact hrap hty hm
      · intro hm
        rcases List.mem_append.1 hm with hm | hm
        · exact absurd hm (by decide)
        rcases List.mem_append.1 hm with hm | hm
        · exact hpar hn hm
        · exact absurd hm (by decide)
    rw [memberTypes, hr] at ht
    dsimp only at ht
    rw [hd, Gen.afterPrefix_append] at ht
    exact ⟨_, ms, rfl, List.mem_singleton.1 ht⟩
  | «enum» s =>
    obtain ⟨n, cs, c, t', ss, src⟩ := s
    have hn := hw n hs.1
    have hh : i.head = "pub enum ".toList ++ ((naming U root).type n ++ ' ' :: "{".toList) := hi.2.1
    have hr : readHead i.head = some (.enum, (naming U root).type n) := by rw [hh, Gen.readHead_enum hn.sp]
    rw [memberTypes, hr] at ht
    dsimp only at ht
    obtain ⟨mems, h1, h2⟩ := hi.2.2
    rw [h2] at ht
    obtain ⟨m, hm, hmt⟩ := List.mem_filterMap.1 ht
    rcases List.mem_append.1 hm with hm | hm
    · obtain ⟨cc, hcc, -, k2, -⟩ := forall₂_left h1 m hm
      rw [k2] at hmt
      obtain ⟨u, hu, rfl⟩ := Option.map_eq_some_iff.1 hmt
      exact ⟨_, _, .inr ⟨cc, hcc, u, hu, rfl⟩, rfl⟩
    · obtain rfl := List.mem_singleton.1 hm
      obtain rfl := Option.some.inj hmt
      exact ⟨_, [], .inl rfl, rfl⟩
  | «alias» a =>
    obtain ⟨n, o, c, ss⟩ := a
    have hh : i.head = "pub type ".toList ++ ((naming U root).type n ++ ' ' :: ("= ".toList ++ ((naming U root).type o ++ ";".toList))) :=
      hi.2.1
    rw [memberTypes, hh, Gen.readHead_type (hw n hs.1).sp] at ht
    cases ht
  | _ => exact hi.elim

theorem item_defines {U : UnicodeTable} {root : Node} {ns : Option Namespace} {e : RsEntity} {i : Item}
    (hs : SafeTexts e) (hn : Named e) (hi : EntityItem (naming U root) ns e i) :
    (TypeLike e → DefinesType i ((naming U root).type e.name)) ∧
    (DefinesType i ((naming U root).type e.name) ∨ readHead i.head = some (.type, (naming U root).type e.name)) := by
  have hw : ∀ m, PrefixSafe m → ' ' ∉ (naming U root).type m := fun m hm =>
    (Gen.typeName_word ⟨U, targetNamespace root, xsdNamespace root⟩ hm).sp
  cases e with
  | struct s =>
    obtain ⟨n, c, fs, ag, ss⟩ := s
    have hh : i.head = "pub struct ".toList ++ ((naming U root).type n ++ ' ' ::
        (if written fs = [] then "{}".toList else "{".toList)) := by
      refine hi.2.2.trans ?_
      split <;> rfl
    have : DefinesType i ((naming U root).type n) := .inl (by rw [hh, Gen.readHead_struct (hw n hs.1)])
    exact ⟨fun _ => this, .inl this⟩
  | tupleStruct s =>
    obtain ⟨n, c, t', ss, ms, fs⟩ := s
    have hh : i.head = "pub struct ".toList ++ ((naming U root).type n ++ ' ' :: _) := hi.2.1
    have : DefinesType i ((naming U root).type n) := .inl (by rw [hh, Gen.readHead_struct (hw n hs.1)])
    exact ⟨fun _ => this, .inl this⟩
  | «enum» s =>
    obtain ⟨n, cs, c, t', ss, src⟩ := s
    have hh : i.head = "pub enum ".toList ++ ((naming U root).type n ++ ' ' :: "{".toList) := hi.2.1
    have : DefinesType i ((naming U root).type n) := .inr (by rw [hh, Gen.readHead_enum (hw n hs.1)])
    exact ⟨fun _ => this, .inl this⟩
  | «alias» a =>
    obtain ⟨n, o, c, ss⟩ := a
    have hh : i.head = "pub type ".toList ++ ((naming U root).type n ++ ' ' :: _) := hi.2.1
    exact ⟨fun h => h.elim, .inr (by rw [hh, Gen.readHead_type (hw n hs.1)]; rfl)⟩
  | _ => exact hi.elim

/-- The types which are given in place get names which need no change. -/
private theorem inner_name {U : UnicodeTable} {root : Node} {uri : Str} (hp : PlainNames root uri) {v t : Str}
    (hv : Lettered v) (ht : t = v ++ "Type".toList ∨ t = v ++ "Choice".toList) :
    (naming U root).type t = filterTypeName U (Inflector.toPascalCase U t) := by
  obtain ⟨x, p, hx, hxn⟩ := xsd_found hp
  have hcol : ':' ∉ t := by
    intro h
    rcases ht with rfl | rfl <;> rcases List.mem_append.1 h with h | h <;>
      first | exact hv.2 h | exact absurd h (by decide)
  have hb : matchBuiltInType t (xsdNamespace root) = none := by
    cases hm : matchBuiltInType t (xsdNamespace root) with
    | none => rfl
    | some r =>
      obtain ⟨row, -, hr, -⟩ := (C28_builtin t r _).1 hm
      rw [hx] at hr
      have hr : Ref x.name row.1.toList t := hr
      rw [hxn] at hr
      cases hr
      exact absurd (List.mem_append_right _ List.mem_cons_self) hcol
  have e := (C32_qualified U t t none (targetNamespace root) (xsdNamespace root) (.bare hcol) hb).1 rfl
  refine e.trans ?_
  obtain ⟨⟨c, hc, hl⟩, -⟩ := hv
  obtain ⟨v', rfl⟩ : ∃ v', v = c :: v' := by
    cases v with
    | nil => cases hc
    | cons a v => cases hc; exact ⟨v, rfl⟩
  have hal : asciiAlnum c = true := by
    unfold asciiAlnum
    rcases hl with h | h <;> simp [h]
  have hascii : ∀ d : Char, asciiAlnum d = true → d.toNat < 128 := by
    intro d hd
    simp only [asciiAlnum, Str.isAsciiDigit, asciiUpper, asciiLower, Bool.or_eq_true, Bool.and_eq_true, decide_eq_true_iff] at hd
    rcases hd with (⟨-, h⟩ | ⟨-, h⟩) | ⟨-, h⟩
    · exact Nat.lt_of_le_of_lt (show d.toNat ≤ '9'.toNat from h) (by decide)
    · exact Nat.lt_of_le_of_lt (show d.toNat ≤ 'Z'.toNat from h) (by decide)
    · exact Nat.lt_of_le_of_lt (show d.toNat ≤ 'z'.toNat from h) (by decide)
  have hlow : Str.isAsciiDigit (toAsciiLower c) = false := by
    have h : ∀ n : Fin 128, asciiUpper (Char.ofNat n) = true ∨ asciiLower (Char.ofNat n) = true →
        Str.isAsciiDigit (toAsciiLower (Char.ofNat n)) = false := by decide +kernel
    have := h ⟨c.toNat, hascii c hal⟩
    rw [show Char.ofNat (⟨c.toNat, hascii c hal⟩ : Fin 128).val = c from Char.ofNat_toNat c] at this
    exact this hl
  have hdig : ∀ d, Str.isAsciiDigit d = true → toAsciiLower d = d := by
    intro d hd
    have hu : asciiUpper d = false := by
      simp only [Str.isAsciiDigit, Bool.and_eq_true, decide_eq_true_iff] at hd
      have h9 : d.toNat ≤ '9'.toNat := hd.2
      rw [asciiUpper, Bool.and_eq_false_iff]
      left
      rw [decide_eq_false_iff_not]
      intro h
      have hA : 'A'.toNat ≤ d.toNat := h
      exact absurd (Nat.le_trans hA h9) (by decide)
    rw [toAsciiLower, hu]
    rfl
  have hsk := Gen.typeName_skeleton U t
  generalize hS : filterTypeName U (Inflector.toPascalCase U t) = s at *
  have hsal : ∀ d ∈ s, asciiAlnum d = true := by
    intro d hd
    rw [← hS, Gen.typeName_eq] at hd
    exact (List.mem_filter.1 hd).2
  have hform : ∃ suf ∈ ["type", "choice"], ∃ r, s.map toAsciiLower = toAsciiLower c :: (r ++ suf.toList) := by
    rw [hsk, skeleton]
    rcases ht with rfl | rfl
    · refine ⟨"type", by simp, (v'.filter asciiAlnum).map toAsciiLower, ?_⟩
      rw [List.cons_append, List.filter_cons_of_pos hal, List.filter_append, List.map_cons, List.map_append]
      rfl
    · refine ⟨"choice", by simp, (v'.filter asciiAlnum).map toAsciiLower, ?_⟩
      rw [List.cons_append, List.filter_cons_of_pos hal, List.filter_append, List.map_cons, List.map_append]
      rfl
  obtain ⟨suf, hsuf, r, hform⟩ := hform
  refine Gen.sanitize_neg U ?_ ?_
  · intro d hd
    cases s with
    | nil => cases hd
    | cons d' s =>
      cases hd
      have h1 : toAsciiLower d = toAsciiLower c := (List.cons.inj hform).1
      have h2 := hsal d List.mem_cons_self
      rw [U.numeric_ascii d (hascii d h2)]
      cases hd : Str.isAsciiDigit d with
      | false => rfl
      | true =>
        rw [← h1, hdig d hd, hd] at hlow
        cases hlow
  · intro hk
    have h : ∀ k ∈ rsKeywords, ∀ suf ∈ ["type", "choice"], suf.toList <:+ k.map toAsciiLower → k.length ≤ suf.toList.length := by
      decide +kernel
    have := h s hk suf hsuf (by rw [hform]; exact ⟨toAsciiLower c :: r, rfl⟩)
    have hl := congrArg List.length hform
    rw [List.length_map, List.length_cons, List.length_append] at hl
    omega

theorem string_type {U : UnicodeTable} {root : Node} {uri : Str} (hp : PlainNames root uri) :
    (naming U root).type "String".toList = "String".toList := by
  obtain ⟨x, p, hx, hxn⟩ := xsd_found hp
  have hb : matchBuiltInType "String".toList (xsdNamespace root) = none := by
    cases hm : matchBuiltInType "String".toList (xsdNamespace root) with
    | none => rfl
    | some r =>
      obtain ⟨row, -, hr, -⟩ := (C28_builtin _ r _).1 hm
      rw [hx] at hr
      have hr : Ref x.name row.1.toList "String".toList := hr
      rw [hxn] at hr
      generalize hs : "String".toList = s at hr
      cases hr
      have : ':' ∈ "String".toList := by rw [hs]; exact List.mem_append_right _ List.mem_cons_self
      exact absurd this (by decide)
  show formatTypeName U (targetNamespace root) (xsdNamespace root) _ = _
  rw [formatTypeName, hb]
  dsimp only
  rw [Gen.defaultFormatType_ascii U (by decide)]
  rfl

/-- What the parser and the generator make of a schema which refers to what it declares. -/
private structure Built (U : UnicodeTable) (root : Node) (uri : Str) (is : List Item) (f : RsFile) : Prop where
  parse : parseFile U root = .ok f
  items : List.Forall₂ (ItemFor (naming U root) (targetNamespace root))
    (originsList (defaultFormatName U) documented f.types) is
  deep : ∀ e ∈ f.types, Deep (closedPreds root uri).entity e
  safe : ∀ e ∈ f.types, Deep SafeTexts e

private theorem built {U : UnicodeTable} {root : Node} {uri t : Str} {is : List Item} (hg : Grammatical root)
    (hs : CopySafe root) (h : convertXsd U root = .ok t) (hi : HasItems t is) (hc : SelfContained root uri) :
    ∃ f, Built U root uri is f := by
  obtain ⟨f, hp, is', h1, h2⟩ := C69_document U root t hg hs h
  obtain rfl := C69_determined t is is' hi h1
  exact ⟨f, hp, h2, parseFile_closed hg hc hp, fun e he =>
    ((parseFile_texts (sources_copySafe hs) .root hp).1 e he).mono fun x => copy_safeTexts x⟩

namespace Built

variable {U : UnicodeTable} {root : Node} {uri : Str} {is : List Item} {f : RsFile}

private theorem item (b : Built U root uri is f) {q : List Str} {x : RsEntity}
    (hx : (q, .entity x) ∈ originsList (defaultFormatName U) documented f.types) :
    SafeTexts x ∧ ∃ i ∈ is, i.path = q ∧ EntityItem (naming U root) (targetNamespace root) x i := by
  obtain ⟨i, hi, h1, h2⟩ := forall₂_right b.items _ hx
  exact ⟨((origins_embeddedList _ _ _ _ _ hx).1 SafeTexts b.safe).here, i, hi, h1, h2⟩

private theorem scope (b : Built U root uri is f) {q p : List Str} {x : RsEntity}
    (hx : (q, .entity x) ∈ originsList (defaultFormatName U) documented f.types) (hn : Named x) (hq : q <+: p) :
    InScope is p ((naming U root).type x.name) := by
  obtain ⟨hs, i, hi, h1, h2⟩ := b.item hx
  exact ⟨i, hi, by rw [h1]; exact hq, (item_defines hs hn h2).2⟩

private theorem global (b : Built U root uri is f) (hg : Grammatical root) {c : Node} (hc : c ∈ globals root) {nm : Str}
    (h : ∀ ds, GlobalDefs U root c ds → ∃ k, (k, nm) ∈ ds) (p : List Str) : InScope is p ((naming U root).type nm) := by
  obtain ⟨ds, hds, hd⟩ := forall₂_right (parseFile_top hg b.parse) c hc
  obtain ⟨e, he, rfl⟩ := List.mem_map.1 hds
  obtain ⟨k, hk⟩ := h _ hd
  have hdoc : (documented : Option Str → Bool) = Gen.hasDoc := rfl
  obtain ⟨x, hx, rfl, hn⟩ := entTop_origin (defaultFormatName U) Gen.hasDoc e k nm hk
  rw [← hdoc] at hx
  exact b.scope (mem_origins he _ hx) hn (List.nil_prefix)

private theorem found (b : Built U root uri is f) (hg : Grammatical root) (hs : SelfContained root uri) {t : Str}
    (h : Global root uri t) (p : List Str) : Found is p ((naming U root).type t) := by
  rcases h with rfl | (⟨⟨n, r⟩, hrow, hd⟩ | ⟨c, hc, nm, hn, hd, hw⟩) | ⟨c, hc, v, ht, hn, hch, rfl⟩
  · rw [string_type hs.plain]
    exact .prelude (by decide)
  · rw [builtin_type hs.plain hrow hd]
    exact .prelude (List.mem_map.2 ⟨r, List.mem_cons_of_mem _ (List.mem_map.2 ⟨_, hrow, rfl⟩), rfl⟩)
  · rw [(own_type hs.plain hd (hs.plain.names c hc nm hn)).1]
    refine .scope (b.global hg hc ?_ p)
    intro ds hds
    have hin : ∀ nm', c.attr "name".toList = some nm' → nm' = nm := fun nm' h => by
      rw [hn] at h; exact (Option.some.inj h).symm
    have hno : ∀ {r}, c.tag = "attribute".toList → c.attr "ref".toList = some r → False := by
      intro r htag hr
      rcases hw with hw | ⟨-, hw, -⟩
      · rw [htag] at hw; exact absurd hw (by decide)
      · rw [hw] at hr; cases hr
    cases hds with
    | complexType _ h _ => obtain rfl := hin _ h; exact ⟨_, List.mem_cons_self⟩
    | choiceType _ h _ => obtain rfl := hin _ h; exact ⟨_, List.mem_cons_of_mem _ List.mem_cons_self⟩
    | simpleType _ h _ => obtain rfl := hin _ h; exact ⟨_, List.mem_cons_self⟩
    | typed _ _ h _ _ => obtain rfl := hin _ h; exact ⟨_, List.mem_cons_self⟩
    | inlineSimple _ _ h _ _ _ _ => obtain rfl := hin _ h; exact ⟨_, List.mem_cons_self⟩
    | inlineComplex _ h _ _ _ _ => obtain rfl := hin _ h; exact ⟨_, List.mem_cons_self⟩
    | inlineChoice _ h _ _ _ _ => obtain rfl := hin _ h; exact ⟨_, List.mem_cons_self⟩
    | empty _ _ h _ _ => obtain rfl := hin _ h; exact ⟨_, List.mem_cons_self⟩
    | typedSilent htag _ _ hty hnd =>
      rcases hw with hw | ⟨-, -, hw | hw⟩
      · exact absurd htag (fun h' => by
          have hdis : ∀ t ∈ ["element", "attribute"].map String.toList, t ∉ ["complexType", "simpleType"].map String.toList := by
            decide
          exact hdis _ h' hw)
      · rw [hw] at hty; cases hty
      · exact absurd hw hnd
    | reference htag hr _ => exact (hno htag hr).elim
    | referenceSilent htag hr _ => exact (hno htag hr).elim
    | «import» htag =>
      have hdis : ∀ t ∈ ["import", "include"].map String.toList, t ∉ ["complexType", "simpleType"].map String.toList ∧
          t ∉ ["element", "attribute"].map String.toList := by decide
      rcases hw with hw | ⟨hw, -⟩
      · exact absurd hw (hdis _ htag).1
      · exact absurd hw (hdis _ htag).2
  · refine .scope (b.global hg hc ?_ p)
    intro ds hds
    have key : ∀ {ss : List String}, "complexType" ∉ ss → ¬ c.tag ∈ ss.map String.toList := by
      intro ss hss hm
      obtain ⟨s, hs, he⟩ := List.mem_map.1 hm
      have : s = "complexType" := String.toList_injective (he.trans ht)
      exact hss (this ▸ hs)
    cases hds with
    | choiceType _ h _ =>
      rw [hn] at h
      obtain rfl := Option.some.inj h
      exact ⟨_, List.mem_cons_self⟩
    | complexType _ _ h => exact absurd hch h
    | simpleType h _ _ => exact absurd (List.mem_map.2 ⟨"simpleType", by simp, h.symm⟩) (key (ss := ["simpleType"]) (by decide))
    | typed h _ _ _ _ => exact absurd h (key (by decide))
    | typedSilent h _ _ _ _ => exact absurd h (key (by decide))
    | inlineSimple h _ _ _ _ _ _ => exact absurd h (key (by decide))
    | inlineComplex h _ _ _ _ _ => exact absurd (List.mem_map.2 ⟨"element", by simp, h.symm⟩) (key (ss := ["element"]) (by decide))
    | inlineChoice h _ _ _ _ _ => exact absurd (List.mem_map.2 ⟨"element", by simp, h.symm⟩) (key (ss := ["element"]) (by decide))
    | empty h _ _ _ _ => exact absurd h (key (by decide))
    | reference h _ _ => exact absurd (List.mem_map.2 ⟨"attribute", by simp, h.symm⟩) (key (ss := ["attribute"]) (by decide))
    | referenceSilent h _ _ => exact absurd (List.mem_map.2 ⟨"attribute", by simp, h.symm⟩) (key (ss := ["attribute"]) (by decide))
    | «import» h => exact absurd h (key (by decide))

end Built

private theorem no_members {i : Item} {s : String} {r : Str} (h : i.head = s.toList ++ r)
    (hs : s ∈ ["impl Validate for ", "impl Default for ", "pub mod "]) : memberTypes i = [] := by
  simp only [List.mem_cons, List.not_mem_nil, or_false] at hs
  rcases hs with rfl | rfl | rfl <;> rw [memberTypes, h] <;> rfl

/-- **C83** Every type which is mentioned in the members of the generated structs and enums is a type of the library or the
prelude, or it is defined in the code where Rust looks for it: if the schema refers to built-in types and its own declarations
only, which become definitions, every type with a choice is a global one, and no module is called like the prefix of the target
namespace. Missing: what aliases refer to; that there is only one definition. -/
theorem C83_closed_partial (U : UnicodeTable) (root : Node) (uri t : Str) (hg : Grammatical root) (hs : CopySafe root)
    (h : convertXsd U root = .ok t) (is : List Item) (hi : HasItems t is) (hc : SelfContained root uri)
    (hm : ∀ p, nsPrefix (targetNamespace root) = some p → ∀ i ∈ is, readHead i.head ≠ some (.mod, p)) :
    ∀ i ∈ is, Closed is i := by
  obtain ⟨f, b⟩ := built hg hs h hi hc
  intro i hi ty hty
  obtain ⟨⟨q, o⟩, hx, hp, hfor⟩ := forall₂_left b.items i hi
  cases o with
  | inner n => rw [no_members (s := "pub mod ") hfor.2.1 (by simp)] at hty; cases hty
  | default n => rw [no_members (s := "impl Default for ") hfor.2.1 (by simp)] at hty; cases hty
  | validate n wt ms fs =>
    obtain ⟨cs, -, ⟨-, hv⟩, -⟩ := hfor
    rcases hv with ⟨-, hh, -⟩ | ⟨-, hh, -⟩ <;>
      (rw [no_members (s := "impl Validate for ") hh (by simp)] at hty; cases hty)
  | entity e =>
    have hemb := origins_embeddedList _ _ _ _ _ hx
    have hd := (hemb.1 _ b.deep).here
    have hsafe := (hemb.1 _ b.safe).here
    obtain ⟨u, ms, hu, rfl⟩ := mentions hsafe (by
      rintro n c t ss ms fs rfl
      exact hd.2.2.2) hfor ty hty
    suffices hfound : Found is i.path u by
      obtain ⟨c', h1, h2⟩ := wraps_modify u ms
      rcases h2 with rfl | rfl
      · exact ⟨_, h1, hfound⟩
      · exact ⟨_, h1, .prelude (by decide)⟩
    have hp : i.path = q := hp
    rw [hp]
    have hsame : ∀ {v : Str} {ss : List RsEntity}, (∀ x ∈ ss, TypeLike x → ([], .entity x) ∈
        originsOf (defaultFormatName U) documented e) → (closedPreds root uri).W v ss → Found is q ((naming U root).type v) := by
      intro v ss hss hw
      rcases hw with hw | ⟨x, hx', rfl, hk⟩
      · exact b.found hg hc hw q
      · have ho := hemb.2 _ (hss x hx' hk)
        rw [List.append_nil] at ho
        exact .scope (b.scope ho (named_of hk) (List.prefix_refl q))
    cases e with
    | struct s =>
      obtain ⟨n, c, fs, ag, ss⟩ := s
      obtain ⟨fd, hfd, rfl⟩ := hu
      rcases hd.2.2.1 fd hfd with ⟨hnil, hgl⟩ | ⟨x, v, hss, hxn, hk, hv, ht⟩
      · rw [hnil]
        exact b.found hg hc hgl q
      · rw [hss]
        have hin : hasInner fs ss = true := by
          simp only [hasInner, Bool.or_eq_true, List.any_eq_true]
          exact .inr ⟨fd, hfd, by rw [hss]; rfl⟩
        have ho : ([defaultFormatName U n], .entity x) ∈ originsOf (defaultFormatName U) documented (.struct (.mk n c fs ag ss)) := by
          rw [originsOf, if_pos hin]
          refine List.mem_cons_of_mem _ (List.mem_cons_of_mem _ (List.mem_cons_of_mem _ ?_))
          exact List.mem_map.2 ⟨([], .entity x), List.mem_append_right _
            (mem_originsFields hfd (by rw [hss]; exact List.mem_cons_self) _ (origin_self hk)), rfl⟩
        have hmd : ([], .inner n) ∈ originsOf (defaultFormatName U) documented (.struct (.mk n c fs ag ss)) := by
          rw [originsOf, if_pos hin]
          exact List.mem_cons_of_mem _ (List.mem_cons_of_mem _ List.mem_cons_self)
        have hmod : ¬ (targetNamespace root).bind (·.name) = some (defaultFormatName U n) := by
          intro hpre
          obtain ⟨j, hj, -, -, hh, -⟩ := forall₂_right b.items _ (hemb.2 _ hmd)
          refine hm _ hpre j hj ?_
          rw [hh]
          exact Gen.readHead_mod (Gen.name_nameText U n).word.sp _
        have hname := inner_name (U := U) hc.plain hv ht
        obtain ⟨hsx, j, hj, hjp, hje⟩ := b.item (hemb.2 _ ho)
        have hdef : Defined is (q ++ [defaultFormatName U n]) ((naming U root).type fd.typeName) :=
          ⟨j, hj, hjp, hxn ▸ (item_defines hsx (named_of hk) hje).1 hk⟩
        have htext := Gen.inline_typeName (g := ⟨U, targetNamespace root, xsdNamespace root⟩) n fd.typeName
        have htext := htext.trans (if_neg hmod)
        have htext : (naming U root).type (defaultFormatName U n ++ "::".toList ++ fd.typeName) =
            defaultFormatName U n ++ ("::".toList ++ (naming U root).type fd.typeName) := by
          rw [hname, ← List.append_assoc]
          exact htext
        show Found is q ((naming U root).type (defaultFormatName U n ++ "::".toList ++ fd.typeName))
        rw [htext]
        exact .inner hdef
    | tupleStruct s =>
      obtain ⟨n, c, t', ss, ms', fs⟩ := s
      obtain rfl := hu
      refine hsame (ss := ss) ?_ hd.2.1
      intro x hx hk
      rw [originsOf]
      exact List.mem_cons_of_mem _ (List.mem_append_left _ (mem_origins hx _ (origin_self hk)))
    | «enum» s =>
      obtain ⟨n, cs, c, t', ss, src⟩ := s
      rcases hu with rfl | ⟨cc, hcc, v, hcv, rfl⟩
      · exact b.found hg hc hd.2.1 q
      · refine hsame (ss := ss) ?_ ((hd.2.2.1 cc hcc).2 v hcv)
        intro x hx hk
        rw [originsOf]
        exact List.mem_cons_of_mem _ (List.mem_cons_of_mem _ (List.mem_cons_of_mem _ (mem_origins hx _ (origin_self hk))))
    | _ => exact hu.elim

/-! ## Example -/

def sampleUri : Str := "http://example.com/a".toList

private theorem sample_own {c : Node} {r nm : String} (hc : c ∈ globals sample) (hn : c.attr "name".toList = some nm.toList)
    (hw : Written c) (hr : r.toList = "tns".toList ++ ':' :: nm.toList) : RefersTo sample sampleUri r.toList :=
  .inr ⟨c, hc, nm.toList, hn, ⟨rfl, ⟨some "tns".toList, sampleUri⟩, List.mem_cons_of_mem _ List.mem_cons_self, rfl,
    hr ▸ .prefixed (by decide)⟩, hw⟩

private theorem sample_builtin {n r t : String} (hrow : (n, t) ∈ readmeTable ++ undocumentedTable)
    (hr : r.toList = "xs".toList ++ ':' :: n.toList) : RefersTo sample sampleUri r.toList :=
  .inl ⟨(n, t), hrow, ⟨some "xs".toList, xsdUri⟩, List.mem_cons_self, rfl, hr ▸ .prefixed (by decide)⟩

private theorem sample_refers : ∀ r ∈ ["xs:string", "xs:int", "tns:Animal", "tns:Person", "tns:Ids", "tns:Dog"],
    RefersTo sample sampleUri r.toList := by
  intro r hr
  simp only [List.mem_cons, List.not_mem_nil, or_false] at hr
  rcases hr with rfl | rfl | rfl | rfl | rfl | rfl
  · exact sample_builtin (n := "string") (t := "String") (by decide +kernel) (by decide)
  · exact sample_builtin (n := "int") (t := "i32") (by decide +kernel) (by decide)
  · exact sample_own (nm := "Animal") (List.mem_of_getElem? (i := 0) rfl) rfl (.inl (by decide +kernel)) (by decide)
  · exact sample_own (nm := "Person") (List.mem_of_getElem? (i := 2) rfl) rfl (.inl (by decide +kernel)) (by decide)
  · exact sample_own (nm := "Ids") (List.mem_of_getElem? (i := 3) rfl) rfl (.inl (by decide +kernel)) (by decide)
  · exact sample_own (nm := "Dog") (List.mem_of_getElem? (i := 1) rfl) rfl (.inl (by decide +kernel)) (by decide)

theorem sample_contained : SelfContained sample sampleUri where
  plain :=
    { prefixes := by unfold UniquePrefixes; decide +kernel
      uris := by decide +kernel
      xsd := ⟨⟨some "xs".toList, Model.xsdUri⟩, List.mem_cons_self, rfl, by simp⟩
      target := by decide
      names := by
        have : ∀ c ∈ globals sample, ∀ nm ∈ (c.attr "name".toList).toList, ':' ∉ nm := by decide +kernel
        exact fun c hc nm h => this c hc nm (Option.mem_toList.2 h) }
  types n a v hn ha hv := by
    have : ∀ n ∈ elements sample, ∀ a ∈ ["type", "base", "itemType"], ∀ v ∈ (n.attr a.toList).toList,
        v ∈ ["xs:string", "xs:int", "tns:Animal", "tns:Person", "tns:Ids", "tns:Dog"].map String.toList := by decide +kernel
    obtain ⟨r, hr, rfl⟩ := List.mem_map.1 (this n (partOf_elements hn) a ha v (Option.mem_toList.2 hv))
    exact sample_refers r hr
  refs n v hn ht hv := by
    have : ∀ n ∈ elements sample, n.tag ≠ "attributeGroup".toList → ∀ v ∈ (n.attr "ref".toList).toList,
        v ∈ ["xs:string", "xs:int", "tns:Animal", "tns:Person", "tns:Ids", "tns:Dog"].map String.toList := by decide +kernel
    obtain ⟨r, hr, rfl⟩ := List.mem_map.1 (this n (partOf_elements hn) ht v (Option.mem_toList.2 hv))
    exact sample_refers r hr
  memberTypes n v ws w hn hv hs hw := by
    have : ∀ n ∈ elements sample, ∀ v ∈ (n.attr "memberTypes".toList).toList, ∀ w ∈ (Str.splitOn ' ' v).filter (· ≠ []),
        w ∈ ["xs:string", "xs:int", "tns:Animal", "tns:Person", "tns:Ids", "tns:Dog"].map String.toList := by decide +kernel
    obtain ⟨r, hr, rfl⟩ := List.mem_map.1 (this n (partOf_elements hn) v (Option.mem_toList.2 hv) w (spaceSeparated_iff.1 hs ▸ hw))
    exact sample_refers r hr
  names n v hn hv := by
    have : ∀ n ∈ elements sample, ∀ v ∈ (n.attr "name".toList).toList,
        (∃ c ∈ v.head?.toList, asciiUpper c = true ∨ asciiLower c = true) ∧ ':' ∉ v := by decide +kernel
    obtain ⟨⟨c, hc, h1⟩, h2⟩ := this n (partOf_elements hn) v (Option.mem_toList.2 hv)
    exact ⟨⟨c, Option.mem_toList.1 hc, h1⟩, h2⟩
  choices c hc m hm n hn ht := by
    have : ∀ c ∈ members sample, ∀ m ∈ members c, ∀ n ∈ elements m, n.tag = "complexType".toList →
        ∀ d ∈ ((withTags n contentTags).getLast?).toList, d.tag ≠ "choice".toList := by decide +kernel
    rintro ⟨d, hd, h1, -⟩
    exact this c hc m hm n (partOf_elements hn) ht d (Option.mem_toList.2 hd) h1

def textOf (root : Node) : Str := okText (convertXsd A root)
def itemsOf (root : Node) : List Item := readItems [] [] (Gen.lns (textOf root))
theorem itemsOf_ok (root : Node) : HasItems (textOf root) (itemsOf root) := ⟨_, Gen.lines_lns _, rfl⟩

/-- What is assumed holds of a schema with inline types, lists, unions, a choice and an extension. -/
example : Grammatical sample ∧ CopySafe sample ∧ convertXsd A sample = .ok (textOf sample) ∧
    HasItems (textOf sample) (itemsOf sample) ∧ SelfContained sample sampleUri ∧
    ∀ p, nsPrefix (targetNamespace sample) = some p → ∀ i ∈ itemsOf sample, readHead i.head ≠ some (.mod, p) :=
  ⟨grammatical_of rfl (by decide +kernel),
    copySafe_of (by decide +kernel) (by decide +kernel) (by decide +kernel) (by decide +kernel) (by decide +kernel),
    okText_eq (by decide +kernel), itemsOf_ok _, sample_contained, fun p hp => by
      have : ∀ p ∈ (nsPrefix (targetNamespace sample)).toList, ∀ i ∈ itemsOf sample, readHead i.head ≠ some (.mod, p) := by
        decide +kernel
      exact this p (Option.mem_toList.2 hp)⟩

/-- The types mentioned in it are built-in ones, declared ones, and ones inside a module, where those of the base are repeated. -/
example : ∀ s ∈ ["Option<animal::SizeType>", "Option<dog::SizeType>", "Person", "PersonChoice", "Vec<i32>", "Ids",
    "EnumCaseType0"], ∃ i ∈ itemsOf sample, s.toList ∈ memberTypes i := by decide +kernel

/-! ## Types which are missing -/

private theorem not_found {is : List Item} {p : List Str} {t : Str} (h1 : '<' ∉ t) (h2 : ':' ∉ t)
    (h3 : t ∉ preludeTypes.map String.toList)
    (h4 : ∀ i ∈ is, i.path <+: p → ¬ (DefinesType i t ∨ readHead i.head = some (.type, t))) :
    ¬ ∃ c, Wraps c t ∧ Found is p c := by
  rintro ⟨c, hc, hf⟩
  cases hc with
  | option => exact h1 (by simp)
  | vec => exact h1 (by simp)
  | bare =>
    cases hf with
    | prelude h => exact h3 h
    | scope h =>
      obtain ⟨i, hi, hp, h⟩ := h
      exact h4 i hi hp h
    | inner h => exact h2 (by simp)

private theorem not_closed {is : List Item} {i : Item} {t : Str} (ht : t ∈ memberTypes i) (h1 : '<' ∉ t) (h2 : ':' ∉ t)
    (h3 : t ∉ preludeTypes.map String.toList)
    (h4 : ∀ j ∈ is, j.path <+: i.path → ¬ (DefinesType j t ∨ readHead j.head = some (.type, t))) : ¬ Closed is i :=
  fun h => not_found h1 h2 h3 h4 (h t ht)

/-- A choice in the type of a global element. -/
private def choiceElement : Node := doc
  [el "element" [("name", "foo")] [el "complexType" [] [el "choice" []
     [el "element" [("name", "a"), ("type", "xs:int")] [], el "element" [("name", "b"), ("type", "xs:string")] []]]]]

/-- **C83** (violated) The struct for an element whose type is a choice mentions an enum which is there under another name only. -/
theorem C83_choice_violated : ∃ (root : Node) (t : Str) (is : List Item), Grammatical root ∧ CopySafe root ∧
    convertXsd A root = .ok t ∧ HasItems t is ∧ ∃ i ∈ is, "FooChoice".toList ∈ memberTypes i ∧ ¬ Closed is i :=
  ⟨choiceElement, textOf choiceElement, itemsOf choiceElement, grammatical_of rfl (by decide +kernel),
    copySafe_of (by decide +kernel) (by decide +kernel) (by decide +kernel) (by decide +kernel) (by decide +kernel),
    okText_eq (by decide +kernel), itemsOf_ok _, by
      have h : ∃ i ∈ itemsOf choiceElement, "FooChoice".toList ∈ memberTypes i ∧
          ∀ j ∈ itemsOf choiceElement, j.path <+: i.path →
            ¬ (DefinesType j "FooChoice".toList ∨ readHead j.head = some (.type, "FooChoice".toList)) := by decide +kernel
      obtain ⟨i, hi, h1, h2⟩ := h
      exact ⟨i, hi, h1, not_closed h1 (by decide) (by decide) (by decide +kernel) h2⟩⟩

/-- The prefix of the target namespace is the name of a module. -/
private def modulePrefix : Node :=
  .element (some xsdUri) "schema".toList [⟨none, "targetNamespace".toList, "http://example.com/a".toList⟩]
    [⟨some "xs".toList, xsdUri⟩, ⟨some "foo".toList, "http://example.com/a".toList⟩]
    [el "complexType" [("name", "Foo")] [el "sequence" [] [el "element" [("name", "bar")]
      [el "simpleType" [] [el "restriction" [("base", "xs:string")] []]]]]]

/-- **C83** (violated) If the prefix of the target namespace is the name of a type in lower case, the types inside this type
are looked for outside. -/
theorem C83_prefix_violated : ∃ (root : Node) (t : Str) (is : List Item), Grammatical root ∧ CopySafe root ∧
    convertXsd A root = .ok t ∧ HasItems t is ∧ ∃ i ∈ is, "BarType".toList ∈ memberTypes i ∧ ¬ Closed is i :=
  ⟨modulePrefix, textOf modulePrefix, itemsOf modulePrefix, grammatical_of rfl (by decide +kernel),
    copySafe_of (by decide +kernel) (by decide +kernel) (by decide +kernel) (by decide +kernel) (by decide +kernel),
    okText_eq (by decide +kernel), itemsOf_ok _, by
      have h : ∃ i ∈ itemsOf modulePrefix, "BarType".toList ∈ memberTypes i ∧
          ∀ j ∈ itemsOf modulePrefix, j.path <+: i.path →
            ¬ (DefinesType j "BarType".toList ∨ readHead j.head = some (.type, "BarType".toList)) := by decide +kernel
      obtain ⟨i, hi, h1, h2⟩ := h
      exact ⟨i, hi, h1, not_closed h1 (by decide) (by decide) (by decide +kernel) h2⟩⟩

/-- References to an element which has a type. -/
private def silentElement : Node := doc
  [el "element" [("name", "foo"), ("type", "xs:int")] [],
   el "complexType" [("name", "Bar")] [el "sequence" [] [el "element" [("ref", "tns:foo")] []]]]

/-- **C83** (violated) A reference to an element with a type and without documentation mentions a type which is not there. -/
theorem C83_reference_violated : ∃ (root : Node) (t : Str) (is : List Item), Grammatical root ∧ CopySafe root ∧
    convertXsd A root = .ok t ∧ HasItems t is ∧ ∃ i ∈ is, "Foo".toList ∈ memberTypes i ∧ ¬ Closed is i :=
  ⟨silentElement, textOf silentElement, itemsOf silentElement, grammatical_of rfl (by decide +kernel),
    copySafe_of (by decide +kernel) (by decide +kernel) (by decide +kernel) (by decide +kernel) (by decide +kernel),
    okText_eq (by decide +kernel), itemsOf_ok _, by
      have h : ∃ i ∈ itemsOf silentElement, "Foo".toList ∈ memberTypes i ∧
          ∀ j ∈ itemsOf silentElement, j.path <+: i.path →
            ¬ (DefinesType j "Foo".toList ∨ readHead j.head = some (.type, "Foo".toList)) := by decide +kernel
      obtain ⟨i, hi, h1, h2⟩ := h
      exact ⟨i, hi, h1, not_closed h1 (by decide) (by decide) (by decide +kernel) h2⟩⟩

end Verif.Props
