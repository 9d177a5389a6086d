import Mathlib.Data.List.Forall2
import Verif.Lemmas.ParseTags

/-! # Basic lemmas about the parser -/

namespace Verif.Lemmas.Parse

open Verif Verif.Model Verif.RoXml Verif.Spec

theorem mapM'_ok {α β : Type} {f : α → Res β} : ∀ {l : List α} {r : List β},
    Res.mapM' f l = .ok r ↔ List.Forall₂ (fun a b => f a = .ok b) l r
  | [], r => by
    unfold Res.mapM'
    constructor
    · intro h; obtain rfl := Res.ok.inj h; exact .nil
    · intro h; cases h; rfl
  | a :: l, r => by
    unfold Res.mapM'
    rw [Res.bind_eq_ok]
    constructor
    · rintro ⟨b, hb, h⟩
      obtain ⟨bs, hbs, h⟩ := Res.bind_eq_ok.1 h
      obtain rfl := Res.ok.inj h
      exact .cons hb (mapM'_ok.1 hbs)
    · intro h
      cases h with
      | cons hb hbs => exact ⟨_, hb, by rw [mapM'_ok.2 hbs]; rfl⟩

theorem mapM'_map {α β γ : Type} (f : β → Res γ) (g : α → β) (l : List α) :
    Res.mapM' f (l.map g) = Res.mapM' (fun a => f (g a)) l := by
  induction l with
  | nil => rfl
  | cons a l ih => rw [List.map_cons, Res.mapM', Res.mapM', ih]

theorem mapM'_ne_err {α β : Type} {f : α → Res β} : ∀ {l : List α}, (∀ a ∈ l, f a ≠ .err) → Res.mapM' f l ≠ .err
  | [], _ => fun h => nomatch h
  | a :: l, h => by
    unfold Res.mapM'
    cases hf : f a with
    | err => exact absurd hf (h a List.mem_cons_self)
    | panic => exact fun h => nomatch h
    | ok b =>
      cases hl : Res.mapM' f l with
      | err => exact absurd hl (mapM'_ne_err fun a ha => h a (List.mem_cons_of_mem _ ha))
      | panic => exact fun h => nomatch h
      | ok bs => exact fun h => nomatch h

theorem bind_ne_err {α β : Type} {x : Res α} {f : α → Res β} (hx : x ≠ .err) (hf : ∀ a, x = .ok a → f a ≠ .err) :
    x.bind f ≠ .err := by
  cases x with
  | ok a => exact hf a rfl
  | err => exact absurd rfl hx
  | panic => exact fun h => nomatch h

theorem unwrap_ok {α : Type} {o : Option α} {a : α} : Res.unwrap o = .ok a ↔ o = some a := by
  cases o with
  | none => exact ⟨fun h => (nomatch h), fun h => (nomatch h)⟩
  | some b => exact ⟨fun h => congrArg some (Res.ok.inj h), fun h => congrArg Res.ok (Option.some.inj h)⟩

theorem unwrap_ne_err {α : Type} {o : Option α} : Res.unwrap o ≠ .err := by
  cases o <;> exact fun h => nomatch h

theorem parseKids_eq (U : UnicodeTable) (p : Node) (above : List Node) : ∀ cs : List Node,
    parseKids U cs p above = cs.map fun k => (k, parseNode U k p above)
  | [] => by rw [parseKids]; rfl
  | c :: cs => by rw [parseKids, parseKids_eq U p above cs]; rfl

theorem parseNode_eq (U : UnicodeTable) (n p : Node) (above : List Node) :
    parseNode U n p above = parsePlace U (placeOf U n p above) := by
  cases n with
  | element u t as ns cs => rw [parseNode, parseKids_eq]; rfl
  | text s => rw [parseNode]; rfl
  | other => rw [parseNode]; rfl

/-- The kind of a child, where it has one. -/
def kindD (p : Option Str) (n : Node) : ElementType :=
  match xsdType p n with
  | .ok t => t
  | _ => .xsdError

theorem kindD_of {p : Option Str} {n : Node} {t : ElementType} (h : KindOf p n t) : kindD p n = t := by
  unfold kindD
  rw [kind_xsdType h]

theorem kindD_iff {s : String} {t : ElementType} (h : (s, t) ∈ plainTags) {p : Option Str} {n : Node} :
    kindD p n = t ↔ n.tag = s.toList := by
  refine ⟨fun hk => ?_, fun ht => kindD_of (.plain h ht)⟩
  have hp := plain_isPlain _ h
  unfold kindD at hk
  split at hk
  · rename_i h'
    rw [hk] at h'
    exact (type_iff h).1 h'
  · rw [← hk] at hp; cases hp

/-- The children of a node with their kinds and what `parse_node` gives. -/
def kidsOf (U : UnicodeTable) (n p : Node) (above : List Node) : List (ElementType × Node × Res RsEntity) :=
  n.children.map fun c => (kindD (some n.tag) c, c, parseNode U c n (p :: above))

theorem typedKids_ok {U : UnicodeTable} {n p : Node} {above : List Node} {ks} :
    (placeOf U n p above).typedKids = .ok ks ↔ Readable n ∧ ks = kidsOf U n p above := by
  unfold Place.typedKids placeOf kidsOf
  dsimp only
  rw [mapM'_map, Readable]
  generalize n.tag = tg
  generalize hg : (fun c => parseNode U c n (p :: above)) = g
  have hg' : ∀ c, parseNode U c n (p :: above) = g c := fun c => by rw [← hg]
  simp only [hg']
  clear hg hg'
  induction n.children generalizing ks with
  | nil =>
    constructor
    · intro h; obtain rfl := Res.ok.inj h; exact ⟨fun _ h => absurd h List.not_mem_nil, rfl⟩
    · rintro ⟨-, rfl⟩; rfl
  | cons c cs ih =>
    rw [Res.mapM', Res.bind_eq_ok]
    constructor
    · rintro ⟨b, hb, h⟩
      obtain ⟨t, ht, hb⟩ := Res.bind_eq_ok.1 hb
      obtain rfl := Res.ok.inj hb
      obtain ⟨bs, hbs, h⟩ := Res.bind_eq_ok.1 h
      obtain rfl := Res.ok.inj h
      obtain ⟨h1, h2⟩ := ih.1 hbs
      refine ⟨?_, ?_⟩
      · intro x hx
        rcases List.mem_cons.1 hx with rfl | hx
        · exact ⟨t, xsdType_kind ht⟩
        · exact h1 x hx
      · rw [h2, List.map_cons, kindD_of (xsdType_kind ht)]
    · rintro ⟨hr, rfl⟩
      obtain ⟨t, ht⟩ := hr c List.mem_cons_self
      refine ⟨(t, c, g c), by rw [kind_xsdType ht]; rfl, ?_⟩
      rw [ih.2 ⟨fun x hx => hr x (List.mem_cons_of_mem _ hx), rfl⟩, List.map_cons, kindD_of ht]
      rfl

theorem typedKids_ne_err {U : UnicodeTable} {n p : Node} {above : List Node} :
    (placeOf U n p above).typedKids ≠ .err := by
  unfold Place.typedKids
  exact mapM'_ne_err fun a _ => bind_ne_err xsdType_ne_err fun _ _ h => nomatch h

theorem filter_kids (U : UnicodeTable) (n p : Node) (above : List Node) (q : ElementType → Node → Bool) :
    (kidsOf U n p above).filter (fun k => q k.1 k.2.1) =
      (n.children.filter fun c => q (kindD (some n.tag) c) c).map
        fun c => (kindD (some n.tag) c, c, parseNode U c n (p :: above)) := by
  unfold kidsOf
  rw [List.filter_map]
  rfl

/-- The last child of one of some kinds. -/
theorem lastKid_ok {U : UnicodeTable} {n p : Node} {above : List Node} {q : ElementType → Node → Bool} {k} :
    (placeOf U n p above).lastKid q = .ok k ↔ Readable n ∧
      k = ((n.children.filter fun c => q (kindD (some n.tag) c) c).getLast?).map
        fun c => (c, parseNode U c n (p :: above)) := by
  unfold Place.lastKid
  rw [Res.bind_eq_ok]
  constructor
  · rintro ⟨ks, hks, h⟩
    obtain ⟨hr, rfl⟩ := typedKids_ok.1 hks
    refine ⟨hr, ?_⟩
    rw [← Res.ok.inj h, filter_kids, List.getLast?_map, Option.map_map]
    rfl
  · rintro ⟨hr, rfl⟩
    refine ⟨_, typedKids_ok.2 ⟨hr, rfl⟩, ?_⟩
    rw [filter_kids, List.getLast?_map, Option.map_map]
    rfl

theorem getParentName_ok : ∀ {l : List Node} {s : Str}, getParentName l = .ok s → OwnerName l s
  | [], s, h => by
    rw [getParentName] at h
    obtain rfl := Res.ok.inj h
    exact .root
  | p :: above, s, h => by
    rw [getParentName] at h
    obtain ⟨t, ht, h⟩ := Res.bind_eq_ok.1 h
    by_cases hs : t = .schema
    · rw [if_pos hs] at h
      obtain rfl := Res.ok.inj h
      rw [hs] at ht
      exact .schema ((type_iff (s := "schema") (by decide)).1 ht)
    · rw [if_neg hs] at h
      have hne : p.tag ≠ "schema".toList := by
        intro e
        rw [(type_iff (s := "schema") (t := .schema) (by decide)).2 e] at ht
        exact hs (Res.ok.inj ht).symm
      unfold attrName at h
      cases ha : p.attr "name".toList with
      | none => rw [ha] at h; exact .up hne ha (getParentName_ok h)
      | some v => rw [ha] at h; obtain rfl := Res.ok.inj h; exact .named hne ha

theorem OwnerName.unique : ∀ {l : List Node} {s t : Str}, OwnerName l s → OwnerName l t → s = t
  | _, _, _, .root, .root => rfl
  | _, _, _, .schema _, .schema _ => rfl
  | _, _, _, .schema h, .named h' _ => absurd h h'
  | _, _, _, .schema h, .up h' _ _ => absurd h h'
  | _, _, _, .named h' _, .schema h => absurd h h'
  | _, _, _, .up h' _ _, .schema h => absurd h h'
  | _, _, _, .named _ a, .named _ b => Option.some.inj (a.symm.trans b)
  | _, _, _, .named _ a, .up _ b _ => nomatch a.symm.trans b
  | _, _, _, .up _ a _, .named _ b => nomatch a.symm.trans b
  | _, _, _, .up _ _ h, .up _ _ h' => OwnerName.unique h h'

theorem getParentName_ne_err : ∀ {l : List Node}, getParentName l ≠ .err
  | [] => fun h => by rw [getParentName] at h; cases h
  | p :: above => by
    rw [getParentName]
    refine bind_ne_err xsdType_ne_err fun t _ => ?_
    by_cases hs : t = .schema
    · rw [if_pos hs]; exact fun h => nomatch h
    · rw [if_neg hs]
      cases attrName p with
      | none => exact getParentName_ne_err
      | some s => exact fun h => nomatch h

theorem find_tag (l : List Node) (s : Str) (h : s ≠ []) :
    (l.find? fun e => e.isElement && decide (e.tag = s)) = l.find? fun e => decide (e.tag = s) := by
  congr 1
  funext e
  cases e with
  | element => rfl
  | text => simp [Node.isElement, Node.tag, Ne.symm h]
  | other => simp [Node.isElement, Node.tag, Ne.symm h]

theorem documentation_eq (n : Node) : getDocumentation n = docOf n := by
  unfold getDocumentation docOf findChild Node.firstText
  rw [find_tag _ _ (by decide)]
  cases n.children.find? fun c => decide (c.tag = "annotation".toList) with
  | none => rfl
  | some a =>
    dsimp only [Option.bind_some]
    rw [find_tag _ _ (by decide)]
    show _ = Option.bind (a.children.find? fun c => decide (c.tag = "documentation".toList)) _
    cases a.children.find? fun c => decide (c.tag = "documentation".toList) <;> rfl

end Verif.Lemmas.Parse
