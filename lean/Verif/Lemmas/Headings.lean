import Verif.Props.Fields
import Verif.Lemmas.Denote
import Verif.Lemmas.XmlEverywhere
import Verif.Lemmas.Outline2
import Verif.Spec.Headings

/-! # The documentation of a schema in the generated code -/

namespace Verif.Lemmas.Heading

open Verif Verif.Model Verif.RoXml Verif.Spec Verif.Lemmas Verif.Lemmas.Parse

variable {N : Naming} {docs : Nat → Option Str → List Mark}

/-- The marks for a field. -/
def fieldMark (N : Naming) (docs : Nat → Option Str → List Mark) (f : StructField) : List Mark :=
  if f.typeModifiers.contains .empty then [] else docs 4 f.comment ++ [.member (N.name f.name)]

theorem fields_marks (fs : List StructField) : memberMarks (docs 4) (·.comment) (fun f => N.name f.name) (written fs) =
    (fs.map (fieldMark N docs)).flatten := by
  induction fs with
  | nil => rfl
  | cons f fs ih =>
    rw [List.map_cons, List.flatten_cons, ← ih]
    unfold written memberMarks fieldMark
    by_cases h : f.typeModifiers.contains .empty = true
    · rw [List.filter_cons_of_neg (by simpa using h), if_pos h, List.nil_append]
    · rw [List.filter_cons_of_pos (by simpa using h), if_neg h, List.flatMap_cons]

theorem fieldMark_some {n t : Str} {d : Option Str} {sub : List RsEntity} {src : FieldSource} {ms : List TypeModifier}
    (h : ms.contains .empty = false) : fieldMark N docs (.mk n t d sub src ms) = docs 4 d ++ [.member (N.name n)] :=
  if_neg (show ¬ ms.contains .empty = true by rw [h]; exact Bool.false_ne_true)

theorem fieldMark_none {n t : Str} {d : Option Str} {sub : List RsEntity} {src : FieldSource} {ms : List TypeModifier}
    (h : ms.contains .empty = true) : fieldMark N docs (.mk n t d sub src ms) = [] :=
  if_pos (show ms.contains .empty = true from h)

theorem wrapper_not_empty {c : Node} {m : TypeModifier} (h : WrapperOf c m) : m ≠ .empty := by
  obtain ⟨lo, hi, -, -, h⟩ := h
  cases h <;> exact fun h => nomatch h

theorem boxed_not_empty {o t : Str} {m : TypeModifier} {ms : List TypeModifier} (hm : m ≠ .empty) (h : Boxed o t [m] ms) :
    ms.contains .empty = false := by
  cases h with
  | yes => cases m <;> first | rfl | exact absurd rfl hm
  | no => cases m <;> first | rfl | exact absurd rfl hm

theorem boxed_empty {o t : Str} {ms : List TypeModifier} (h : Boxed o t [.empty] ms) : ms.contains .empty = true := by
  cases h <;> rfl

theorem memberField_marks (h0 : ∀ i, docs i none = []) {I : Node → RsEntity → Prop} {o : Str} {c : Node} {f : StructField}
    (h : MemberField I o c f) : FieldMarks N docs o c (fieldMark N docs f) := by
  cases h with
  | typed ht hn _ hw hb =>
    rw [fieldMark_some (boxed_not_empty (wrapper_not_empty hw) hb)]
    exact .element (is_one.2 ht) (.inl hn)
  | ref ht hn hr hw hb =>
    rw [fieldMark_some (boxed_not_empty (wrapper_not_empty hw) hb)]
    exact .element (is_one.2 ht) (.inr ⟨hn, hr⟩)
  | inline ht _ hn _ _ _ _ hw hb =>
    rw [fieldMark_some (boxed_not_empty (wrapper_not_empty hw) hb)]
    exact .element (is_one.2 ht) (.inl hn)
  | any ht hb =>
    rw [fieldMark_none (boxed_empty hb)]
    exact .wildcard (is_of (s := "any") ht (by decide))
  | choice ht =>
    rw [fieldMark_some rfl, h0]
    exact .choice (is_one.2 ht)

theorem use_marks {c : Node} {m : TypeModifier} (h : UseOf c m) :
    (m = .empty ∧ c.attr "use".toList = some "prohibited".toList) ∨
      (m ≠ .empty ∧ c.attr "use".toList ≠ some "prohibited".toList) := by
  cases h with
  | default h => exact .inr ⟨(fun h => nomatch h), by rw [h]; exact fun h => nomatch h⟩
  | optional h => exact .inr ⟨(fun h => nomatch h), by rw [h]; decide⟩
  | required h => exact .inr ⟨(fun h => nomatch h), by rw [h]; decide⟩
  | prohibited h => exact .inl ⟨rfl, h⟩

theorem attrField_marks {o : Str} {c : Node} {f : StructField} (h : AttrField c f) :
    FieldMarks N docs o c (fieldMark N docs f) := by
  unfold fieldMark
  cases h with
  | «attribute» ht h =>
    cases h with
    | named hn hu =>
      rcases use_marks hu with ⟨rfl, h⟩ | ⟨hm, h⟩
      · exact .prohibited (is_one.2 ht) h
      · rw [if_neg (by rename_i m; cases m <;> first | exact Bool.false_ne_true | exact absurd rfl hm)]
        exact .attribute (is_one.2 ht) h (.inl hn)
    | ref hn hr hu =>
      rcases use_marks hu with ⟨rfl, h⟩ | ⟨hm, h⟩
      · exact .prohibited (is_one.2 ht) h
      · rw [if_neg (by rename_i m; cases m <;> first | exact Bool.false_ne_true | exact absurd rfl hm)]
        exact .attribute (is_one.2 ht) h (.inr ⟨hn, hr⟩)
  | any ht =>
    exact .wildcard (is_of (s := "anyAttribute") ht (by decide))

theorem attrs_marks {o : Str} {n : Node} {fs : List StructField} (h : AttrFields n fs) :
    FieldsMarks N docs o (attributesOf n) (fs.map (fieldMark N docs)).flatten :=
  ⟨_, forall₂_imp_map h fun _ _ _ h => attrField_marks h, rfl⟩

theorem fieldsMarks_append {o : Str} {as bs : List Node} {x y : List Mark} (h1 : FieldsMarks N docs o as x)
    (h2 : FieldsMarks N docs o bs y) : FieldsMarks N docs o (as ++ bs) (x ++ y) := by
  obtain ⟨p, h1, rfl⟩ := h1
  obtain ⟨q, h2, rfl⟩ := h2
  exact ⟨p ++ q, List.rel_append h1 h2, List.flatten_append.symm⟩

theorem case_marks {c : Node} {k : EnumCase} (h : ChoiceCase c k) :
    CaseMarks N docs c (docs 4 k.comment ++ [.member (N.case k.name)]) := by
  cases h with
  | ref h => exact .element (.inl h)
  | named h1 h2 => exact .element (.inr ⟨h1, h2⟩)

/-! ## Extension -/

theorem flat_marks {look : Str → List StructField → Prop} : ∀ {fs own : List StructField}, FlatFields look fs own →
    own.map (fieldMark N docs) = fs.map (fieldMark N docs) ∧ (∀ f ∈ own, ∃ f' ∈ fs, f'.name = f.name) ∧
      ((∀ f ∈ fs, f.subtypes = []) → ∀ f ∈ own, f.subtypes = [])
  | _, _, .nil => ⟨rfl, fun f hf => (nomatch hf), fun _ f hf => nomatch hf⟩
  | _, _, .cons h1 h2 => by
    obtain ⟨i1, i2, i3⟩ := flat_marks h2
    refine ⟨?_, ?_, ?_⟩
    · rw [List.map_cons, List.map_cons, i1]
      rfl
    · intro f hf
      rcases List.mem_cons.1 hf with rfl | hf
      · exact ⟨_, List.mem_cons_self, rfl⟩
      · obtain ⟨f', h, e⟩ := i2 f hf
        exact ⟨f', List.mem_cons_of_mem _ h, e⟩
    · intro hs f hf
      rcases List.mem_cons.1 hf with rfl | hf
      · have := hs _ List.mem_cons_self
        show (_ : List RsEntity) = []
        dsimp only [StructField.subtypes] at this
        subst this
        cases h1
        rfl
      · exact i3 (fun f hf => hs f (List.mem_cons_of_mem _ hf)) f hf

theorem gathered_nil {look : Str → List StructField → Prop} {l : List StructField} (h : Gathered look [] l) : l = [] := by
  obtain ⟨ls, h, rfl⟩ := h
  cases h
  rfl

/-- A struct after the extension. -/
inductive After : RsEntity → RsEntity → Prop where
  | other {e} : (∀ s, e ≠ .struct s) → After e e
  | struct {before after i s s'} : Extended before after i s s' → After (.struct s) (.struct s')

theorem after_file {f g : RsFile} (h : ExtendedFile f g) : List.Forall₂ After f.types g.types := by
  obtain ⟨-, hl, -, h⟩ := h
  rw [List.forall₂_iff_get]
  refine ⟨hl.symm, fun i h1 h2 => ?_⟩
  obtain ⟨k1, k2⟩ := h i _ (List.getElem?_eq_getElem h1)
  rw [List.getElem?_eq_getElem h2] at k1 k2
  show After f.types[i] g.types[i]
  generalize f.types[i] = e at k1 k2
  generalize g.types[i] = e' at k1 k2
  by_cases hs : ∃ s, e = .struct s
  · obtain ⟨s, rfl⟩ := hs
    obtain ⟨s', h1, h2⟩ := k1 s rfl
    obtain rfl := Option.some.inj h1
    exact .struct h2
  · have := k2 fun s hs' => hs ⟨s, hs'⟩
    obtain rfl := Option.some.inj this
    exact .other fun s hs' => hs ⟨s, hs'⟩

/-- The outline of a struct starts with its comment and its name. -/
theorem struct_head {n : Str} {c : Option Str} {fs : List StructField} {ag : List RAlias} {sub : List RsEntity} :
    ∃ rest, outlineOf N docs (.struct (.mk n c fs ag sub)) = docs 0 c ++ .item .struct (N.type n) :: rest := by
  rw [outlineOf, List.append_assoc]
  exact ⟨_, rfl⟩

theorem after_head {n : Str} {c : Option Str} {fs : List StructField} {ag : List RAlias} {sub : List RsEntity} {e : RsEntity}
    (h : After (.struct (.mk n c fs ag sub)) e) :
    ∃ rest, outlineOf N docs e = docs 0 c ++ .item .struct (N.type n) :: rest := by
  cases h with
  | other h => exact absurd rfl (h _)
  | struct h => cases h; exact struct_head

theorem after_struct {n : Str} {c : Option Str} {fs : List StructField} {ag : List RAlias} {e : RsEntity}
    (h : After (.struct (.mk n c fs ag [])) e) (hm : ∀ f ∈ fs, ¬ Marker f) :
    ∃ rest, outlineOf N docs e = docs 0 c ++ .item .struct (N.type n) :: ((fs.map (fieldMark N docs)).flatten ++ rest) ∧
      (ag = [] → (rest = [] ∨ ∃ more, rest = .item .mod (N.name n) :: more) ∧ ((∀ f ∈ fs, f.subtypes = []) → rest = [])) := by
  cases h with
  | other h => exact absurd rfl (h _)
  | struct h =>
    cases h with
    | @mk _ _ _ _ _ own inh gs sub' h1 h2 h3 h4 =>
      obtain ⟨i1, i2, i3⟩ := flat_marks (N := N) (docs := docs) h1
      have hm' : ∀ f ∈ own, ¬ Marker f := fun f hf e => by
        obtain ⟨f', h, k⟩ := i2 f hf
        exact hm f' h (k.trans e)
      obtain ⟨e1, e2⟩ := Props.inherit_nil hm'
      rw [e1] at h2
      obtain rfl := gathered_nil h2
      rw [e2]
      cases h3
      rw [outlineOf, fields_marks, List.map_append, i1, List.flatten_append, List.append_assoc, List.cons_append, List.append_assoc]
      refine ⟨_, rfl, ?_⟩
      rintro rfl
      obtain rfl := gathered_nil h4
      rw [List.append_nil, List.map_nil, List.flatten_nil, List.nil_append]
      constructor
      · split
        · exact .inr ⟨_, rfl⟩
        · exact .inl rfl
      · intro hs
        refine if_neg ?_
        rw [hasInner, Bool.not_eq_true, Bool.or_eq_false_iff]
        refine ⟨rfl, ?_⟩
        rw [List.any_eq_false]
        intro f hf
        rw [i3 hs f hf]
        exact Bool.false_ne_true

/-! ## Types -/

theorem setName_other {e : RsEntity} (h : ∀ s, e ≠ .struct s) (nm : Str) : ∀ s, e.setName nm ≠ .struct s := by
  intro s hs
  match e with
  | .struct s' => exact h s' rfl
  | .structField (.mk ..) | .tupleStruct (.mk ..) | .enum (.mk ..) | .alias (.mk ..) | .enumCase _ | .import _ => cases hs

theorem after_other {e e' : RsEntity} (h : ∀ s, e ≠ .struct s) (ha : After e e') : e' = e := by
  cases ha with
  | other => rfl
  | struct => exact absurd rfl (h _)

theorem simple_marks {U : UnicodeTable} {root : Node} (hg : Grammatical root) {n p : Node} {above : List Node} {e : RsEntity}
    (hn : PartOf root n) (ht : n.tag = "simpleType".toList) (ha : ∀ a ∈ p :: above, NotFacet a)
    (h : parseNode U n p above = .ok e) (nm head : Str) {e' : RsEntity} (hx : After (e.setName head) e') :
    TypeMarks N docs U (p :: above) n nm head (outlineOf N docs e') := by
  obtain ⟨k, own, ds, -, -, hs, -, -⟩ := simple_shape hg (fun _ => true) n p above e hn ht ha h
  have hstr : ∀ s, e ≠ .struct s := by
    rintro s rfl
    rcases hs with ⟨-, _, h⟩ | ⟨-, _, h⟩ <;> cases h
  obtain rfl := after_other (setName_other hstr head) hx
  clear hx
  obtain ⟨hname, -, r, x, y, hr, hx, hy, he⟩ := (simpleType_iff ht (ha p List.mem_cons_self)).1 h
  have hnf : NotFacet n := notFacet_of (s := "simpleType") (by decide) ht
  have hfac : ∀ a ∈ n :: p :: above, NotFacet a := by
    intro a ha'
    rcases List.mem_cons.1 ha' with rfl | ha'
    · exact hnf
    · exact ha a ha'
  by_cases hen : ∃ vs, EnumerationOf U n vs
  · obtain ⟨vs, hvs⟩ := hen
    cases hvs with
    | @mk r' fs h1 h2 h3 h4 h5 =>
      obtain rfl := Option.some.inj (hr.symm.trans h1)
      obtain ⟨base, fs', -, hfs, hro⟩ := (restriction_iff (is_one.1 h2) ht hfac).1 hx
      obtain rfl : fs = fs' := ((facetsOf_iff U r n (p :: above)).1 h3).2.trans ((facetsOf_iff U r n (p :: above)).1 hfs).2.symm
      cases hro with
      | wrapper hw =>
        rcases hw with hw | ⟨v, hv, hw⟩
        · exact absurd hw h4
        · exact absurd (h5 v hv) hw
      | «enum» k1 k2 k3 =>
        have hout : outlineOf N docs (e.setName head) =
            docs 0 (docOf n) ++ .item .enum (N.type head) :: (memberMarks (docs 4) (·.2) (fun v => N.case v.1) (enumValues fs) ++
              [.member "__Unknown__".toList]) := by
          have hy : ∃ nm', y = .enum (.mk nm' ((enumValues fs).map fun v => ⟨v.1, v.2, v.1, none, [], .restriction⟩) none base []
              .restriction) := by
            generalize n.attr "name".toList = o at hy
            cases hy with
            | none => exact ⟨_, rfl⟩
            | some h => cases h; exact ⟨_, rfl⟩
          obtain ⟨nm', rfl⟩ := hy
          cases he
          simp only [RsEntity.setName]
          rw [outlineOf, outlineList, memberMarks, memberMarks, List.flatMap_map, List.append_assoc]
          rfl
        rw [hout]
        exact .enumeration (is_one.2 ht) (.mk hr h2 h3 h4 h5)
  · have hno : ∀ vs, ¬ EnumerationOf U n vs := fun vs h => hen ⟨vs, h⟩
    rcases hs with ⟨-, s, rfl⟩ | ⟨-, s, rfl⟩
    · cases s with
      | mk n' cs c t ss src =>
        obtain rfl : c = docOf n := by cases he; rfl
        show TypeMarks N docs U (p :: above) n nm head (outlineOf N docs (.enum (.mk head cs (docOf n) t ss src)))
        rw [outlineOf, List.append_assoc]
        exact .simple (is_one.2 ht) hno (by decide)
    · cases s with
      | mk n' c t ss ms fs =>
        obtain rfl : c = docOf n := by cases he; rfl
        show TypeMarks N docs U (p :: above) n nm head (outlineOf N docs (.tupleStruct (.mk head (docOf n) t ss ms fs)))
        rw [outlineOf]
        exact .simple (is_one.2 ht) hno (by decide)

theorem derived_comment {I : Node → RsEntity → Prop} {l : List String} {n : Node} {e : RsEntity} (h : Derived I l n e) :
    ∃ nm fs ag sub, e = .struct (.mk nm (docOf n) fs ag sub) := by
  cases h <;> exact ⟨_, _, _, _, rfl⟩

theorem complex_marks {U : UnicodeTable} {root : Node} (hg : Grammatical root) (hf : ProperForms root)
    (hb : ∀ n a, PartOf root n → a ∈ ["name", "ref"] → n.attr a.toList ≠ some "__base__".toList)
    (h0 : ∀ i, docs i none = []) {n p : Node} {above : List Node} {e : RsEntity}
    (hn : PartOf root n) (ht : n.tag = "complexType".toList) (ha : ∀ a ∈ p :: above, NotFacet a)
    (h : parseNode U n p above = .ok e) : ∃ nm, TypeName n p above nm ∧ ∀ (head : Str) (e' : RsEntity),
      After (e.setName head) e' → TypeMarks N docs U (p :: above) n nm head (outlineOf N docs e') := by
  have hnf : NotFacet n := notFacet_of (s := "complexType") (by decide) ht
  have hfac : ∀ a ∈ n :: p :: above, NotFacet a := by
    intro a ha'
    rcases List.mem_cons.1 ha' with rfl | ha'
    · exact hnf
    · exact ha a ha'
  cases (complexType_iff ht ha).1 h with
  | @plain nm attrs ags h1 h2 h3 h4 h5 =>
    refine ⟨nm, h1, fun head e' hx => ?_⟩
    have hm : ∀ f ∈ attrs, ¬ Marker f := fun f hf => by
      exact fun k => by
        obtain ⟨c, hc, hm⟩ := forall₂_left h3 f hf
        have hcp := Xml.part_withTags hn (by decide) hc
        cases hm with
        | «attribute» _ h =>
          cases h with
          | named h => exact hb c "name" hcp (by decide) (h.trans (congrArg some k))
          | ref _ h => exact hb c "ref" hcp (by decide) (h.trans (congrArg some k))
        | any => exact absurd (show "any_attribute".toList = "__base__".toList from k) (by decide)
    obtain ⟨rest, k1, k2⟩ := after_struct (N := N) (docs := docs) hx hm
    rw [k1]
    refine .plain (is_one.2 ht) h5 (attrs_marks h3) fun hag => ?_
    rw [GroupRefs, hag] at h4
    cases h4
    refine (k2 rfl).2 fun f hf => ?_
    obtain ⟨c, hc, hm⟩ := forall₂_left h3 f hf
    cases hm with
    | «attribute» _ h => cases h <;> rfl
    | any => rfl
  | @content nm attrs c x _ h1 h2 h3 h4 h5 h6 h7 =>
    refine ⟨nm, h1, fun head e' hx => ?_⟩
    obtain ⟨hcm, htags⟩ := mem_contentTags h4
    have hcp : PartOf root c := .child hn hcm
    have htags : c.tag = "all".toList ∨ c.tag = "choice".toList ∨ c.tag = "complexContent".toList ∨ c.tag = "group".toList ∨
        c.tag = "sequence".toList ∨ c.tag = "simpleContent".toList := by simpa [contentTags] using htags
    have hseq : (c.tag = "sequence".toList ∨ c.tag = "all".toList) →
        TypeMarks N docs U (p :: above) n nm head (outlineOf N docs e') := by
      intro hct
      have hct' : Is c ["sequence", "all"] := by
        rcases hct with h | h
        · exact is_of (s := "sequence") h (by decide)
        · exact is_of (s := "all") h (by decide)
      obtain ⟨owner, fields, k1, k2, k3, rfl⟩ := (sequence_iff hct (fun m hm => hf.sequences c m hcp hct' hm) hfac).1 h6
      cases h7 with
      | other hno => exact absurd rfl (hno _)
      | struct =>
        have hsf : SequenceFields owner c fields := k3.imp fun _ _ h => memberField_any h
        obtain ⟨rest, q1, q2⟩ := after_struct (N := N) (docs := docs) hx (Props.own_not_marker hcp hn hb hsf h3)
        rw [q1, List.map_append, List.flatten_append]
        exact .sequence (is_one.2 ht) h4 h5 hct' k1
          (fieldsMarks_append ⟨_, forall₂_imp_map k3 fun _ _ _ h => memberField_marks h0 h, rfl⟩ (attrs_marks h3)) (q2 rfl).1
    have hder : ∀ d, (members c).getLast? = some d → Is c ["complexContent", "simpleContent"] →
        (∃ nm' fs ag sub, x = .struct (.mk nm' (docOf d) fs ag sub)) →
        TypeMarks N docs U (p :: above) n nm head (outlineOf N docs e') := by
      rintro d hd hct ⟨nm', fs, ag, sub, rfl⟩
      cases h7 with
      | other hno => exact absurd rfl (hno _)
      | struct =>
        obtain ⟨rest, q⟩ := after_head (N := N) (docs := docs) hx
        rw [q]
        exact .derived (is_one.2 ht) h4 hct hd
    rcases htags with hct | hct | hct | hct | hct | hct
    · exact hseq (.inr hct)
    · obtain ⟨-, cs, k1, rfl⟩ := (parseChoice_iff hct (fun m hm => hf.choices c m hcp (is_one.2 hct) hm)).1 h6
      cases h7 with
      | other _ hno => exact absurd rfl (hno _)
      | «enum» hags =>
        obtain rfl := after_other (setName_other (by rintro s ⟨⟩) head) hx
        simp only [RsEntity.setName]
        rw [outlineOf, outlineList, outlineList, outlineOf, h0, fields_marks, List.map_append, List.flatten_append,
          List.append_nil, List.nil_append]
        have hin : hasInner (attrs ++ [.mk (nm ++ "Choice".toList) (nm ++ "Choice".toList) none [] .choice []]) [] = false := by
          rw [hasInner, Bool.or_eq_false_iff]
          refine ⟨rfl, ?_⟩
          rw [List.any_eq_false]
          intro f hf
          rcases List.mem_append.1 hf with hf | hf
          · obtain ⟨c, hc, hm⟩ := forall₂_left h3 f hf
            cases hm with
            | «attribute» _ h => cases h <;> exact Bool.false_ne_true
            | any => exact Bool.false_ne_true
          · obtain rfl := List.mem_singleton.1 hf
            exact Bool.false_ne_true
        rw [hin, if_neg Bool.false_ne_true, List.append_nil, List.map_singleton, List.flatten_singleton,
          fieldMark_some rfl, h0, List.nil_append]
        have : memberMarks (docs 4) (·.comment) (fun c => N.case c.name) cs =
            (cs.map fun k => docs 4 k.comment ++ [Mark.member (N.case k.name)]).flatten := by
          rw [memberMarks, List.flatMap_def]
        rw [this]
        exact .choice (is_one.2 ht) h4 h5 (is_one.2 hct)
          (forall₂_imp_map k1 fun _ _ _ h => case_marks h) (attrs_marks h3)
    · obtain ⟨-, m, hm, k⟩ := (content_iff (.inl hct)).1 h6
      have := hg.rows ("complexContent", ["extension", "restriction"]) (by decide) c m hcp hct (List.mem_of_getLast? hm)
      have : m.tag = "extension".toList ∨ m.tag = "restriction".toList := by simpa using this
      refine hder m hm (is_of (s := "complexContent") hct (by decide)) ?_
      rcases this with hmt | hmt
      · exact derived_comment ((extension_iff hmt hct).1 k).2
      · exact derived_comment ((complexRestriction_iff hmt hct).1 k).2
    · rw [parseNode_tag (s := "group") (t := .group) (by decide) hct] at h6
      cases h6
    · exact hseq (.inl hct)
    · obtain ⟨-, m, hm, k⟩ := (content_iff (.inr hct)).1 h6
      have := hg.rows ("simpleContent", ["extension", "restriction"]) (by decide) c m hcp hct (List.mem_of_getLast? hm)
      have : m.tag = "extension".toList ∨ m.tag = "restriction".toList := by simpa using this
      refine hder m hm (is_of (s := "simpleContent") hct (by decide)) ?_
      rcases this with hmt | hmt
      · obtain ⟨-, base, attrs, ags, -, -, -, rfl⟩ := (simpleExtension_iff hmt hct).1 k
        exact ⟨_, _, _, _, rfl⟩
      · rw [simpleRestriction_panic hmt hct] at k
        cases k

/-! ## Global declarations -/

theorem setName_name : ∀ e : RsEntity, e.setName e.name = e
  | .struct (.mk ..) | .structField (.mk ..) | .tupleStruct (.mk ..) | .enum (.mk ..) | .alias (.mk ..) => rfl
  | .enumCase _ | .import _ => rfl

theorem alias_marks {root c : Node} {U : UnicodeTable} {nm t : Str} (hd : ∀ d, docs 0 d = [] ↔ ¬ Documented d)
    (hc : Is c ["element", "attribute"]) (h1 : c.attr "name".toList = some nm) (h2 : c.attr "type".toList = some t) :
    DeclMarks N docs U root c (outlineOf N docs (.alias (.mk nm t (docOf c) []))) := by
  rw [outlineOf]
  by_cases h : Documented (docOf c)
  · rw [if_neg fun e => (hd _).1 e h]
    exact .alias hc h1 h2 h
  · rw [if_pos ((hd _).2 h)]
    exact .silent hc h1 h2 h

theorem global_marks {U : UnicodeTable} {root c : Node} {types : List String} {doc : Option Str} {e e' : RsEntity}
    (hg : Grammatical root) (hf : ProperForms root)
    (hb : ∀ n a, PartOf root n → a ∈ ["name", "ref"] → n.attr a.toList ≠ some "__base__".toList)
    (h0 : ∀ i, docs i none = []) (hd : ∀ d, docs 0 d = [] ↔ ¬ Documented d) (hc : c ∈ members root)
    (ht : Is c ["element", "attribute"])
    (hty : types = if c.tag = "element".toList then ["simpleType", "complexType"] else ["simpleType"])
    (hdoc : doc = if c.tag = "element".toList then docOf c else none)
    (h : Global (fun t x => parseNode U t c [root] = .ok x) types c doc e) (hx : After e e') :
    DeclMarks N docs U root c (outlineOf N docs e') := by
  have hcp : PartOf root c := .child .root hc
  have hct : c.tag = "element".toList ∨ c.tag = "attribute".toList := by simpa [Is] using ht
  have hcf : NotFacet c := by
    rcases hct with hct | hct
    · exact notFacet_of (s := "element") (by decide) hct
    · exact notFacet_of (s := "attribute") (by decide) hct
  have hcs : c.tag ≠ "schema".toList := by
    intro e
    rw [e] at hct
    exact absurd hct (by decide)
  have ha2 : ∀ a ∈ c :: root :: ([] : List Node), NotFacet a := fun a ha => by
    rcases List.mem_cons.1 ha with rfl | ha
    · exact hcf
    · obtain rfl := List.mem_singleton.1 ha
      exact notFacet_of (s := "schema") (by decide) hg.schema
  cases h with
  | @typed nm t h1 h2 =>
    obtain rfl := after_other (by rintro s ⟨⟩) hx
    exact alias_marks hd ht h1 h2
  | @inline nm t x _ h1 h2 h3 h4 h5 h6 =>
    have hin : inlineType c = some t := by rw [inlineType, ← hty]; exact h4
    obtain ⟨htm, htt⟩ := inline_mem hin
    have htp : PartOf root t := .child hcp htm
    rw [renamed_iff.1 h6] at hx
    refine .inline ht h1 h2 hin ?_
    by_cases hts : t.tag = "simpleType".toList
    · exact simple_marks hg htp hts ha2 h5 nm nm hx
    · obtain ⟨hce, htt⟩ := htt.resolve_left hts
      obtain ⟨nm', hnm, hsh⟩ := complex_marks (N := N) (docs := docs) hg hf hb h0 htp htt ha2 h5
      have hnm : nm' = nm := by
        cases hnm with
        | global hs _ => exact absurd hs hcs
        | inline _ ho =>
          cases ho with
          | schema hs => exact absurd hs hcs
          | named _ hn => rw [h1] at hn; exact (Option.some.inj hn).symm
          | up _ hn _ => rw [h1] at hn; cases hn
      subst hnm
      exact hsh _ _ hx
  | @empty nm h1 h2 h3 h4 =>
    have hin : inlineType c = none := by rw [inlineType, ← hty]; exact h4
    obtain ⟨rest, k1, k2⟩ := after_struct (N := N) (docs := docs) hx (fun f hf => nomatch hf)
    rw [k1, (k2 rfl).2 fun f hf => (nomatch hf)]
    rcases hct with hct | hct
    · rw [if_pos hct] at hdoc
      subst hdoc
      exact .emptyElement (is_one.2 hct) h1 h2 hin
    · rw [if_neg (by rw [hct]; decide)] at hdoc
      subst hdoc
      rw [h0]
      exact .emptyAttribute (is_one.2 hct) h1 h2 hin

theorem decl_marks {U : UnicodeTable} {root c : Node} {e e' : RsEntity} (hg : Grammatical root) (hf : ProperForms root)
    (hb : ∀ n a, PartOf root n → a ∈ ["name", "ref"] → n.attr a.toList ≠ some "__base__".toList)
    (h0 : ∀ i, docs i none = []) (hd : ∀ d, docs 0 d = [] ↔ ¬ Documented d) (hc : c ∈ globals root)
    (h : parseNode U c root [] = .ok e) (hx : After e e') : DeclMarks N docs U root c (outlineOf N docs e') := by
  obtain ⟨hcm, hng⟩ := List.mem_filter.1 hc
  have hng : c.tag ≠ "attributeGroup".toList := of_decide_eq_true hng
  have hcp : PartOf root c := .child .root hcm
  have ha1 : ∀ a ∈ root :: ([] : List Node), NotFacet a := fun a ha => by
    obtain rfl := List.mem_singleton.1 ha; exact notFacet_of (s := "schema") (by decide) hg.schema
  have htag := hg.rows _ (List.mem_cons_self) root c .root hg.schema hcm
  have htag : c.tag = "include".toList ∨ c.tag = "import".toList ∨ c.tag = "redefine".toList ∨
      c.tag = "simpleType".toList ∨ c.tag = "complexType".toList ∨ c.tag = "group".toList ∨
      c.tag = "attributeGroup".toList ∨ c.tag = "element".toList ∨ c.tag = "attribute".toList ∨
      c.tag = "notation".toList := by simpa using htag
  have hns : root.tag = "schema".toList := hg.schema
  have himp : Is c ["import", "include"] → parseNode U c root [] = .ok (.import
      ⟨(c.attr "namespace".toList).getD [], (c.attr "schemaLocation".toList).getD [], none⟩) →
      DeclMarks N docs U root c (outlineOf N docs e') := by
    intro hi hp
    obtain rfl := Res.ok.inj (hp.symm.trans h)
    obtain rfl := after_other (by rintro s ⟨⟩) hx
    rw [outlineOf]
    exact .import hi
  rcases htag with ht | ht | ht | ht | ht | ht | ht | ht | ht | ht
  · refine himp (is_of (s := "include") ht (by decide)) ?_
    rw [parseNode_tag (s := "include") (t := .include) (by decide) ht]; rfl
  · refine himp (is_of (s := "import") ht (by decide)) ?_
    rw [parseNode_tag (s := "import") (t := .import) (by decide) ht]; rfl
  · rw [parseNode_tag (s := "redefine") (t := .redefine) (by decide) ht] at h
    cases h
  · obtain ⟨k, own, ds, s1, s2, s3, s4, s5⟩ := simple_shape hg Gen.hasDoc c root [] e hcp ht ha1 h
    obtain ⟨hno, -⟩ := (simpleType_iff ht (ha1 root List.mem_cons_self)).1 h
    obtain ⟨nm, hnm⟩ := Option.isSome_iff_exists.1 (hno.1 hg.schema)
    refine .type (is_of (s := "simpleType") ht (by decide)) hnm ?_ (simple_marks hg hcp ht ha1 h nm nm ?_)
    · rintro ⟨d, hd, -⟩
      have hdm := mem_contentTags hd
      have := hg.rows ("simpleType", ["restriction", "list", "union"]) (by decide) c d hcp ht hdm.1
      have := hdm.2
      rename_i h1
      exact absurd this ((by decide : ∀ t ∈ ["restriction", "list", "union"].map String.toList,
        t ∉ contentTags.map String.toList) _ h1)
    · rw [← s5 nm hnm, setName_name]
      exact hx
  · obtain ⟨nm, hnm, hsh⟩ := complex_shape hg hcp ht ha1 h
    obtain ⟨nm', hnm', hm⟩ := complex_marks (N := N) (docs := docs) hg hf hb h0 hcp ht ha1 h
    have hnm : c.attr "name".toList = some nm := by
      cases hnm with
      | global _ h => exact h
      | inline hno _ => exact absurd hg.schema hno
    have hnm' : c.attr "name".toList = some nm' := by
      cases hnm' with
      | global _ h => exact h
      | inline hno _ => exact absurd hg.schema hno
    obtain rfl := Option.some.inj (hnm.symm.trans hnm')
    rcases hsh with ⟨hch, cm, fs, ag, sub, rfl⟩ | ⟨hch, cs, cm, t', src, cm', fs, ag, rfl⟩
    · exact .type (is_of (s := "complexType") ht (by decide)) hnm hch (hm nm e' hx)
    · exact .choice (is_one.2 ht) hnm hch (hm _ e' hx)
  · rw [parseNode_tag (s := "group") (t := .group) (by decide) ht] at h
    cases h
  · exact absurd ht hng
  · refine global_marks hg hf hb h0 hd hcm (is_of (s := "element") ht (by decide)) ?_ ?_
      ((globalElement_iff ht hns).1 h) hx
    · rw [if_pos ht]
    · rw [if_pos ht]
  · have hr : c.attr "ref".toList = none := by
      have := hf.attributes c hc (is_one.2 ht)
      rw [has_iff] at this
      simpa using this
    refine global_marks hg hf hb h0 hd hcm (is_of (s := "attribute") ht (by decide)) ?_ ?_
      ((globalAttribute_iff ht hns hr).1 h) hx
    · rw [if_neg (by rw [ht]; decide)]
    · rw [if_neg (by rw [ht]; decide)]
  · rw [parseNode_tag (s := "notation") (t := .notation) (by decide) ht] at h
    cases h

theorem outlineList_flatten : ∀ es : List RsEntity, outlineList N docs es = (es.map (outlineOf N docs)).flatten
  | [] => rfl
  | e :: es => by rw [outlineList, outlineList_flatten es, List.map_cons, List.flatten_cons]

theorem forall₂_comp {α β γ : Type _} {R : α → β → Prop} {S : β → γ → Prop} {T : α → γ → Prop} {as : List α} {bs : List β}
    {cs : List γ} (h1 : List.Forall₂ R as bs) (h2 : List.Forall₂ S bs cs) (h : ∀ a ∈ as, ∀ b c, R a b → S b c → T a c) :
    List.Forall₂ T as cs := by
  induction h1 generalizing cs with
  | nil => cases h2; exact .nil
  | cons hab _ ih =>
    cases h2 with
    | cons hbc h2 =>
      exact .cons (h _ List.mem_cons_self _ _ hab hbc) (ih h2 fun a ha => h a (List.mem_cons_of_mem _ ha))

/-- The outline for a file. -/
theorem file_marks {U : UnicodeTable} {root : Node} {g : RsFile} (hg : Grammatical root) (hf : ProperForms root)
    (hb : ∀ n a, PartOf root n → a ∈ ["name", "ref"] → n.attr a.toList ≠ some "__base__".toList)
    (h0 : ∀ i, docs i none = []) (hd : ∀ d, docs 0 d = [] ↔ ¬ Documented d) (h : parseFile U root = .ok g) :
    ∃ parts, List.Forall₂ (DeclMarks N docs U root) (globals root) parts ∧ outlineList N docs g.types = parts.flatten := by
  obtain ⟨f, h1, h2⟩ := parseFile_eq h
  obtain ⟨-, types, groups, k1, k2, rfl⟩ := schema_iff.1 h1
  have ha := after_file (Ext.extendFile_iff.1 h2)
  refine ⟨g.types.map (outlineOf N docs), ?_, outlineList_flatten _⟩
  rw [List.forall₂_map_right_iff]
  exact forall₂_comp k1 ha fun c hc e e' he hx => decl_marks hg hf hb h0 hd hc he hx

theorem docMarks_none (i : Nat) : Gen.docMarks i none = [] := (Gen.docMarks_nil i none).2 rfl

theorem docMarks_silent (d : Option Str) : Gen.docMarks 0 d = [] ↔ ¬ Documented d := by
  rw [Gen.docMarks_nil, ← hasDoc_iff, Gen.hasDoc, decide_eq_true_iff, not_not]

end Verif.Lemmas.Heading
