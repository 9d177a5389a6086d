import Verif.Props.Distinct
import Verif.Props.XmlEverywhere

/-! # C98: the fields of every struct have different names -/

namespace Verif.Props

open Verif Verif.Model Verif.Spec Verif.RoXml Verif.Lemmas Verif.Lemmas.Parse

open Verif.Props.Sample

private theorem nodup_of {U : UnicodeTable} {N : Naming} (hN : N.name = defaultFormatName U) {pfx : Option Str} {md : Str}
    {fs : List StructField} {ms : List Verif.Spec.Member} (h : List.Forall₂ (FieldMember N pfx md) fs ms) (hu : UnlikeFields U fs) :
    (ms.map (·.name)).Nodup := by
  induction h with
  | nil => exact List.nodup_nil
  | @cons f m fs ms h1 h2 ih =>
    obtain ⟨k1, k2⟩ := List.pairwise_cons.1 hu
    refine List.nodup_cons.2 ⟨fun hm => ?_, ih k2⟩
    obtain ⟨m', hm', e⟩ := List.mem_map.1 hm
    obtain ⟨f', hf', hfm⟩ := forall₂_left h2 m' hm'
    have seg : ∀ v : Str, ∃ s, AfterLastColon v s := fun v => ⟨_, Gen.lastSegment_iff.1 rfl⟩
    obtain ⟨s, hs⟩ := seg f.name
    obtain ⟨s', hs'⟩ := seg f'.name
    refine C31_field_partial U f.name f'.name s s' hs hs' (k1 f' hf' s s' hs hs') ?_
    have := h1.1.symm.trans (e.symm.trans hfm.1)
    rwa [hN] at this

mutual
private theorem origins_generatedOf (mn : Str → Str) (doc : Option Str → Bool) : ∀ (e : RsEntity) (q : List Str) (s : RStruct),
    (q, .entity (.struct s)) ∈ originsOf mn doc e → .struct s ∈ generated e
  | .struct (.mk n c fs ag ss), q, s, h => by
    rw [generated]
    rw [originsOf] at h
    rcases List.mem_cons.1 h with h | h
    · cases h; exact List.mem_cons_self
    rcases List.mem_cons.1 h with h | h
    · cases h
    split at h
    · rcases List.mem_cons.1 h with h | h
      · cases h
      · obtain ⟨⟨q', o⟩, hm, e⟩ := List.mem_map.1 h
        cases e
        refine List.mem_cons_of_mem _ (List.mem_append.2 ?_)
        exact (List.mem_append.1 hm).imp (origins_generatedList mn doc ss q' s) (origins_generatedFields mn doc fs q' s)
    · cases h
  | .tupleStruct (.mk n c t ss ms fs), q, s, h => by
    rw [generated]
    rw [originsOf] at h
    rcases List.mem_cons.1 h with h | h
    · cases h
    rcases List.mem_append.1 h with h | h
    · exact List.mem_cons_of_mem _ (origins_generatedList mn doc ss q s h)
    · cases List.mem_singleton.1 h
  | .enum (.mk n cs c t ss src), q, s, h => by
    rw [generated]
    rw [originsOf] at h
    rcases List.mem_cons.1 h with h | h
    · cases h
    rcases List.mem_cons.1 h with h | h
    · cases h
    rcases List.mem_cons.1 h with h | h
    · cases h
    exact List.mem_cons_of_mem _ (origins_generatedList mn doc ss q s h)
  | .alias (.mk n o c ss), q, s, h => by
    rw [originsOf] at h
    split at h
    · cases List.mem_singleton.1 h
    · cases h
  | .structField f, q, x, h => by rw [originsOf] at h <;> cases h
  | .enumCase c, q, x, h => by rw [originsOf] at h <;> cases h
  | .import i, q, x, h => by rw [originsOf] at h <;> cases h
private theorem origins_generatedList (mn : Str → Str) (doc : Option Str → Bool) : ∀ (es : List RsEntity) (q : List Str) (s : RStruct),
    (q, .entity (.struct s)) ∈ originsList mn doc es → .struct s ∈ generatedList es
  | [], q, s, h => by rw [originsList] at h; cases h
  | e :: es, q, s, h => by
    rw [generatedList]
    rw [originsList] at h
    exact List.mem_append.2 ((List.mem_append.1 h).imp (origins_generatedOf mn doc e q s) (origins_generatedList mn doc es q s))
private theorem origins_generatedFields (mn : Str → Str) (doc : Option Str → Bool) : ∀ (fs : List StructField) (q : List Str)
    (s : RStruct), (q, .entity (.struct s)) ∈ originsFields mn doc fs → .struct s ∈ generatedFields fs
  | [], q, s, h => by rw [originsFields] at h; cases h
  | .mk n t c ss src ms :: fs, q, s, h => by
    rw [generatedFields]
    rw [originsFields] at h
    exact List.mem_append.2 ((List.mem_append.1 h).imp (origins_generatedList mn doc ss q s) (origins_generatedFields mn doc fs q s))
end

/-- **C98** No struct in the code, at any depth, has two fields of the same name, if the names of the fields of each type differ
in more than case and punctuation. -/
theorem C98_fields_everywhere_partial (U : UnicodeTable) (root : Node) (t : Str) (hg : Grammatical root) (hf : ProperForms root)
    (hs : CopySafe root) (hr : RegularSchema root) (hd : Separate U root) (hu : SeparateFields U root)
    (h : convertXsd U root = .ok t) (is : List Item) (hi : HasItems t is) :
    ∀ i ∈ is, StructItem i → ((readFieldLines none i.body).map (·.name)).Nodup := by
  intro i hii hst
  obtain ⟨f, hpf, is', h1, h2⟩ := C69_document U root t hg hs h
  obtain rfl := C69_determined t is is' hi h1
  have hQ := (Dis.parseFile_scoped (doc := Gen.hasDoc) (Q := fun fs => UnlikeFields U (written fs)) hg hf hr hd hu.inner .nil hu.types hpf).2
  obtain ⟨⟨q, o⟩, hx, -, hxi⟩ := forall₂_left h2 i hii
  have clash : ∀ {p r : Str}, i.head = p ++ r → 5 ≤ p.length → p.take 5 ≠ "pub s".toList → False := by
    intro p r e hl hne
    obtain ⟨r', hr'⟩ := hst
    have := congrArg (List.take 5) (hr'.trans e)
    rw [List.take_append_of_le_length hl] at this
    exact hne this.symm
  cases o with
  | inner n => exact (clash hxi.2.1 (by decide) (by decide)).elim
  | default n => exact (clash hxi.2.1 (by decide) (by decide)).elim
  | validate n t ms fs =>
    obtain ⟨cs, -, ⟨-, ⟨-, h, -⟩ | ⟨-, h, -⟩⟩, -⟩ := hxi
    · exact (clash h (by decide) (by decide)).elim
    · exact (clash h (by decide) (by decide)).elim
  | entity e =>
    have hxi : EntityItem _ _ e i := hxi
    cases e with
    | struct s =>
      have hq := hQ s (origins_generatedList _ _ _ q s hx)
      obtain ⟨n, c, fs, ag, sub⟩ := s
      obtain ⟨-, p2, -⟩ := hxi
      exact nodup_of rfl p2 hq
    | tupleStruct s =>
      obtain ⟨n, c, t, sub, ms, fs⟩ := s
      rw [hxi.2.2]
      exact List.nodup_nil
    | enum s =>
      obtain ⟨n, cs, c, t, sub, src⟩ := s
      exact (clash hxi.2.1 (by decide) (by decide)).elim
    | «alias» s =>
      obtain ⟨n, o, c, sub⟩ := s
      exact (clash hxi.2.1 (by decide) (by decide)).elim
    | _ => exact hxi.elim

/-! ## Example -/

/-- What the field for an element or an attribute is called. -/
def fieldNameOf (c : Node) : Str :=
  if c.tag = "any".toList then "any".toList else if c.tag = "anyAttribute".toList then "any_attribute".toList else
    (c.attr "name".toList <|> c.attr "ref".toList).getD []

/-- Names of fields which differ in more than case and punctuation, as a computation. -/
def UnlikeSegments (U : UnicodeTable) (vs : List Str) : Prop :=
  vs.Pairwise fun a b => skeleton U.isAlphanumeric (lastSegment a) ≠ skeleton U.isAlphanumeric (lastSegment b)

instance (U : UnicodeTable) (vs : List Str) : Decidable (UnlikeSegments U vs) := by unfold UnlikeSegments; infer_instance

private theorem unlike_segments {U : UnicodeTable} {fs : List StructField} (h : UnlikeSegments U (fs.map (·.name))) :
    UnlikeFields U (written fs) := by
  refine List.Pairwise.sublist (List.filter_sublist) ((List.pairwise_map.1 h).imp fun h s t hs ht => ?_)
  rwa [Gen.lastSegment_iff.2 hs, Gen.lastSegment_iff.2 ht] at h

private theorem attr_names {n : Node} {fs : List StructField} (h : AttrFields n fs) :
    fs.map (·.name) = (withTags n ["attribute", "anyAttribute"]).map fieldNameOf := by
  unfold AttrFields at h
  generalize withTags n _ = cs at h
  induction h with
  | nil => rfl
  | cons h _ ih =>
    rw [List.map_cons, List.map_cons, ih]
    congr 1
    cases h with
    | «attribute» ht h =>
      unfold fieldNameOf
      rw [ht, if_neg (by decide), if_neg (by decide)]
      cases h with
      | named h => rw [h]; rfl
      | ref h1 h2 => rw [h1, h2]; rfl
    | any ht => unfold fieldNameOf; rw [ht]; rfl

private theorem sequence_names {I : Node → RsEntity → Prop} {owner : Str} {cs : List Node} {fs : List StructField}
    (h : List.Forall₂ (MemberField I owner) cs fs) (hc : ∀ c ∈ cs, ¬ Is c ["choice"]) : fs.map (·.name) = cs.map fieldNameOf := by
  induction h with
  | nil => rfl
  | @cons c f cs fs h _ ih =>
    rw [List.map_cons, List.map_cons, ih fun c h => hc c (List.mem_cons_of_mem _ h)]
    congr 1
    have hc := hc c List.mem_cons_self
    cases h with
    | typed h1 h2 => unfold fieldNameOf; rw [h1, h2]; rfl
    | ref h1 h2 h3 => unfold fieldNameOf; rw [h1, h2, h3]; rfl
    | inline h1 _ h2 => unfold fieldNameOf; rw [h1, h2]; rfl
    | any h1 => unfold fieldNameOf; rw [h1]; rfl
    | choice h1 => exact absurd (by simp [Is, h1]) hc

/-- The fields for a schema are separate if this can be computed. -/
theorem separateFields_of {root : Node} (hg : Grammatical root) (hr : RegularSchema root)
    (h0 : convertXsd A root ≠ .panic ∧ convertXsd A root ≠ .err)
    (h1 : ∀ x ∈ (okFile (parseFile A root)).types, ∀ s ∈ structOf x, UnlikeSegments A ((written s.fields).map (·.name)))
    (h2 : ∀ s ∈ elements root, Is s ["sequence", "all"] → ∀ c ∈ members s, Is c ["element"] → ∀ t ∈ (inlineType c).toList,
      Is t ["complexType"] → ∃ q ∈ (withTags t contentTags).getLast?.toList, PlainInline t q ∧
        UnlikeSegments A ((members q).map fieldNameOf ++ (withTags t ["attribute", "anyAttribute"]).map fieldNameOf))
    (h3 : ∀ n ∈ elements root, Is n ["complexType"] → (∃ c ∈ (withTags n contentTags).getLast?.toList,
      Is c ["choice", "simpleContent", "complexContent"]) → (withTags n ["attribute", "anyAttribute"]).isEmpty = true) :
    SeparateFields A root where
  types := fun F hF c nm n hc => unlikeFields_of hg hr h0 h1 hc F hF
  inner := {
    complex := fun s c t k1 k2 k3 k4 k5 k6 owner fs gs ho => by
      obtain ⟨q, m1, ⟨m2, m3, m4, -, -⟩, m5⟩ := h2 s (partOf_elements k1) k2 c k3 k4 t (Option.mem_toList.2 k5) k6
      have m1 := Option.mem_toList.1 m1
      have no : ∀ {s : Node} {l : List String} {P : Prop}, (withTags t contentTags).getLast? = some s → Is s l →
          (∀ x ∈ l, x ∉ ["sequence", "all"]) → P := by
        intro s l P k1 k2 k3
        obtain rfl := Option.some.inj (m1.symm.trans k1)
        unfold Is at m2 k2
        obtain ⟨x, hx, hx'⟩ := List.mem_map.1 k2
        obtain ⟨y, hy, hy'⟩ := List.mem_map.1 m2
        rw [← hy', String.toList_inj] at hx'
        exact absurd (hx' ▸ hy) (k3 x hx)
      refine unlike_segments ?_
      cases ho with
      | plain k1 => rw [k1 _ m1] at m3; cases m3
      | sequence k1 _ _ k4 k5 =>
        obtain rfl := Option.some.inj (m1.symm.trans k1)
        rw [List.map_append, attr_names k5, sequence_names k4 m4]
        exact m5
      | simple k1 k2 => exact no k1 k2 (by decide)
      | derived k1 k2 => exact no k1 k2 (by decide)
      | derivedSequence k1 k2 => exact no k1 k2 (by decide)
    choices := fun n c nm attrs k1 k2 k3 k4 k5 => by
      have := h3 n (partOf_elements k1) k2 ⟨c, Option.mem_toList.2 k3, k4⟩
      unfold AttrFields at k5
      rw [List.isEmpty_iff.1 this] at k5
      cases k5
      refine unlike_segments ?_
      exact List.pairwise_singleton _ _ }

private def castle : Node := doc
  [el "complexType" [("name", "Castle")] [el "sequence" []
      [el "element" [("name", "gate")] [el "complexType" [] [el "sequence" []
          [el "element" [("name", "width"), ("type", "xs:int")] [],
           el "element" [("name", "lock")] [el "complexType" [] [el "sequence" []
             [el "element" [("name", "key"), ("type", "xs:int")] [], el "element" [("ref", "tns:width")] []]]]],
        el "attribute" [("name", "open"), ("type", "xs:boolean")] []]],
       el "choice" [] [el "element" [("name", "stairs"), ("type", "xs:int")] [], el "element" [("name", "lift"), ("type", "xs:string")] []]],
    el "attribute" [("name", "number"), ("type", "xs:int")] []],
   el "complexType" [("name", "Keep")] [el "complexContent" [] [el "extension" [("base", "tns:Castle")]
     [el "sequence" [] [el "element" [("name", "width"), ("type", "xs:int")] []]]]],
   el "complexType" [("name", "Way")] [el "choice" [] [el "element" [("name", "by_car"), ("type", "xs:int")] [],
     el "element" [("name", "by_train"), ("type", "xs:int")] []]],
   el "element" [("name", "width"), ("type", "xs:int")] []]

private theorem castle_grammatical : Grammatical castle := grammatical_of rfl (by decide +kernel)
private theorem castle_regular : RegularSchema castle := regular_of (by decide +kernel) (by decide +kernel) (by decide +kernel)

/-- Structs inside structs, with attributes, inherited fields and choices. -/
example : ∃ t is, convertXsd A castle = .ok t ∧ HasItems t is ∧
    (is.filter fun i => "pub struct ".toList.isPrefixOf i.head).map (fun i => (readFieldLines none i.body).map fun m => String.ofList m.name) =
      [["gate", "castle_choice", "number"], ["width", "lock", "open"], ["key", "width"], ["width", "gate", "castle_choice", "number"],
       ["width", "lock", "open"], ["key", "width"], ["way_choice"]] ∧
    ∀ i ∈ is, StructItem i → ((readFieldLines none i.body).map (·.name)).Nodup := by
  refine ⟨_, _, okText_eq (by decide +kernel), ⟨_, Gen.lines_lns _, rfl⟩, by decide +kernel, ?_⟩
  exact C98_fields_everywhere_partial A castle _ castle_grammatical
    (properForms_of (by decide +kernel) (by decide +kernel) (by decide +kernel))
    (copySafe_of (by decide +kernel) (by decide +kernel) (by decide +kernel) (by decide +kernel) (by decide +kernel)) castle_regular
    (separate_of castle_grammatical castle_regular (by decide +kernel) (by decide +kernel) (by decide +kernel) (by decide +kernel)
      (by decide +kernel))
    (separateFields_of castle_grammatical castle_regular (by decide +kernel) (by decide +kernel) (by decide +kernel) (by decide +kernel))
    (okText_eq (by decide +kernel)) _ ⟨_, Gen.lines_lns _, rfl⟩

end Verif.Props
