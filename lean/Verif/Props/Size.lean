import Verif.Props.Traits
import Verif.Spec.Size

/-! # C71: types of finite size -/

namespace Verif.Props

open Verif Verif.Model Verif.Spec Verif.RoXml Verif.Lemmas Verif.Lemmas.Parse

open Verif.Props.Sample

private theorem modify_recursive {t : Str} {m : TypeModifier} (h : m ≠ .empty) :
    defaultModifyType t ([m] ++ [.recursive]) = "Vec<".toList ++ t ++ ">".toList := by
  cases m <;> first | exact absurd rfl h | rfl

private theorem wrapper_not_empty {c : Node} {m : TypeModifier} (h : WrapperOf c m) : m ≠ .empty := by
  obtain ⟨lo, hi, -, -, h⟩ := h
  cases h <;> simp

/-- **C71** An element in a sequence, whose type is the type which the sequence belongs to (or one whose name ends
with the same letters), becomes a vector. -/
theorem C71_self_partial (U : UnicodeTable) (root : Node) (t : Str) (hg : Grammatical root) (hs : CopySafe root)
    (hr : RegularSchema root) (h : convertXsd U root = .ok t)
    (hb : ∀ n a, PartOf root n → a ∈ ["name", "ref"] → n.attr a.toList ≠ some "__base__".toList)
    (c : Node) (nm : Str) (n s : Node) (hc : Declares root c nm n) (h1 : (withTags n contentTags).getLast? = some s)
    (h2 : Is s ["sequence", "all"]) (e : Node) (he : e ∈ members s) (het : e.tag = "element".toList) (pre en : Str)
    (hn : e.attr "name".toList = some en) (hty : e.attr "type".toList = some (pre ++ nm)) :
    ∃ ms, HasStruct t (formatTypeName U (targetNamespace root) (xsdNamespace root) nm) ms ∧
      ∃ m ∈ ms, m.name = defaultFormatName U en ∧ m.type = some ("Vec<".toList ++
        (formatTypeName U (targetNamespace root) (xsdNamespace root) (pre ++ nm) ++ ">".toList)) := by
  have h3 : s.children.filter Node.isElement ≠ [] :=
    List.ne_nil_of_mem (List.mem_filter.2 ⟨(mem_members.1 he).1, (mem_members.1 he).2.1⟩)
  obtain ⟨fs, attrs, ms, k1, -, k3, k4⟩ := C68_sequence_partial U root t hg hs hr h hb c nm n s hc h1 h2 h3
  obtain ⟨f, hf, hm⟩ := forall₂_right k1 e he
  have key : ∃ m, m ≠ .empty ∧ f = .mk en (pre ++ nm) (docOf e) [] .element ([m] ++ [.recursive]) := by
    cases hm with
    | @typed n' t' m ms' _ q1 q2 q3 q4 =>
      obtain rfl := Option.some.inj (hn.symm.trans q1)
      obtain rfl := Option.some.inj (hty.symm.trans q2)
      cases q4 with
      | yes => exact ⟨m, wrapper_not_empty q3, rfl⟩
      | no q => exact absurd rfl (q pre)
    | ref _ q => rw [hn] at q; cases q
    | inline _ _ _ q => rw [hty] at q; cases q
    | any q => rw [het] at q; exact absurd q (by decide)
    | choice q => rw [het] at q; exact absurd q (by decide)
  obtain ⟨m, hme, rfl⟩ := key
  have hw : StructField.mk en (pre ++ nm) (docOf e) [] .element ([m] ++ [.recursive]) ∈ written (fs ++ attrs) := by
    refine List.mem_filter.2 ⟨List.mem_append_left _ hf, ?_⟩
    cases m <;> first | exact absurd rfl hme | rfl
  obtain ⟨x, hx, q1, q2, -⟩ := forall₂_right k4 _ hw
  refine ⟨ms, k3, x, hx, q1, q2.trans (congrArg some ?_)⟩
  show defaultModifyType _ _ = _
  rw [StructField.typeModifiers, modify_recursive hme, List.append_assoc]
  rfl

/-! ## Types which contain themselves -/

private def textOf (root : Node) : Str := okText (convertXsd A root)

private def itemsOf (root : Node) : List Item := readItems [] [] (Gen.lns (textOf root))

private theorem itemsOf_ok (root : Node) : HasItems (textOf root) (itemsOf root) := ⟨_, Gen.lines_lns _, rfl⟩

private theorem outer_step {is : List Item} {p q : List Str} {n m : Str}
    (h : ∃ i ∈ is, i.path = p ∧ DefinesType i n ∧ ∃ w ∈ byValue m, w ∈ memberTypes i) (h1 : q ∈ p.inits)
    (h2 : Defined is q m) (h3 : ∀ q' ∈ p.inits, q.length < q'.length → ¬ Defined is q' m) :
    Contains is (p, n) (q, m) := by
  obtain ⟨i, hi, hp, hd, w, hw, hm⟩ := h
  exact ⟨i, hi, hp, hd, m, .outer h1 h2 h3, w, hw, hm⟩

private theorem inner_step {is : List Item} {p : List Str} {n m md : Str}
    (h : ∃ i ∈ is, i.path = p ∧ DefinesType i n ∧ ∃ w ∈ byValue (md ++ ("::".toList ++ m)), w ∈ memberTypes i)
    (h2 : Defined is (p ++ [md]) m) : Contains is (p, n) (p ++ [md], m) := by
  obtain ⟨i, hi, hp, hd, w, hw, hm⟩ := h
  exact ⟨i, hi, hp, hd, _, .inner h2, w, hw, hm⟩

/-- Two types with optional elements of each other. -/
private def mutualTypes : Node := doc
  [el "complexType" [("name", "Person")] [el "sequence" [] [el "element" [("name", "home"), ("type", "tns:House"), ("minOccurs", "0")] []]],
   el "complexType" [("name", "House")] [el "sequence" [] [el "element" [("name", "owner"), ("type", "tns:Person"), ("minOccurs", "0")] []]]]

/-- **C71** Two types which may contain each other get no indirection: the code is refused by the compiler. -/
theorem C71_mutual_violated : ∃ (root : Node) (t : Str) (is : List Item), Grammatical root ∧ CopySafe root ∧
    convertXsd A root = .ok t ∧ HasItems t is ∧ Infinite is ([], "Person".toList) :=
  ⟨mutualTypes, textOf mutualTypes, itemsOf mutualTypes, grammatical_of rfl (by decide +kernel),
    copySafe_of (by decide +kernel) (by decide +kernel) (by decide +kernel) (by decide +kernel) (by decide +kernel),
    okText_eq (by decide +kernel), itemsOf_ok _,
    .tail (.single (outer_step (q := []) (m := "House".toList) (by decide +kernel) (by decide +kernel) (by decide +kernel) (by decide +kernel)))
      (outer_step (by decide +kernel) (by decide +kernel) (by decide +kernel) (by decide +kernel))⟩

/-- A type whose base has an element of it. -/
private def baseTypes : Node := doc
  [el "complexType" [("name", "Animal")] [el "sequence" [] [el "element" [("name", "guard"), ("type", "tns:Dog"), ("minOccurs", "0")] []]],
   el "complexType" [("name", "Dog")] [el "complexContent" [] [el "extension" [("base", "tns:Animal")] []]]]

/-- **C71** A type which inherits an optional element of its own type contains itself. -/
theorem C71_inherited_violated : ∃ (root : Node) (t : Str) (is : List Item), Grammatical root ∧ CopySafe root ∧
    convertXsd A root = .ok t ∧ HasItems t is ∧ Contains is ([], "Dog".toList) ([], "Dog".toList) :=
  ⟨baseTypes, textOf baseTypes, itemsOf baseTypes, grammatical_of rfl (by decide +kernel),
    copySafe_of (by decide +kernel) (by decide +kernel) (by decide +kernel) (by decide +kernel) (by decide +kernel),
    okText_eq (by decide +kernel), itemsOf_ok _,
    outer_step (by decide +kernel) (by decide +kernel) (by decide +kernel) (by decide +kernel)⟩

/-- A type with a choice between the type itself and the end. -/
private def choiceTypes : Node := doc
  [el "complexType" [("name", "Chain")] [el "sequence" [] [el "choice" []
     [el "element" [("name", "next"), ("type", "tns:Chain")] [], el "element" [("name", "end"), ("type", "xs:string")] []]]]]

/-- **C71** A type whose choice has the type itself as one of the possibilities contains itself. -/
theorem C71_choice_violated : ∃ (root : Node) (t : Str) (is : List Item), Grammatical root ∧ CopySafe root ∧
    convertXsd A root = .ok t ∧ HasItems t is ∧ Infinite is ([], "Chain".toList) :=
  ⟨choiceTypes, textOf choiceTypes, itemsOf choiceTypes, grammatical_of rfl (by decide +kernel),
    copySafe_of (by decide +kernel) (by decide +kernel) (by decide +kernel) (by decide +kernel) (by decide +kernel),
    okText_eq (by decide +kernel), itemsOf_ok _,
    .tail (.single (inner_step (md := "chain".toList) (m := "ChainChoice".toList) (by decide +kernel) (by decide +kernel)))
      (outer_step (by decide +kernel) (by decide +kernel) (by decide +kernel) (by decide +kernel))⟩

/-- A type with exactly one element of a type whose name ends with the same letters. -/
private def suffixTypes : Node := doc
  [el "complexType" [("name", "SubNode")] [el "sequence" [] [el "element" [("name", "x"), ("type", "xs:int")] []]],
   el "complexType" [("name", "Node")] [el "sequence" [] [el "element" [("name", "sub"), ("type", "tns:SubNode")] []]]]

/-- **C71** Only the last letters of the names are compared: an element which occurs exactly once becomes a vector, although
its type is another one. -/
theorem C71_suffix_violated : ∃ (root : Node) (t : Str) (is : List Item), Grammatical root ∧ CopySafe root ∧
    convertXsd A root = .ok t ∧ HasItems t is ∧
    ∃ i ∈ is, DefinesType i "Node".toList ∧ memberTypes i = ["Vec<SubNode>".toList] :=
  ⟨suffixTypes, textOf suffixTypes, itemsOf suffixTypes, grammatical_of rfl (by decide +kernel),
    copySafe_of (by decide +kernel) (by decide +kernel) (by decide +kernel) (by decide +kernel) (by decide +kernel),
    okText_eq (by decide +kernel), itemsOf_ok _, by decide +kernel⟩

/-! ## Example -/

private def selfType : Node := doc
  [el "complexType" [("name", "Part")] [el "sequence" [] [el "element" [("name", "inside"), ("type", "tns:Part"), ("minOccurs", "0")] []]]]

/-- What is assumed holds of a document with such a type. -/
example : Grammatical selfType ∧ CopySafe selfType ∧ RegularSchema selfType ∧ (∃ t, convertXsd A selfType = .ok t) ∧
    (∀ n a, PartOf selfType n → a ∈ ["name", "ref"] → n.attr a.toList ≠ some "__base__".toList) ∧
    ∃ c n s e, Declares selfType c "Part".toList n ∧ (withTags n contentTags).getLast? = some s ∧ Is s ["sequence", "all"] ∧
      e ∈ members s ∧ e.tag = "element".toList ∧ e.attr "name".toList = some "inside".toList ∧
      e.attr "type".toList = some ("tns:".toList ++ "Part".toList) :=
  ⟨grammatical_of rfl (by decide +kernel),
    copySafe_of (by decide +kernel) (by decide +kernel) (by decide +kernel) (by decide +kernel) (by decide +kernel),
    regular_of (by decide +kernel) (by decide +kernel) (by decide +kernel), ok_of (by decide +kernel),
    fun n a hn ha => (by decide +kernel : ∀ n ∈ elements selfType, ∀ a ∈ ["name", "ref"],
      n.attr a.toList ≠ some "__base__".toList) n (partOf_elements hn) a ha,
    _, _, _, _, ⟨List.mem_of_getElem? (i := 0) rfl, rfl, .type rfl, by decide +kernel⟩, rfl, by decide +kernel,
    List.mem_of_getElem? (i := 0) rfl, rfl, rfl, rfl⟩

example : ∃ i ∈ itemsOf selfType, DefinesType i "Part".toList ∧ memberTypes i = ["Vec<Part>".toList] := by decide +kernel

end Verif.Props
