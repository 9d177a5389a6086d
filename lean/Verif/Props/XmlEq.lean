import Verif.Spec.XmlEq

/-! # C85: comparison of XML texts -/

namespace Verif.Props

open Verif Verif.Model.XmlEq Verif.Spec

private theorem assertAll_cases : ∀ ps, assertAll ps = .ok () ∨ assertAll ps = .panic
  | [] => .inl rfl
  | (a, e) :: r => by
    rw [assertAll]
    split
    · exact assertAll_cases r
    · exact .inr rfl

private theorem zip_ok : ∀ {xs ys : List Delivered}, assertAll (xs.zip ys) = .ok () ↔ xs <+: ys ∨ ys <+: xs
  | [], ys => ⟨fun _ => .inl (List.nil_prefix), fun _ => rfl⟩
  | x :: xs, [] => ⟨fun _ => .inr (List.nil_prefix), fun _ => rfl⟩
  | x :: xs, y :: ys => by
    rw [List.zip_cons_cons, assertAll, List.cons_prefix_cons, List.cons_prefix_cons]
    split
    · rename_i h
      rw [zip_ok, h]
      simp
    · rename_i h
      constructor
      · intro h'; cases h'
      · rintro (⟨h', -⟩ | ⟨h', -⟩)
        · exact absurd h' h
        · exact absurd h'.symm h

private theorem same_filter {xs ys : List Delivered} : SameEvents xs ys ↔ withoutWhitespaces xs = withoutWhitespaces ys := by
  constructor
  · intro h
    induction h with
    | nil => rfl
    | left _ ih => exact ih
    | right _ ih => exact ih
    | @both x xs ys _ ih =>
      unfold withoutWhitespaces at *
      rw [List.filter_cons, List.filter_cons, ih]
  · have skip : ∀ {ys : List Delivered}, withoutWhitespaces ys = [] → SameEvents [] ys := by
      intro ys
      induction ys with
      | nil => exact fun _ => .nil
      | cons y ys ih =>
        intro h
        unfold withoutWhitespaces at *
        rw [List.filter_cons] at h
        split at h
        · cases h
        · rename_i hy
          unfold notWhitespace at hy
          split at hy
          · exact .right (ih h)
          · exact absurd rfl hy
    induction xs generalizing ys with
    | nil => exact fun h => skip h.symm
    | cons x xs ih =>
      intro h
      have hx : withoutWhitespaces (x :: xs) = if notWhitespace x then x :: withoutWhitespaces xs else withoutWhitespaces xs :=
        List.filter_cons
      rw [hx] at h
      split at h
      · rename_i hn
        induction ys with
        | nil => cases h
        | cons y ys ih' =>
          have hy : withoutWhitespaces (y :: ys) =
            if notWhitespace y then y :: withoutWhitespaces ys else withoutWhitespaces ys := List.filter_cons
          rw [hy] at h
          split at h
          · obtain ⟨rfl, h'⟩ := List.cons.inj h
            exact .both (ih h')
          · rename_i hny
            unfold notWhitespace at hny
            split at hny
            · exact .right (ih' h)
            · exact absurd rfl hny
      · rename_i hn
        unfold notWhitespace at hn
        split at hn
        · exact .left (ih h)
        · exact absurd rfl hn

private theorem without_append (xs ys : List Delivered) :
    withoutWhitespaces (xs ++ ys) = withoutWhitespaces xs ++ withoutWhitespaces ys := List.filter_append ..

private theorem without_prefix {xs ys : List Delivered} :
    withoutWhitespaces xs <+: withoutWhitespaces ys ↔ ∃ r, SameEvents (xs ++ r) ys := by
  constructor
  · rintro ⟨r, hr⟩
    refine ⟨r, same_filter.2 ?_⟩
    have : withoutWhitespaces r = r := by
      refine List.filter_eq_self.2 fun x hx => ?_
      exact (List.mem_filter.1 (hr ▸ List.mem_append_right _ hx : x ∈ withoutWhitespaces ys)).2
    rw [without_append, this, hr]
  · rintro ⟨r, hr⟩
    have := same_filter.1 hr
    rw [without_append] at this
    exact ⟨_, this⟩

private theorem same_comm {xs ys : List Delivered} : SameEvents xs ys ↔ SameEvents ys xs := by
  rw [same_filter, same_filter, eq_comm]

/-- **C85** Two lists of events pass if and only if, without white space, one of them begins with the other; otherwise the
assertion fails. -/
theorem C85_prefix (actual expected : List Delivered) :
    (assertXmlEq actual expected = .ok () ↔
      ∃ r, SameEvents (actual ++ r) expected ∨ SameEvents actual (expected ++ r)) ∧
    (assertXmlEq actual expected = .ok () ∨ assertXmlEq actual expected = .panic) := by
  refine ⟨?_, assertAll_cases _⟩
  rw [assertXmlEq, zip_ok, without_prefix, without_prefix, exists_or]
  simp only [same_comm (ys := actual)]

private theorem without_full {xs : List Delivered} (h : FullStream xs) : FullStream (withoutWhitespaces xs) := by
  obtain ⟨ys, z, rfl, hz, hy⟩ := h
  refine ⟨withoutWhitespaces ys, z, ?_, hz, fun y hm => hy y (List.mem_filter.1 hm).1⟩
  rw [without_append]
  congr 1
  refine List.filter_eq_self.2 fun x hx => ?_
  obtain rfl := List.mem_singleton.1 hx
  unfold notWhitespace
  split
  · exact hz.elim
  · rfl

private theorem full_prefix {xs ys : List Delivered} (hx : FullStream xs) (hy : FullStream ys) (h : xs <+: ys) : xs = ys := by
  obtain ⟨as, a, rfl, ha, -⟩ := hx
  obtain ⟨bs, b, rfl, -, hb⟩ := hy
  obtain ⟨r, hr⟩ := h
  rcases List.eq_nil_or_concat r with rfl | ⟨r', c, rfl⟩
  · rw [List.append_nil] at hr
    exact hr
  · rw [List.concat_eq_append, ← List.append_assoc] at hr
    have := (List.append_inj' hr rfl).1
    exact absurd ha (hb a (this ▸ List.mem_append_left _ (List.mem_append_right _ List.mem_cons_self)))

/-- **C85** What readers deliver for two texts passes if and only if the events are the same up to white space. -/
theorem C85_streams (actual expected : List Delivered) (ha : FullStream actual) (he : FullStream expected) :
    assertXmlEq actual expected = .ok () ↔ SameEvents actual expected := by
  rw [assertXmlEq, zip_ok, same_filter]
  constructor
  · rintro (h | h)
    · exact full_prefix (without_full ha) (without_full he) h
    · exact (full_prefix (without_full he) (without_full ha) h).symm
  · intro h
    exact .inl (h ▸ List.prefix_rfl)

/-! ## Documents -/

private def keep : Event → Bool
  | .whitespace _ => false
  | _ => true

private theorem without_map (es : List Event) : withoutWhitespaces (es.map .event) = (es.filter keep).map .event := by
  rw [withoutWhitespaces, List.filter_map]
  congr 1
  refine List.filter_congr fun e _ => ?_
  cases e <;> rfl

mutual
  private theorem filter_node : ∀ n : XNode, (∀ s, n = .text s → allBlank s = false) →
      (nodeEvents n).filter keep = nodeEvents (stripNode n)
    | .element n as ns c, _ => by
      rw [stripNode, nodeEvents, nodeEvents, List.filter_cons_of_pos rfl, List.filter_append, filter_nodes c]
      rfl
    | .text s, h => by
      rw [stripNode, nodeEvents, h s rfl]
      rfl
    | .cdata s, _ => by rw [stripNode, nodeEvents]; rfl
    | .instruction n d, _ => by rw [stripNode, nodeEvents]; rfl
  private theorem filter_nodes : ∀ ns : List XNode, (nodesEvents ns).filter keep = nodesEvents (stripNodes ns)
    | [] => by rw [stripNodes, nodesEvents]; rfl
    | .text s :: ns => by
      rw [stripNodes, nodesEvents, List.filter_append, filter_nodes ns]
      split
      · rename_i h
        rw [nodeEvents, h]
        rfl
      · rename_i h
        rw [filter_node (.text s) (by rintro s' e; cases e; exact Bool.eq_false_iff.2 h), nodesEvents, stripNode]
    | .element n as ms c :: ns => by
      rw [stripNodes, nodesEvents, List.filter_append, filter_nodes ns, filter_node _ (by intro s e; cases e), nodesEvents]
      intro s e; cases e
    | .cdata s :: ns => by
      rw [stripNodes, nodesEvents, List.filter_append, filter_nodes ns, filter_node _ (by intro s e; cases e), nodesEvents]
      intro s e; cases e
    | .instruction n d :: ns => by
      rw [stripNodes, nodesEvents, List.filter_append, filter_nodes ns, filter_node _ (by intro s e; cases e), nodesEvents]
      intro s e; cases e
end

/-- The end of an element or of the document. -/
private def Ends : Event → Prop
  | .endElement _ => True
  | .endDocument => True
  | _ => False

private theorem node_head : ∀ n : XNode, ∃ e r, nodeEvents n = e :: r ∧ ¬ Ends e
  | .element n as ns c => by rw [nodeEvents]; exact ⟨_, _, rfl, id⟩
  | .text s => by
    rw [nodeEvents]
    refine ⟨_, _, rfl, ?_⟩
    split <;> exact id
  | .cdata s => by rw [nodeEvents]; exact ⟨_, _, rfl, id⟩
  | .instruction n d => by rw [nodeEvents]; exact ⟨_, _, rfl, id⟩

mutual
  /-- Nodes are determined by their events. -/
  private theorem node_inj : ∀ (m n : XNode) (r r' : List Event),
      nodeEvents m ++ r = nodeEvents n ++ r' → m = n ∧ r = r'
    | .element m as ms c, n, r, r' => by
      intro h
      cases n with
      | element n bs ns d =>
        rw [nodeEvents, nodeEvents, List.cons_append, List.cons_append, List.append_assoc, List.append_assoc] at h
        obtain ⟨h1, h2⟩ := List.cons.inj h
        cases h1
        obtain ⟨h3, h4⟩ := nodes_inj c d (Event.endElement m) (Event.endElement m) r r' trivial trivial h2
        rw [h3]
        exact ⟨rfl, (List.cons.inj h4).2⟩
      | text s => rw [nodeEvents, nodeEvents] at h; split at h <;> cases h
      | cdata s => rw [nodeEvents, nodeEvents] at h; cases h
      | instruction a b => rw [nodeEvents, nodeEvents] at h; cases h
    | .text s, n, r, r' => by
      intro h
      cases n with
      | text t =>
        rw [nodeEvents, nodeEvents] at h
        split at h <;> split at h <;> cases h <;> exact ⟨rfl, rfl⟩
      | element n bs ns d => rw [nodeEvents, nodeEvents] at h; split at h <;> cases h
      | cdata s => rw [nodeEvents, nodeEvents] at h; split at h <;> cases h
      | instruction a b => rw [nodeEvents, nodeEvents] at h; split at h <;> cases h
    | .cdata s, n, r, r' => by
      intro h
      cases n with
      | text t => rw [nodeEvents, nodeEvents] at h; split at h <;> cases h
      | element n bs ns d => rw [nodeEvents, nodeEvents] at h; cases h
      | cdata s => rw [nodeEvents, nodeEvents] at h; cases h; exact ⟨rfl, rfl⟩
      | instruction a b => rw [nodeEvents, nodeEvents] at h; cases h
    | .instruction i j, n, r, r' => by
      intro h
      cases n with
      | text t => rw [nodeEvents, nodeEvents] at h; split at h <;> cases h
      | element n bs ns d => rw [nodeEvents, nodeEvents] at h; cases h
      | cdata s => rw [nodeEvents, nodeEvents] at h; cases h
      | instruction a b => rw [nodeEvents, nodeEvents] at h; cases h; exact ⟨rfl, rfl⟩
  private theorem nodes_inj : ∀ (ms ns : List XNode) (e e' : Event) (r r' : List Event), Ends e → Ends e' →
      nodesEvents ms ++ e :: r = nodesEvents ns ++ e' :: r' → ms = ns ∧ e :: r = e' :: r'
    | [], [], e, e', r, r' => by
      intro _ _ h
      rw [nodesEvents] at h
      exact ⟨rfl, h⟩
    | [], n :: ns, e, e', r, r' => by
      intro he _ h
      obtain ⟨e1, r1, h1, h2⟩ := node_head n
      rw [nodesEvents, nodesEvents, h1] at h
      exact absurd ((List.cons.inj h).1 ▸ he) h2
    | m :: ms, [], e, e', r, r' => by
      intro _ he h
      obtain ⟨e1, r1, h1, h2⟩ := node_head m
      rw [nodesEvents, nodesEvents, h1] at h
      exact absurd ((List.cons.inj h).1 ▸ he) h2
    | m :: ms, n :: ns, e, e', r, r' => by
      intro he he' h
      rw [nodesEvents, nodesEvents, List.append_assoc, List.append_assoc] at h
      obtain ⟨rfl, h1⟩ := node_inj m n _ _ h
      obtain ⟨rfl, h2⟩ := nodes_inj ms ns e e' r r' he he' h1
      exact ⟨rfl, h2⟩
end

mutual
  private theorem node_full : ∀ (n : XNode), Event.endDocument ∉ nodeEvents n
    | .element n as ns c => by
      have := nodes_full c
      rw [nodeEvents]
      simp [this]
    | .text s => by rw [nodeEvents]; split <;> simp
    | .cdata s => by rw [nodeEvents]; simp
    | .instruction n d => by rw [nodeEvents]; simp
  private theorem nodes_full : ∀ (ns : List XNode), Event.endDocument ∉ nodesEvents ns
    | [] => by rw [nodesEvents]; simp
    | n :: ns => by
      have h1 := node_full n
      have h2 := nodes_full ns
      rw [nodesEvents]
      simp [h1, h2]
end

private theorem document_full (d : Str) (ns : List XNode) : FullStream (documentEvents d ns) := by
  refine ⟨(Event.startDocument d :: nodesEvents ns).map .event, .event .endDocument, ?_, trivial, ?_⟩
  · rw [documentEvents, ← List.cons_append, List.map_append]
    rfl
  · intro y hy
    obtain ⟨e, he, rfl⟩ := List.mem_map.1 hy
    intro hf
    rcases List.mem_cons.1 he with rfl | he
    · exact hf
    · cases e <;> first | exact hf | exact nodes_full ns he

/-- **C85** The texts of two documents pass if and only if they begin with the same declaration and have the same elements with
the same names, attributes, namespaces and content, except for texts which are nothing but white space. -/
theorem C85_documents (d d' : Str) (ns ns' : List XNode) :
    assertXmlEq (documentEvents d ns) (documentEvents d' ns') = .ok () ↔ d = d' ∧ stripNodes ns = stripNodes ns' := by
  rw [C85_streams _ _ (document_full d ns) (document_full d' ns'), same_filter]
  have key : ∀ d ns, withoutWhitespaces (documentEvents d ns) =
      (Event.startDocument d :: (nodesEvents (stripNodes ns) ++ [.endDocument])).map .event := by
    intro d ns
    rw [documentEvents, without_map, List.filter_cons_of_pos rfl, List.filter_append, filter_nodes]
    rfl
  rw [key, key]
  constructor
  · intro h
    have h := List.map_inj_right (fun a b e => by cases e; rfl) |>.1 h
    obtain ⟨h1, h2⟩ := List.cons.inj h
    cases h1
    exact ⟨rfl, (nodes_inj _ _ .endDocument .endDocument [] [] trivial trivial h2).1⟩
  · rintro ⟨rfl, h⟩
    rw [h]

private def plain (n : String) : QName := ⟨none, none, n.toList⟩

/-- Two ways to write a document with an element in another. -/
example : assertXmlEq
    (documentEvents [] [.element (plain "a") [] [] [.text "\n  ".toList, .element (plain "b") [] [] [.text "1 ".toList]]])
    (documentEvents [] [.element (plain "a") [] [] [.element (plain "b") [] [] [.text "1 ".toList], .text "\n".toList]]) = .ok () ∧
    FullStream (documentEvents [] [.element (plain "a") [] [] [.text "\n".toList]]) :=
  ⟨(C85_documents _ _ _ _).2 ⟨rfl, rfl⟩, document_full _ _⟩

/-- **C85** So an element with a text of white space passes for an empty one. -/
theorem C85_blank : ∃ ns ns', ns = [.element (plain "a") [] [] [.text " ".toList]] ∧
    ns' = [.element (plain "a") [] [] []] ∧ assertXmlEq (documentEvents [] ns) (documentEvents [] ns') = .ok () :=
  ⟨_, _, rfl, rfl, (C85_documents _ _ _ _).2 ⟨rfl, rfl⟩⟩

/-- **C85** So texts which are no XML pass, if the first error is the same. -/
theorem C85_malformed (e : Str) : FullStream [.error e] ∧ assertXmlEq [.error e] [.error e] = .ok () := by
  have h : FullStream [.error e] := ⟨[], .error e, rfl, trivial, fun _ h => by cases h⟩
  exact ⟨h, (C85_streams _ _ h h).2 (.both .nil)⟩

end Verif.Props
