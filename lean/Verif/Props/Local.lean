import Verif.Lemmas.Local
import Verif.Props.Sample

/-! # C89, C90: what the code for a declaration depends on, and what the order of the declarations means -/

namespace Verif.Props

open Verif Verif.Model Verif.Spec Verif.RoXml Verif.Lemmas Verif.Lemmas.Parse Verif.Lemmas.Local

/-- **C89**: let `b` be the schema `a` without the declaration `d`, and let no declaration of `b` derive from the name of
`d` or refer to an attribute group of this name.  Then the code for `a` is that for `b` with one piece put in; if `d` is an
attribute group, then it is that for `b`. -/
theorem C89_locality (U : UnicodeTable) {d a b : Node} (hd : Is d declarationTags) (h : Without d a b)
    (hb : ∀ n at', PartOf b n → at' ∈ ["name", "ref"] → n.attr at'.toList ≠ some "__base__".toList)
    (hm : ∀ nm, Provides d nm → ∀ c ∈ members b, ¬ DependsOn c nm) {t : Str} (hc : convertXsd U a = .ok t) :
    ∃ x y z, t = x ++ y ++ z ∧ convertXsd U b = .ok (x ++ z) ∧ (d.tag = "attributeGroup".toList → y = []) := by
  obtain ⟨ts, h1, rfl⟩ := convert_pieces.1 hc
  obtain ⟨cs, h⟩ := without_at h
  rcases pieces_without hd h hb hm h1 with ⟨-, h2⟩ | ⟨h3, xs, y, zs, rfl, h2, -⟩
  · exact ⟨ts.flatten, [], [], by simp, convert_pieces.2 ⟨_, h2, by simp⟩, fun _ => rfl⟩
  · exact ⟨xs.flatten, y, zs.flatten, by simp, convert_pieces.2 ⟨_, h2, by simp⟩, fun h => absurd h h3⟩

/-- **C89**: with another declaration in place of `d`, and none which depends on either of them, only one piece of the code
changes. -/
theorem C89_replace (U : UnicodeTable) {u as ns} {cs ds : List Node} {d d' : Node} (hd : Is d declarationTags)
    (hd' : Is d' declarationTags)
    (hb : ∀ n at', PartOf (.element u "schema".toList as ns (cs ++ ds)) n → at' ∈ ["name", "ref"] →
      n.attr at'.toList ≠ some "__base__".toList)
    (hm : ∀ nm, Provides d nm ∨ Provides d' nm → ∀ c ∈ cs ++ ds, ¬ DependsOn c nm) {t t' : Str}
    (hc : convertXsd U (.element u "schema".toList as ns (cs ++ d :: ds)) = .ok t)
    (hc' : convertXsd U (.element u "schema".toList as ns (cs ++ d' :: ds)) = .ok t') :
    ∃ x y y' z, t = x ++ y ++ z ∧ t' = x ++ y' ++ z := by
  obtain ⟨ts, h1, rfl⟩ := convert_pieces.1 hc
  obtain ⟨ts', h1', rfl⟩ := convert_pieces.1 hc'
  have hm' : ∀ nm, Provides d nm ∨ Provides d' nm → ∀ c ∈ members (.element u "schema".toList as ns (cs ++ ds)), ¬ DependsOn c nm :=
    fun nm h c hc => hm nm h c (mem_members.1 hc).1
  have k := pieces_without hd (.mk (cs := cs) (ds := ds)) hb (fun nm h => hm' nm (.inl h)) h1
  have k' := pieces_without hd' (.mk (cs := cs) (ds := ds)) hb (fun nm h => hm' nm (.inr h)) h1'
  rcases k with ⟨-, k⟩ | ⟨-, xs, y, zs, rfl, k, hl⟩ <;> rcases k' with ⟨-, k'⟩ | ⟨-, xs', y', zs', rfl, k', hl'⟩
  · obtain rfl := Res.ok.inj (k.symm.trans k')
    exact ⟨ts.flatten, [], [], [], by simp, by simp⟩
  · obtain rfl := Res.ok.inj (k.symm.trans k')
    exact ⟨xs'.flatten, [], y', zs'.flatten, by simp, by simp⟩
  · obtain rfl := Res.ok.inj (k.symm.trans k')
    exact ⟨xs.flatten, y, [], zs.flatten, by simp, by simp⟩
  · obtain ⟨rfl, rfl⟩ := List.append_inj (Res.ok.inj (k.symm.trans k')) (hl.trans hl'.symm)
    exact ⟨xs.flatten, y, y', zs.flatten, by simp, by simp⟩

/-- **C89**: with declarations removed one after the other on which none of the others depends, some pieces of the code go
away, and nothing else changes. -/
theorem C89_prune (U : UnicodeTable) {a b : Node} (h : Pruned a b)
    (hb : ∀ n at', PartOf a n → at' ∈ ["name", "ref"] → n.attr at'.toList ≠ some "__base__".toList)
    {t : Str} (ht : convertXsd U a = .ok t) : ∃ ps qs : List Str, qs.Sublist ps ∧ t = ps.flatten ∧ convertXsd U b = .ok qs.flatten := by
  obtain ⟨ts, h1, rfl⟩ := convert_pieces.1 ht
  obtain ⟨ts', h2, h3⟩ := pieces_pruned h hb h1
  exact ⟨ts, ts', h3, rfl, convert_pieces.2 ⟨_, h2, rfl⟩⟩

/-- **C90**: with two neighbours exchanged which do not depend on each other, the code has the same pieces, two of them
exchanged; it is the same if one of the two is an attribute group. -/
theorem C90_exchange (U : UnicodeTable) {c d a b : Node} (hc : Is c declarationTags) (hd : Is d declarationTags)
    (hi : Independent c d) (h : Exchanged c d a b)
    (hb : ∀ n at', PartOf a n → at' ∈ ["name", "ref"] → n.attr at'.toList ≠ some "__base__".toList)
    {t : Str} (ht : convertXsd U a = .ok t) : ∃ x u v z, t = x ++ u ++ v ++ z ∧ convertXsd U b = .ok (x ++ v ++ u ++ z) ∧
      (c.tag = "attributeGroup".toList ∨ d.tag = "attributeGroup".toList → u = [] ∧ v = []) := by
  obtain ⟨ts, h1, rfl⟩ := convert_pieces.1 ht
  rcases pieces_exchanged hc hd hi h hb h1 with ⟨xs, u, v, zs, rfl, h2, h3, h4⟩ | ⟨h2, h3⟩
  · refine ⟨xs.flatten, u, v, zs.flatten, by simp, convert_pieces.2 ⟨_, h2, by simp⟩, ?_⟩
    rintro (h | h)
    · exact absurd h h3
    · exact absurd h h4
  · exact ⟨ts.flatten, [], [], [], by simp, convert_pieces.2 ⟨_, h2, by simp⟩, fun _ => ⟨rfl, rfl⟩⟩

/-- **C90**: with the declarations in another order, where those which depend on each other keep their order, the code has
the same pieces in another order. -/
theorem C90_order (U : UnicodeTable) {a b : Node} (h : Reordered a b)
    (hb : ∀ n at', PartOf a n → at' ∈ ["name", "ref"] → n.attr at'.toList ≠ some "__base__".toList)
    {t : Str} (ht : convertXsd U a = .ok t) : ∃ ps qs : List Str, ps.Perm qs ∧ t = ps.flatten ∧ convertXsd U b = .ok qs.flatten := by
  obtain ⟨ts, h1, rfl⟩ := convert_pieces.1 ht
  obtain ⟨ts', h2, h3⟩ := pieces_reordered h hb h1
  exact ⟨ts, ts', h3, rfl, convert_pieces.2 ⟨_, h2, rfl⟩⟩

/-! ## A document -/

open Verif.Props.Sample

private theorem not_depends {b : Node} {nm : Str}
    (h1 : ∀ n ∈ elements b, ∀ v ∈ (n.attr "base".toList).toList, lastSegment v ≠ nm)
    (h2 : ∀ n ∈ elements b, n.tag = "attributeGroup".toList → ∀ v ∈ (n.attr "ref".toList).toList, lastSegment v ≠ nm) :
    ∀ c ∈ members b, ¬ DependsOn c nm := by
  rintro c hc ⟨n, v, hn, hv, hk⟩
  have hn := partOf_elements (PartOf.trans (.child .root hc) hn)
  have hk := Verif.Lemmas.Gen.lastSegment_iff.2 hk
  rcases hv with hv | ⟨ht, hv⟩
  · exact h1 n hn v (Option.mem_toList.2 hv) hk
  · exact h2 n hn ht v (Option.mem_toList.2 hv) hk

private theorem no_marker {b : Node}
    (h : ∀ n ∈ elements b, ∀ a ∈ ["name", "ref"], n.attr a.toList ≠ some "__base__".toList) :
    ∀ n at', PartOf b n → at' ∈ ["name", "ref"] → n.attr at'.toList ≠ some "__base__".toList :=
  fun n a hn ha => h n (partOf_elements hn) a ha

private def animal : Node := el "complexType" [("name", "Animal")]
  [el "sequence" [] [el "element" [("name", "kind"), ("type", "xs:string")] []]]

private def dog : Node := el "complexType" [("name", "Dog")] [el "complexContent" [] [el "extension" [("base", "tns:Animal")]
  [el "sequence" [] [el "element" [("name", "owner"), ("type", "tns:Person")] []]]]]

private def person : Node := el "complexType" [("name", "Person")]
  [el "sequence" [] [el "element" [("name", "pet"), ("type", "tns:Dog")] []]]

/-- A type may refer to the declaration left out: only derivation counts. -/
example : ∃ t x y z, convertXsd A (doc ([animal] ++ person :: [dog])) = .ok t ∧ t = x ++ y ++ z ∧
    convertXsd A (doc ([animal] ++ [dog])) = .ok (x ++ z) ∧ y ≠ [] := by
  obtain ⟨t, ht⟩ := ok_of (r := convertXsd A (doc ([animal] ++ person :: [dog]))) (by decide +kernel)
  obtain ⟨x, y, z, h1, h2, -⟩ := C89_locality A (d := person) (b := doc ([animal] ++ [dog])) (by decide) .mk
    (no_marker (by decide +kernel)) (fun nm hn => by
      obtain rfl : "Person".toList = nm := Option.some.inj hn.1
      exact not_depends (by decide +kernel) (by decide +kernel)) ht
  refine ⟨t, x, y, z, ht, h1, h2, fun hy => ?_⟩
  subst hy
  rw [List.append_nil] at h1
  subst h1
  exact absurd (congrArg okText (ht.trans h2.symm)) (by decide +kernel)

private def company : Node := el "complexType" [("name", "Company")]
  [el "sequence" [] [el "element" [("name", "guard"), ("type", "tns:Dog")] [], el "element" [("name", "site"), ("type", "xs:string")] []]]

/-- Another declaration in place of `Person`. -/
example : ∃ t t' x y y' z, convertXsd A (doc ([animal] ++ person :: [dog])) = .ok t ∧
    convertXsd A (doc ([animal] ++ company :: [dog])) = .ok t' ∧ t ≠ t' ∧ t = x ++ y ++ z ∧ t' = x ++ y' ++ z := by
  obtain ⟨t, ht⟩ := ok_of (r := convertXsd A (doc ([animal] ++ person :: [dog]))) (by decide +kernel)
  obtain ⟨t', ht'⟩ := ok_of (r := convertXsd A (doc ([animal] ++ company :: [dog]))) (by decide +kernel)
  obtain ⟨x, y, y', z, h1, h2⟩ := C89_replace A (cs := [animal]) (ds := [dog]) (d := person) (d' := company) (by decide) (by decide)
    (no_marker (by decide +kernel)) (fun nm hn c hc => by
      have hc' : c ∈ members (doc ([animal] ++ [dog])) := hc
      rcases hn with hn | hn
      · obtain rfl : "Person".toList = nm := Option.some.inj hn.1
        exact not_depends (by decide +kernel) (by decide +kernel) c hc'
      · obtain rfl : "Company".toList = nm := Option.some.inj hn.1
        exact not_depends (by decide +kernel) (by decide +kernel) c hc') ht ht'
  refine ⟨t, t', x, y, y', z, ht, ht', fun he => ?_, h1, h2⟩
  subst he
  exact absurd (congrArg okText (ht.trans ht'.symm)) (by decide +kernel)

/-- First the derived type goes, and then its base. -/
example : Pruned (doc [animal, person, dog]) (doc [person]) ∧ ∃ t, convertXsd A (doc [animal, person, dog]) = .ok t ∧
    ∀ n at', PartOf (doc [animal, person, dog]) n → at' ∈ ["name", "ref"] → n.attr at'.toList ≠ some "__base__".toList :=
  ⟨.step (b := doc [animal, person]) (.step .refl (d := dog) (by decide) (.mk (cs := [animal, person]) (ds := [])) (fun nm hn => by
      obtain rfl : "Dog".toList = nm := Option.some.inj hn.1
      exact not_depends (by decide +kernel) (by decide +kernel))) (d := animal) (by decide) (.mk (cs := []) (ds := [person]))
      (fun nm hn => by
        obtain rfl : "Animal".toList = nm := Option.some.inj hn.1
        exact not_depends (by decide +kernel) (by decide +kernel)),
   (ok_of (by decide +kernel)).imp fun _ h => ⟨h, no_marker (by decide +kernel)⟩⟩

private def herd : Node := el "element" [("name", "Animal")] [el "complexType" []
  [el "sequence" [] [el "element" [("name", "size"), ("type", "xs:int")] []]]]

/-- **C89**: elements and types share their names: with an element of the name of the base, the derived type loses what it
inherits. -/
theorem C89_element_violated : ¬ ∀ (cs ds : List Node) (d : Node), d.tag = "element".toList →
    ∀ t t', convertXsd A (doc (cs ++ d :: ds)) = .ok t → convertXsd A (doc (cs ++ ds)) = .ok t' →
      ∃ x y z, t = x ++ y ++ z ∧ t' = x ++ z := by
  intro h
  obtain ⟨x, y, z, h1, h2⟩ := h [animal, dog] [] herd rfl _ _ (okText_eq (by decide +kernel)) (okText_eq (by decide +kernel))
  have h3 : (okText (convertXsd A (doc ([animal, dog] ++ [])))).count 'k' ≤
      (okText (convertXsd A (doc ([animal, dog] ++ herd :: [])))).count 'k' := by
    rw [h1, h2, List.count_append, List.count_append, List.count_append]
    omega
  revert h3
  decide +kernel

private theorem independent_of {c d : Node} (h1 : c.attr "name".toList ≠ d.attr "name".toList)
    (h2 : ∀ p ∈ [(c, d), (d, c)], ∀ n ∈ elements p.1,
      (∀ v ∈ (n.attr "base".toList).toList, some (lastSegment v) ≠ p.2.attr "name".toList) ∧
      (n.tag = "attributeGroup".toList → ∀ v ∈ (n.attr "ref".toList).toList, some (lastSegment v) ≠ p.2.attr "name".toList)) :
    Independent c d := by
  have hdep : ∀ p ∈ [(c, d), (d, c)], ∀ key, Provides p.2 key → ¬ DependsOn p.1 key := by
    rintro p hp key hk ⟨n, v, hn, hv, hl⟩
    have hl := Gen.lastSegment_iff.2 hl
    obtain ⟨h3, h4⟩ := h2 p hp n (partOf_elements hn)
    rcases hv with hv | ⟨ht, hv⟩
    · exact h3 v (Option.mem_toList.2 hv) (by rw [hl, hk.1])
    · exact h4 ht v (Option.mem_toList.2 hv) (by rw [hl, hk.1])
  exact fun key => ⟨fun hk => ⟨fun hk' => h1 (hk.1.trans hk'.1.symm), hdep (d, c) (by simp) key hk⟩,
    hdep (c, d) (by simp) key⟩

/-- The type `Person` goes to the end. -/
example : Reordered (doc [person, animal, dog]) (doc [animal, dog, person]) ∧ ∃ t, convertXsd A (doc [person, animal, dog]) = .ok t ∧
    ∀ n at', PartOf (doc [person, animal, dog]) n → at' ∈ ["name", "ref"] → n.attr at'.toList ≠ some "__base__".toList :=
  ⟨.step (.step .refl (by decide) (by decide) (independent_of (by decide +kernel) (by decide +kernel)) (.mk (cs := []) (ds := [dog])))
    (by decide) (by decide) (independent_of (by decide +kernel) (by decide +kernel)) (.mk (cs := [animal]) (ds := [])),
   (ok_of (by decide +kernel)).imp fun _ h => ⟨h, no_marker (by decide +kernel)⟩⟩

private def cat : Node := el "complexType" [("name", "Cat")] [el "complexContent" [] [el "extension" [("base", "tns:Dog")] []]]

/-- **C90**: a type and its base cannot be exchanged: a base which comes later is taken without what it inherits itself. -/
theorem C90_base_violated : ¬ ∀ (cs ds : List Node) (c d : Node) (t t' : Str), convertXsd A (doc (cs ++ c :: d :: ds)) = .ok t →
    convertXsd A (doc (cs ++ d :: c :: ds)) = .ok t' → ∃ x u v z, t = x ++ u ++ v ++ z ∧ t' = x ++ v ++ u ++ z := by
  intro h
  obtain ⟨x, u, v, z, h1, h2⟩ := h [animal] [] dog cat _ _ (okText_eq (by decide +kernel)) (okText_eq (by decide +kernel))
  have h3 : (okText (convertXsd A (doc ([animal] ++ cat :: dog :: [])))).count 'k' =
      (okText (convertXsd A (doc ([animal] ++ dog :: cat :: [])))).count 'k' := by
    rw [h1, h2]
    simp only [List.count_append]
    omega
  revert h3
  decide +kernel

end Verif.Props
