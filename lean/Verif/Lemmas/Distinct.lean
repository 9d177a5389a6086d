import Verif.Spec.Distinct
import Verif.Lemmas.SynNames
import Verif.Lemmas.DocDefs

/-! # Definitions of different names -/

namespace Verif.Lemmas.Dis

open Verif Verif.Model Verif.RoXml Verif.Spec Verif.Spec.Syn Verif.Lemmas.Parse

/-- The names of what is defined in the module of a struct. -/
def innerTops (doc : Option Str → Bool) (s : RStruct) : List Str :=
  (entTops doc s.subtypes ++ s.fields.flatMap fun f => entTops doc f.subtypes).map (·.2)

/-- How type names and module names are made from the names with a property. -/
structure Sep (D : Str → Prop) (tn mn : Str → Str) : Prop where
  type : ∀ {a b}, D a → D b → tn a = tn b → skeleton asciiAlnum a = skeleton asciiAlnum b
  mod : ∀ {a b}, D a → D b → mn a = mn b → skeleton asciiAlnum a = skeleton asciiAlnum b
  both : ∀ {a b}, D a → D b → tn a ≠ mn b

section
variable {D : Str → Prop} {tn mn : Str → Str} {doc : Option Str → Bool}

/-- What is defined under a name in a module. -/
def Region (tn mn : Str → Str) (p : List Str) (n : Str) (k : List Str × Str) : Prop :=
  k = (p, tn n) ∨ k = (p, mn n) ∨ ∃ r, k.1 = p ++ mn n :: r

theorem region_disjoint (S : Sep D tn mn) {p : List Str} {a b : Str} {k : List Str × Str} (ha : D a) (hb : D b)
    (h1 : Region tn mn p a k) (h2 : Region tn mn p b k) : skeleton asciiAlnum a = skeleton asciiAlnum b := by
  have long : ∀ {x : Str} {r : List Str}, p ≠ p ++ x :: r := by
    intro x r h
    have := congrArg List.length h
    simp at this
  rcases h1 with rfl | rfl | ⟨r, h1⟩
  · rcases h2 with h | h | ⟨r', h⟩
    · exact S.type ha hb (Prod.mk.inj h).2
    · exact absurd (Prod.mk.inj h).2 (S.both ha hb)
    · exact absurd h long
  · rcases h2 with h | h | ⟨r', h⟩
    · exact absurd (Prod.mk.inj h).2.symm (S.both hb ha)
    · exact S.mod ha hb (Prod.mk.inj h).2
    · exact absurd h long
  · rcases h2 with rfl | rfl | ⟨r', h⟩
    · exact absurd h1 long
    · exact absurd h1 long
    · rw [h1] at h
      have := List.append_cancel_left h
      exact S.mod ha hb (List.cons.inj this).1

abbrev key (d : List Str × DefKind × Str) : List Str × Str := (d.1, d.2.2)

/-- What is to be known of the structs among the entities. -/
abbrev Scoped (doc : Option Str → Bool) (es : List RsEntity) : Prop := ∀ s, .struct s ∈ es → Unlike (innerTops doc s)

abbrev NamesIn (D : Str → Prop) (es : List RsEntity) : Prop := ∀ x ∈ es, Syn.Own ⟨D, fun _ => True, fun _ => True, fun _ => True⟩ x

theorem unlike_append {a b : List Str} : Unlike (a ++ b) ↔ Unlike a ∧ Unlike b ∧
    ∀ x ∈ a, ∀ y ∈ b, skeleton asciiAlnum x ≠ skeleton asciiAlnum y := List.pairwise_append

theorem unlike_cons {a : Str} {b : List Str} : Unlike (a :: b) ↔ (∀ y ∈ b, skeleton asciiAlnum a ≠ skeleton asciiAlnum y) ∧ Unlike b :=
  List.pairwise_cons

/-- The keys are where the names of definitions say, and there are no two alike. -/
def Keys (D : Str → Prop) (tn mn : Str → Str) (p : List Str) (ns : List Str) (ks : List (List Str × Str)) : Prop :=
  (∀ n ∈ ns, D n) ∧ (∀ k ∈ ks, ∃ n ∈ ns, Region tn mn p n k) ∧ (Unlike ns → ks.Nodup)

theorem Keys.append (S : Sep D tn mn) {p : List Str} {ns ns' : List Str} {ks ks' : List (List Str × Str)} (h : Keys D tn mn p ns ks)
    (h' : Keys D tn mn p ns' ks') : Keys D tn mn p (ns ++ ns') (ks ++ ks') := by
  refine ⟨fun n hn => (List.mem_append.1 hn).elim (h.1 n) (h'.1 n), fun k hk => ?_, fun hu => ?_⟩
  · rcases List.mem_append.1 hk with hk | hk
    · obtain ⟨n, hn, hr⟩ := h.2.1 k hk; exact ⟨n, List.mem_append_left _ hn, hr⟩
    · obtain ⟨n, hn, hr⟩ := h'.2.1 k hk; exact ⟨n, List.mem_append_right _ hn, hr⟩
  · obtain ⟨u1, u2, u3⟩ := unlike_append.1 hu
    refine List.nodup_append.2 ⟨h.2.2 u1, h'.2.2 u2, ?_⟩
    rintro k hk k' hk' rfl
    obtain ⟨n, hn, hr⟩ := h.2.1 k hk
    obtain ⟨n', hn', hr'⟩ := h'.2.1 k hk'
    exact u3 n hn n' hn' (region_disjoint S (h.1 n hn) (h'.1 n' hn') hr hr')

theorem Keys.nil {p : List Str} : Keys D tn mn p [] [] :=
  ⟨fun _ h => absurd h List.not_mem_nil, fun _ h => absurd h List.not_mem_nil, fun _ => List.nodup_nil⟩

theorem Keys.single {p : List Str} {n : Str} (h : D n) : Keys D tn mn p [n] [(p, tn n)] :=
  ⟨fun _ hm => List.mem_singleton.1 hm ▸ h, fun _ hk => ⟨n, List.mem_singleton_self n, .inl (List.mem_singleton.1 hk)⟩,
    fun _ => List.nodup_singleton _⟩

theorem Keys.inside (S : Sep D tn mn) {p : List Str} {n : Str} {ns : List Str} {ks : List (List Str × Str)} (h : D n) (hu : Unlike ns)
    (hk : Keys D tn mn (p ++ [mn n]) ns ks) : Keys D tn mn p [n] ((p, tn n) :: (p, mn n) :: ks) := by
  have hin : ∀ k ∈ ks, ∃ r, k.1 = p ++ mn n :: r := by
    intro k hk'
    obtain ⟨m, -, rfl | rfl | ⟨r, hr⟩⟩ := hk.2.1 k hk'
    · exact ⟨[], rfl⟩
    · exact ⟨[], rfl⟩
    · exact ⟨mn m :: r, by rw [hr]; simp⟩
  have long : ∀ {x : Str}, (p, x) ∉ ks := by
    intro x hx
    obtain ⟨r, hr⟩ := hin _ hx
    have := congrArg List.length hr
    simp at this
  refine ⟨fun m hm => List.mem_singleton.1 hm ▸ h, fun k hk' => ⟨n, List.mem_singleton_self n, ?_⟩, fun _ => ?_⟩
  · rcases List.mem_cons.1 hk' with rfl | hk'
    · exact .inl rfl
    · rcases List.mem_cons.1 hk' with rfl | hk'
      · exact .inr (.inl rfl)
      · exact .inr (.inr (hin k hk'))
  · refine List.nodup_cons.2 ⟨?_, List.nodup_cons.2 ⟨long, hk.2.2 hu⟩⟩
    intro hm
    rcases List.mem_cons.1 hm with e | hm
    · exact S.both h h (Prod.mk.inj e).2
    · exact long hm

mutual
theorem keys_of (S : Sep D tn mn) : ∀ (e : RsEntity) (p : List Str), Scoped doc (generated e) → NamesIn D (generated e) →
    Keys D tn mn p ((entTop doc e).map (·.2)) ((defsOf tn mn doc p e).map key)
  | .struct (.mk n c fs ag ss), p, hs, hn => by
    rw [generated] at hs hn
    rw [entTop, defsOf]
    have hD : D n := hn _ List.mem_cons_self
    by_cases hi : hasInner fs ss = true
    · rw [if_pos hi]
      have h1 := keys_list S ss (p ++ [mn n]) (fun s h => hs s (List.mem_cons_of_mem _ (List.mem_append_left _ h)))
        (fun s h => hn s (List.mem_cons_of_mem _ (List.mem_append_left _ h)))
      have h2 := keys_fields S fs (p ++ [mn n]) (fun s h => hs s (List.mem_cons_of_mem _ (List.mem_append_right _ h)))
        (fun s h => hn s (List.mem_cons_of_mem _ (List.mem_append_right _ h)))
      have hu : Unlike (innerTops doc (.mk n c fs ag ss)) := hs _ List.mem_cons_self
      rw [innerTops, List.map_append] at hu
      have := Keys.inside S hD hu (h1.append S h2)
      simpa using this
    · rw [if_neg hi]
      exact Keys.single hD
  | .tupleStruct (.mk n c t ss m f), p, hs, hn => by
    rw [generated] at hs hn
    rw [entTop, defsOf]
    exact (Keys.single (hn _ List.mem_cons_self)).append S (keys_list S ss p (fun s h => hs s (List.mem_cons_of_mem _ h))
      (fun s h => hn s (List.mem_cons_of_mem _ h)))
  | .enum (.mk n cs c t ss s), p, hs, hn => by
    rw [generated] at hs hn
    rw [entTop, defsOf]
    exact (Keys.single (hn _ List.mem_cons_self)).append S (keys_list S ss p (fun s h => hs s (List.mem_cons_of_mem _ h))
      (fun s h => hn s (List.mem_cons_of_mem _ h)))
  | .alias (.mk n o c s), p, hs, hn => by
    rw [entTop, defsOf]
    have hD : D n := by
      have := hn (.alias (.mk n o c s)) (by rw [generated] <;> simp)
      exact this
    by_cases hc : doc c = true
    · rw [if_pos hc, if_pos hc]; exact Keys.single hD
    · rw [if_neg hc, if_neg hc]; exact Keys.nil
  | .structField f, p, hs, hn => by rw [entTop, defsOf] <;> first | exact Keys.nil | simp
  | .enumCase c, p, hs, hn => by rw [entTop, defsOf] <;> first | exact Keys.nil | simp
  | .import i, p, hs, hn => by rw [entTop, defsOf] <;> first | exact Keys.nil | simp
theorem keys_list (S : Sep D tn mn) : ∀ (es : List RsEntity) (p : List Str), Scoped doc (generatedList es) → NamesIn D (generatedList es) →
    Keys D tn mn p ((entTops doc es).map (·.2)) ((defsList tn mn doc p es).map key)
  | [], p, hs, hn => by rw [entTops, defsList]; exact Keys.nil
  | e :: es, p, hs, hn => by
    rw [generatedList] at hs hn
    rw [entTops, defsList, List.map_append, List.map_append]
    exact (keys_of S e p (fun s h => hs s (List.mem_append_left _ h)) (fun s h => hn s (List.mem_append_left _ h))).append S
      (keys_list S es p (fun s h => hs s (List.mem_append_right _ h)) (fun s h => hn s (List.mem_append_right _ h)))
theorem keys_fields (S : Sep D tn mn) : ∀ (fs : List StructField) (p : List Str), Scoped doc (generatedFields fs) →
    NamesIn D (generatedFields fs) →
    Keys D tn mn p ((fs.flatMap fun f => entTops doc f.subtypes).map (·.2)) ((defsFields tn mn doc p fs).map key)
  | [], p, hs, hn => by rw [defsFields]; exact Keys.nil
  | .mk n t c ss src ms :: fs, p, hs, hn => by
    rw [generatedFields] at hs hn
    rw [defsFields, List.flatMap_cons, List.map_append, List.map_append]
    exact (keys_list S ss p (fun s h => hs s (List.mem_append_left _ h)) (fun s h => hn s (List.mem_append_left _ h))).append S
      (keys_fields S fs p (fun s h => hs s (List.mem_append_right _ h)) (fun s h => hn s (List.mem_append_right _ h)))
end

end

/-! ## Plain names -/

theorem sep_plain {U : UnicodeTable} {tns xsd : Option Namespace} (hx : nsPrefix xsd ≠ none) :
    Sep PlainName (formatTypeName U tns xsd) (defaultFormatName U) := by
  have ht : ∀ {a : Str}, PlainName a → matchBuiltInType a xsd = none := by
    intro a h
    rw [matchBuiltInType, Gen.splitName_iff.2 (.bare h.2.1)]; exact if_pos hx
  have hsk : ∀ {a : Str}, PlainName a → skeleton U.isAlphanumeric a = skeleton asciiAlnum a := by
    intro a h
    unfold skeleton
    rw [List.filter_congr fun c hc => U.alnum_ascii c (h.1 c hc)]
  refine ⟨fun {a b} ha hb h => ?_, fun {a b} ha hb h => ?_, fun {a b} ha hb h => ?_⟩
  · by_contra hne
    refine Props.C31_type_partial U a b ha.2.1 hb.2.1 hne tns ?_
    rw [formatTypeName, formatTypeName, ht ha, ht hb] at h
    exact h
  · by_contra hne
    refine Props.C31_field_partial U a b a b ⟨ha.2.1, .inl rfl⟩ ⟨hb.2.1, .inl rfl⟩ ?_ h
    rwa [hsk ha, hsk hb]
  · obtain ⟨c, cs, h1, h2, -⟩ := Syn.pas_head (U := U) (Syn.PlainName.local ha)
    have h3 : c ∈ formatTypeName U tns xsd a := by
      rw [(Props.C32_qualified U a a none tns xsd (.bare ha.2.1) (ht ha)).1 rfl]
      rcases Gen.sanitize_or U (Syn.pas U a) with e | e <;> rw [e, h1] <;> simp
    rw [h] at h3
    have hal : U.isAlphanumeric c = true := Gen.alnum_of_ascii U (by simp [asciiAlnum, h2])
    have h4 : c ∈ (defaultFormatName U b).filter U.isAlphanumeric := List.mem_filter.2 ⟨h3, hal⟩
    rw [(Props.C30_field_letters U b b ⟨hb.2.1, .inl rfl⟩).1] at h4
    obtain ⟨d, -, rfl⟩ := List.mem_map.1 h4
    rw [Gen.asciiUpper_iff, Gen.toNat_lower] at h2
    split at h2 <;> omega

end Verif.Lemmas.Dis
