import Verif.Props.Digits

/-! # C30: names with acronyms -/

namespace Verif.Props

open Verif Verif.Model Verif.Spec Verif.Lemmas.Gen Verif.Inflector

private theorem upper_of {c : Char} (h : 'A' ≤ c ∧ c ≤ 'Z') : asciiUpper c = true := by
  simp only [asciiUpper, Bool.and_eq_true, decide_eq_true_eq]; exact h

private theorem upper_not_lower (U : UnicodeTable) {c : Char} (h : asciiUpper c = true) : U.isLowercase c = false := by
  rw [U.lower_ascii c (alnum_lt (alnum_of_upper h)), ← Bool.not_eq_true, asciiLower_iff]
  have := asciiUpper_iff.1 h
  omega

private theorem run_tail (U : UnicodeTable) (whole : Str) : ∀ (cs pre rest : Str) (x : Char), whole = pre ++ (cs ++ rest) →
    pre.getLast? = some x → asciiUpper x = true → (∀ c ∈ cs, asciiUpper c = true) → (∀ c, rest.head? = some c → asciiUpper c = true) →
    snakeGo U whole pre.length false (cs ++ rest) = cs.map toAsciiLower ++ snakeGo U whole (pre.length + cs.length) false rest
  | [], _, _, _, _, _, _, _, _ => rfl
  | c :: cs, pre, rest, x, hw, hx, hu, hcs, hr => by
    have hc := hcs c List.mem_cons_self
    have hprev : whole[pre.length - 1]? = some x := by
      rw [hw, List.getElem?_append_left, ← List.getLast?_eq_getElem?, hx]
      cases pre with
      | nil => cases hx
      | cons a as => simp
    have hnext : ∀ d, whole[pre.length + 1]? = some d → asciiUpper d = true := by
      intro d hd
      have e : whole[pre.length + 1]? = (cs ++ rest).head? := by
        rw [hw, List.getElem?_append_right (by omega), List.head?_eq_getElem?, Nat.add_sub_cancel_left]
        rfl
      rw [e] at hd
      cases cs with
      | nil => exact hr d hd
      | cons y ys => cases hd; exact hcs _ (by simp)
    have hn : nextOrPrevLower U whole pre.length = false := by
      rw [nextOrPrevLower, hprev, Option.getD_some, upper_not_lower U hu, Bool.or_false]
      cases hd : whole[pre.length + 1]? with
      | none => exact upper_not_lower U (c := 'A') (by decide)
      | some d => exact upper_not_lower U (hnext d hd)
    rw [List.cons_append, snakeGo]
    simp only [alnum_of_ascii U (alnum_of_upper hc), hn, Bool.not_true, Bool.false_eq_true, if_false, Bool.and_false, utf8Size_alnum (alnum_of_upper hc)]
    have := run_tail U whole cs (pre ++ [c]) rest c (by rw [hw]; simp) (by simp) hc (fun d hd => hcs d (List.mem_cons_of_mem _ hd)) hr
    rw [List.length_append, List.length_singleton] at this
    rw [this, List.map_cons, List.length_cons, List.cons_append, Nat.add_assoc, Nat.add_comm 1]

private theorem styled_head {vs : List Str} (h : ∀ v ∈ vs, CamelWord v ∨ UpperRun v) : ∀ c, vs.flatten.head? = some c → asciiUpper c = true := by
  cases vs with
  | nil => intro c hc; cases hc
  | cons v vs =>
    intro c hc
    rcases h v List.mem_cons_self with ⟨a, b, ds, rfl, h1, -⟩ | ⟨hne, hv⟩
    · cases hc; exact h1
    · cases v with
      | nil => exact absurd rfl hne
      | cons a as => cases hc; exact upper_of (hv _ List.mem_cons_self)

private theorem snake_runs (U : UnicodeTable) (whole : Str) : ∀ (vs : List Str) (pre : Str) (x : Char), (∀ v ∈ vs, CamelWord v ∨ UpperRun v) →
    vs.IsChain (fun a b => UpperRun a → CamelWord b) → whole = pre ++ vs.flatten → pre.getLast? = some x →
    (∀ v, vs.head? = some v → CamelWord v ∨ asciiLower x = true) →
    snakeGo U whole pre.length false vs.flatten = vs.flatMap (fun v => '_' :: v.map toAsciiLower)
  | [], _, _, _, _, _, _, _ => rfl
  | v :: vs, pre, x, h, hch, hw, hx, hh => by
    have ht := fun u hu => h u (List.mem_cons_of_mem _ hu)
    have hcv : ∀ u, vs.head? = some u → UpperRun v → CamelWord u := by
      intro u hu
      cases vs with
      | nil => cases hu
      | cons a as => cases hu; exact (List.isChain_cons_cons.1 hch).1
    have hch' : vs.IsChain (fun a b => UpperRun a → CamelWord b) := hch.tail
    rcases h v List.mem_cons_self with hv | hv
    · obtain ⟨c, d, ds, rfl, hc, hd, hds⟩ := hv
      have hlow : ∀ e ∈ d :: ds, asciiLower e = true := by
        intro e he; rcases List.mem_cons.1 he with rfl | he; exact hd; exact hds e he
      have hnext : nextOrPrevLower U whole pre.length = true := by
        have : whole[pre.length + 1]? = some d := by rw [hw]; simp
        rw [nextOrPrevLower, this, Option.getD_some, U.lower_ascii d (alnum_lt (alnum_of_lower hd)), hd]
        rfl
      cases hl : (d :: ds).getLast? with
      | none => simp at hl
      | some y =>
        have hy := hlow y (List.mem_of_getLast? hl)
        have := snake_runs U whole vs (pre ++ c :: d :: ds) y ht hch' (by rw [hw]; simp)
          (by rw [List.getLast?_append, List.getLast?_cons_cons, hl]; rfl) (fun _ _ => .inr hy)
        have e : (pre ++ c :: d :: ds).length = pre.length + 1 + (d :: ds).length := by simp; omega
        rw [e] at this
        rw [List.flatten_cons, List.cons_append, snakeGo]
        simp only [alnum_of_ascii U (alnum_of_upper hc), Bool.not_true, Bool.false_eq_true, if_false, upper_fix hc, beq_self_eq_true, hnext,
          Bool.not_false, Bool.and_self, if_true]
        rw [snakeGo_lower U whole hlow, utf8Size_alnum (alnum_of_upper hc), this, List.flatMap_cons, List.map_cons, map_lower_fix hlow]
        rfl
    · have hrun := hv
      obtain ⟨hne, hv⟩ := hv
      cases v with
      | nil => exact absurd rfl hne
      | cons c cs =>
        have hc := upper_of (hv c List.mem_cons_self)
        have hcs : ∀ d ∈ cs, asciiUpper d = true := fun d hd => upper_of (hv d (List.mem_cons_of_mem _ hd))
        have hl : asciiLower x = true := by
          rcases hh _ rfl with h | h
          · obtain ⟨a, b, ds, e, -, hb, -⟩ := h
            cases e
            have := asciiUpper_iff.1 (hcs b List.mem_cons_self)
            have := asciiLower_iff.1 hb
            omega
          · exact h
        have hprev : nextOrPrevLower U whole pre.length = true := by
          have : whole[pre.length - 1]? = some x := by
            rw [hw, List.getElem?_append_left, ← List.getLast?_eq_getElem?, hx]
            cases pre with
            | nil => cases hx
            | cons a as => simp
          rw [nextOrPrevLower, this, Option.getD_some, U.lower_ascii x (alnum_lt (alnum_of_lower hl)), hl, Bool.or_true]
        cases hlast : (c :: cs).getLast? with
        | none => simp at hlast
        | some y =>
          have := snake_runs U whole vs (pre ++ c :: cs) y ht hch' (by rw [hw]; simp)
            (by rw [List.getLast?_append, hlast]; rfl) (fun u hu => .inl (hcv u hu hrun))
          have e : (pre ++ c :: cs).length = (pre ++ [c]).length + cs.length := by simp; omega
          have hr := run_tail U whole cs (pre ++ [c]) vs.flatten c (by rw [hw]; simp) (by simp) hc hcs (styled_head ht)
          rw [e] at this
          rw [this, List.length_append, List.length_singleton] at hr
          rw [List.flatten_cons, List.cons_append, snakeGo]
          simp only [alnum_of_ascii U (alnum_of_upper hc), Bool.not_true, Bool.false_eq_true, if_false, upper_fix hc, beq_self_eq_true, hprev,
            Bool.not_false, Bool.and_self, if_true]
          rw [utf8Size_alnum (alnum_of_upper hc), hr, List.flatMap_cons, List.map_cons]
          rfl

private theorem styled_alnum {vs : List Str} (h : ∀ v ∈ vs, CamelWord v ∨ UpperRun v) : ∀ c ∈ vs.flatten, asciiAlnum c = true := by
  intro c hc
  obtain ⟨v, hm, hc⟩ := List.mem_flatten.1 hc
  rcases h v hm with ⟨c0, d, ds, rfl, h1, h2, h3⟩ | ⟨-, hv⟩
  · rcases List.mem_cons.1 hc with rfl | hc
    · exact alnum_of_upper h1
    · rcases List.mem_cons.1 hc with rfl | hc
      · exact alnum_of_lower h2
      · exact alnum_of_lower (h3 _ hc)
  · exact alnum_of_upper (upper_of (hv c hc))

/-- **C30** A name of words with capital letters and acronyms (several capital letters, or a single one; no two acronyms one after the other)
becomes the words and acronyms in lower case with underscores between them (and is sanitized). -/
theorem C30_field_acronyms (U : UnicodeTable) (v : Str) (vs : List Str) (h : ∀ x ∈ v :: vs, CamelWord x ∨ UpperRun x)
    (hch : (v :: vs).IsChain (fun a b => UpperRun a → CamelWord b)) :
    defaultFormatName U (v :: vs).flatten = sanitize U (v.map toAsciiLower ++ vs.flatMap (fun x => '_' :: x.map toAsciiLower)) := by
  have hal := styled_alnum h
  have htrim : trimRight U (v :: vs).flatten = (v :: vs).flatten := by
    cases hl : (v :: vs).flatten.getLast? with
    | none => rw [List.getLast?_eq_none_iff.1 hl]; rfl
    | some c => exact trimRight_id U hl (alnum_of_ascii U (hal c (List.mem_of_getLast? hl)))
  rw [defaultFormatName, lastSegment_iff.2 ⟨fun hc => absurd (hal _ hc) (by decide), .inl rfl⟩, toSnakeCase, htrim]
  congr 1
  have ht := fun u hu => h u (List.mem_cons_of_mem _ hu)
  have hcv : ∀ u, vs.head? = some u → UpperRun v → CamelWord u := by
    intro u hu
    cases vs with
    | nil => cases hu
    | cons a as => cases hu; exact (List.isChain_cons_cons.1 hch).1
  have hvne : ∃ c cs, v = c :: cs ∧ asciiUpper c = true := by
    rcases h v List.mem_cons_self with ⟨c, d, ds, rfl, h1, -⟩ | ⟨hne, hv⟩
    · exact ⟨_, _, rfl, h1⟩
    · cases v with
      | nil => exact absurd rfl hne
      | cons c cs => exact ⟨c, cs, rfl, upper_of (hv c List.mem_cons_self)⟩
  obtain ⟨c, cs, rfl, hc⟩ := hvne
  generalize hwh : ((c :: cs) :: vs).flatten = whole
  have hw : whole = (c :: cs) ++ vs.flatten := by rw [← hwh]; simp
  have hw1 : whole = c :: (cs ++ vs.flatten) := by rw [hw]; rfl
  have start : snakeGo U whole 0 true whole = toAsciiLower c :: snakeGo U whole 1 false (cs ++ vs.flatten) := by
    conv_lhs => rw [hw1]
    rw [snakeGo]
    simp only [alnum_of_ascii U (alnum_of_upper hc), Bool.not_true, Bool.false_eq_true, if_false, Bool.false_and]
    rw [← hw1, utf8Size_alnum (alnum_of_upper hc)]
  cases hlast : (c :: cs).getLast? with
  | none => simp at hlast
  | some y =>
    have rest : (∀ u, vs.head? = some u → CamelWord u ∨ asciiLower y = true) →
        snakeGo U whole (1 + cs.length) false vs.flatten = vs.flatMap (fun x => '_' :: x.map toAsciiLower) := by
      intro hy
      have := snake_runs U whole vs (c :: cs) y ht hch.tail hw hlast hy
      rwa [List.length_cons, Nat.add_comm] at this
    rw [start, List.map_cons, List.cons_append]
    congr 1
    rcases h (c :: cs) List.mem_cons_self with ⟨c', d, ds, e, -, hd, hds⟩ | hv
    · cases e
      have hlow : ∀ e ∈ d :: ds, asciiLower e = true := by
        intro e he; rcases List.mem_cons.1 he with rfl | he; exact hd; exact hds e he
      have hy : asciiLower y = true := hlow y (List.mem_of_getLast? (by rwa [List.getLast?_cons_cons] at hlast))
      rw [snakeGo_lower U whole hlow, rest (fun _ _ => .inr hy), map_lower_fix hlow]
    · have := run_tail U whole cs [c] vs.flatten c (by rw [hw]; simp) rfl hc (fun d hd => upper_of (hv.2 d (List.mem_cons_of_mem _ hd))) (styled_head ht)
      rw [List.length_singleton] at this
      rw [this, rest (fun u hu => .inl (hcv u hu hv))]

/-- **C30** (finding) The name of the type loses the words of such a name: the word after an acronym has no capital letter. -/
theorem C30_acronyms_violated (U : UnicodeTable) : defaultFormatType U "XMLFile".toList none = "Xmlfile".toList ∧
    defaultFormatName U "XMLFile".toList = "xml_file".toList := by
  constructor
  · rw [defaultFormatType_ascii U (by decide)]; decide +kernel
  · have hx : UpperRun "XML".toList := by unfold UpperRun; decide
    have hf : CamelWord "File".toList := ⟨'F', 'i', "le".toList, rfl, by decide, by decide, by decide⟩
    have := C30_field_acronyms U "XML".toList ["File".toList]
      (fun x h => by
        rcases List.mem_cons.1 h with rfl | h
        · exact .inr hx
        · obtain rfl := List.mem_singleton.1 h; exact .inl hf) (List.isChain_cons_cons.2 ⟨fun _ => hf, .singleton _⟩)
    rw [show "XMLFile".toList = ["XML".toList, "File".toList].flatten from by decide, this, sanitize_ascii U (by decide)]
    decide +kernel

example : UpperRun "ID".toList ∧ CamelWord "User".toList ∧ ∀ U, defaultFormatName U "UserID".toList = sanitize U "user_id".toList := by
  have h1 : UpperRun "ID".toList := by unfold UpperRun; decide
  have h2 : CamelWord "User".toList := ⟨'U', 's', "er".toList, rfl, by decide, by decide, by decide⟩
  refine ⟨h1, h2, fun U => ?_⟩
  exact C30_field_acronyms U "User".toList ["ID".toList]
    (fun x h => by
      rcases List.mem_cons.1 h with rfl | h
      · exact .inl h2
      · obtain rfl := List.mem_singleton.1 h; exact .inr h1)
    (List.isChain_cons_cons.2 ⟨fun h => absurd (h.2 's' (by decide)).2 (by decide), .singleton _⟩)

end Verif.Props
