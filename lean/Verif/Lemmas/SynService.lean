import Verif.Lemmas.SynFn
import Verif.Props.Wsdl

/-! # The code for a service description is Rust -/

namespace Verif.Lemmas.Syn

open Verif Verif.Model Verif.Model.Wsdl Verif.RoXml Verif.Spec Verif.Spec.Syn Verif.Spec.Wsdl Verif.Lemmas Verif.Lemmas.Parse
  Verif.Lemmas.Gen Verif.Lemmas.Wsdl Verif.Lemmas.Service

variable {U : UnicodeTable} {tns : Option Namespace}

abbrev Part (i : List Tok) : Prop := Syn.Item i ∨ AsyncFn i

theorem many_imp {P Q : List Tok → Prop} (h : ∀ t, P t → Q t) {ts : List Tok} (hm : Many P ts) : Many Q ts := by
  induction hm with
  | nil => exact .nil
  | cons h1 _ ih => exact .cons (h _ h1) ih

theorem fnToks_gap (n : Str) (b : List Tok) (ps : List (List Tok)) : ∃ x y, fnToks n b ps [] = x ++ pt "<" :: pt "," :: y := by
  refine ⟨kw "pub" :: kw "async" :: kw "fn" :: .word n :: pt "<" :: kw "T" :: pt ":" :: b ++ pt ">" :: pt "(" :: commas ps ++
    [pt ")", pt "->", kw "Result"], restToks.tail, ?_⟩
  unfold fnToks restToks
  simp only [List.append_assoc, List.cons_append, List.nil_append, List.tail_cons]

/-- The functions for signatures. -/
theorem fns_seg : ∀ {sigs : List Sig}, (∀ sig ∈ sigs, PlainSig sig) → ∃ ts, Seg (sigs.flatMap (functionText U tns)) ts ∧
    ((∀ sig ∈ sigs, sig.ret ≠ none) → Many Part ts) ∧ ((∃ sig ∈ sigs, sig.ret = none) → ∃ a r, ts = a ++ pt "<" :: pt "," :: r)
  | [], _ => ⟨[], Seg.nil, fun _ => .nil, by simp⟩
  | sig :: sigs, h => by
    obtain ⟨ts, h1, h2, h3⟩ := fns_seg (sigs := sigs) fun s hs => h s (by simp [hs])
    obtain ⟨b, ps, r, k1, k2, k3, k4, k5, k6⟩ := fn_seg (U := U) (tns := tns) (h sig (by simp))
    refine ⟨_, by rw [List.flatMap_cons]; exact k6.app h1, fun hr => ?_, ?_⟩
    · refine .cons (.inr ?_) (h2 fun s hs => hr s (by simp [hs]))
      obtain ⟨t, ht⟩ := Option.ne_none_iff_exists'.1 (hr sig (by simp))
      exact fn_async k5 k1 k2 (k4 t ht)
    · rintro ⟨s, hs, hn⟩
      rcases List.mem_cons.1 hs with rfl | hs
      · rw [k3 hn]
        obtain ⟨x, y, e⟩ := fnToks_gap (defaultFormatName U s.name) b ps
        rw [e]
        exact ⟨x, y ++ ts, by simp only [List.append_assoc, List.cons_append]⟩
      · obtain ⟨a, r, rfl⟩ := h3 ⟨s, hs, hn⟩
        exact ⟨_, r, (List.append_assoc _ _ _).symm⟩

/-! ## Signatures -/

variable {root : Node} {d : Definitions}

theorem refers_mem {i m : Node} (h : Refers root i (some m)) : m ∈ kids root "message" := by
  cases h with
  | found _ _ h _ => exact h

theorem partArg_ref {p : Node} {a : Arg} (h : PartArg p a) :
    p.attr "name".toList = some a.1 ∧ ∃ s ∈ ["element", "type"], p.attr s.toList = some a.2 := by
  cases h with
  | element h1 h2 => exact ⟨h1, _, by decide, h2⟩
  | type h1 _ h2 => exact ⟨h1, _, by decide, h2⟩

theorem args_plain (hn : PlainService U root) {i : Node} {m : Option Node} {as : List Arg} (hr : Refers root i m) (h : Args m as) :
    ∀ a ∈ as, LegalIdent a.1 ∧ PlainRef a.2 := by
  cases h with
  | none => intro a ha; cases ha
  | @single m p t h1 h2 =>
    intro a ha
    obtain rfl := List.mem_singleton.1 ha
    exact ⟨legal_of (s := "request".toList) (by decide +kernel), hn.refs m (refers_mem hr) p (by rw [h1]; simp) "element" (by decide) t h2⟩
  | @parts m as h1 h2 =>
    intro a ha
    obtain ⟨p, hp, h⟩ := forall₂_left h2 a ha
    obtain ⟨k1, s, k2, k3⟩ := partArg_ref h
    exact ⟨hn.parts m (refers_mem hr) h1 p hp _ k1, hn.refs m (refers_mem hr) p hp s k2 _ k3⟩

theorem sig_plain (hn : PlainService U root) {op : Operation} {sig : Sig} {p : Node} (hp : p ∈ kids root "portType")
    (ho : op.node ∈ kids p "operation") (h : Signature root op sig) : PlainSig sig := by
  cases h with
  | oneWay h1 h2 h3 h4 h5 => exact ⟨hn.operations p hp _ ho _ h4, args_plain hn h1 h2, by rw [h3]; simp⟩
  | requestResponse h1 h1' h2 h3 h4 h5 =>
    refine ⟨hn.operations p hp _ ho _ h4, args_plain hn h1 h2, fun t ht => ?_⟩
    rw [ht] at h3
    generalize hs : some t = s at h3
    cases h3 with
    | none => cases hs
    | @part m q qs hk => exact hn.refs m (refers_mem h1') q (by rw [hk]; simp) "element" (by decide) t hs.symm

theorem plainRef_ne {v : Str} (h : PlainRef v) : v ≠ [] := by
  rintro rfl
  obtain ⟨o, n, h1, h2, -⟩ := h
  generalize hv : ([] : Str) = v at h1
  cases h1 with
  | bare h =>
    subst hv
    obtain ⟨c, cs, k, -⟩ := h2.2.2.1
    cases k
  | prefixed h => simp at hv

theorem answers_iff (hn : PlainService U root) (hd : IsDefinitions root d) {op : Operation} {sig : Sig} (h : Signature root op sig) :
    Answers root op ↔ sig.ret ≠ none := by
  constructor
  · intro ha
    cases ha with
    | @mk n i o fs m p ps t h1 h2 h3 =>
      cases h with
      | requestResponse k1 k2 k3 k4 k5 k6 =>
        have hs : Signature root ⟨n, .requestResponse i o fs⟩ { sig with ret := some t } :=
          .requestResponse k1 h1 k3 (by show Returns _ (some t); rw [← h3]; exact .part h2) k5 k6
        have := (Props.C50_one_signature hd (.requestResponse k1 k2 k3 k4 k5 k6) hs).2.2.1
        intro e
        rw [e] at this
        exact plainRef_ne (hn.refs m (refers_mem h1) p (by rw [h2]; simp) "element" (by decide) t h3) this.symm
  · intro hr
    cases h with
    | oneWay _ _ h => exact absurd h hr
    | requestResponse k1 k2 k3 k4 k5 k6 =>
      generalize hs : sig.ret = s at k4 hr
      cases k4 with
      | none => exact absurd rfl hr
      | @part m p ps hk =>
        obtain ⟨t, ht⟩ := Option.ne_none_iff_exists'.1 hr
        exact .mk k2 hk ht

/-! ## Embedded schemas -/

theorem schema_has {s : Node} {f : RsFile} {part : Str} (hg : Grammatical s) (hs : CopySafe s) (hn : PlainNames U s)
    (h : parseSchema U s [] = .ok f) (hp : (generateRsFile U f).1 = .ok part) : Has (Many Syn.Item) part := by
  obtain ⟨-, types, groups, h1, -, rfl⟩ := schema_iff.1 h
  have S := supplies (U := U) (tns := targetNamespace s) hg hn
  have hr : ∀ c r, c ∈ Spec.members s → c.tag = "attribute".toList → c.attr "ref".toList = some r →
      (kindsOf (Gen.GenCtx.naming ⟨U, targetNamespace s, xsdNamespace s⟩)).D r :=
    fun c r hc ht hr => by rw [hn.attributes c hc ht] at hr; cases hr
  refine file_has ?_ (fun x hx => ⟨?_, ?_, ?_⟩) hp
  · intro ns hns
    exact hs.namespaces ns (mem_of_target hns)
  · refine copy_safeTexts x (Deep.generatedList (fun e he => ?_) x hx)
    obtain ⟨c, hc, hce⟩ := forall₂_left h1 e he
    exact parseNode_texts (sources_copySafe hs) ((sources_copySafe hs).hered _ .root c (List.mem_filter.1 hc).1)
      ((sources_copySafe hs).mono s .root) no_kids hce
  · refine Deep.generatedList (fun e he => ?_) x hx
    obtain ⟨c, hc, hce⟩ := forall₂_left h1 e he
    have hc := (List.mem_filter.1 hc).1
    obtain ⟨k1, k2⟩ := parseNode_items (placed_grammatical hg) (.child .root hc) .root (fun a ha => absurd ha List.not_mem_nil) hce
    exact item_deep k1 (k2 (global_item hg hc))
  · have : Inn (kindsOf (Gen.GenCtx.naming ⟨U, targetNamespace s, xsdNamespace s⟩)) x ∧
        Own (kindsOf (Gen.GenCtx.naming ⟨U, targetNamespace s, xsdNamespace s⟩)) x := by
      refine Deep.generatedList (P := fun e => Inn _ e ∧ Own _ e) (fun e he => ?_) x hx
      obtain ⟨c, hc, hce⟩ := forall₂_left h1 e he
      have hc := (List.mem_filter.1 hc).1
      exact own_deep (parseNode_inn S (.child .root hc) .root (fun a ha => absurd ha List.not_mem_nil) hce).1
        (global_own hg S hr hc hce)
    exact wellNamed this.1 this.2

/-! ## The document -/

theorem service_client {ord : Definitions → List PortType} {t : Str} (hn : PlainService U root) (hd : IsDefinitions root d)
    (ho : ∀ p ∈ ord d, p ∈ d.portTypes.map (·.2)) (h : wsdlCode U root ord = .ok t) :
    IsClient t ↔ ∀ p ∈ ord d, ∀ op ∈ p.operations, Answers root op := by
  unfold wsdlCode at h
  rw [(definitions_iff root d).2 hd, Res.ok_bind, schemas_code U root d hd] at h
  obtain ⟨code, hc, h⟩ := Res.bind_eq_ok.1 h
  obtain ⟨fns, hf, h⟩ := Res.bind_eq_ok.1 h
  obtain rfl := Res.ok.inj h
  rw [mapM'_ok] at hc
  have hcode : Has (Many Syn.Item) code.flatten := by
    have : ∀ part ∈ code, Has (Many Syn.Item) part := by
      intro part hp
      obtain ⟨s, hs, h⟩ := forall₂_left hc part hp
      obtain ⟨f, h1, h2⟩ := Res.bind_eq_ok.1 h
      obtain ⟨k1, k2, k3⟩ := hn.schemas s hs
      exact schema_has k1 k2 k3 h1 h2
    clear * - this
    induction code with
    | nil => exact Has.nil
    | cons a l ih => rw [List.flatten_cons]; exact (this a (by simp)).app (ih fun p hp => this p (by simp [hp]))
  obtain ⟨cs, c1, c2⟩ := hcode
  obtain ⟨sigs, s1, rfl⟩ := (generate_iff U hd _ _).1 hf
  have hop : ∀ op ∈ (ord d).flatMap PortType.operations, ∃ n ∈ kids root "portType", op.node ∈ kids n "operation" := by
    intro op hop
    obtain ⟨p, hp, hop⟩ := List.mem_flatMap.1 hop
    obtain ⟨n, k1, k2⟩ := entry_mem hd.portTypes (ho p hp)
    obtain ⟨m, k3, k4⟩ := forall₂_left k2.2 op hop
    exact ⟨n, k1, by rw [k4.1]; exact k3⟩
  have hpl : ∀ sig ∈ sigs, PlainSig sig := by
    intro sig hs
    obtain ⟨op, k1, k2⟩ := forall₂_left s1 sig hs
    obtain ⟨n, k3, k4⟩ := hop op k1
    exact sig_plain hn k3 k4 k2
  obtain ⟨ts, t1, t2, t3⟩ := fns_seg (U := U) (tns := targetNamespace root) hpl
  have hseg : Seg ((code ++ [sigs.flatMap (functionText U (targetNamespace root))]).flatten) (cs ++ ts) := by
    refine seg_cast (c1.app t1) ?_ rfl
    simp
  constructor
  · intro hcl p hp op hop'
    have hm : op ∈ (ord d).flatMap PortType.operations := List.mem_flatMap.2 ⟨p, hp, hop'⟩
    obtain ⟨sig, k1, k2⟩ := Parse.forall₂_right s1 op hm
    rw [answers_iff hn hd k2]
    intro e
    obtain ⟨a, r, rfl⟩ := t3 ⟨sig, k1, e⟩
    have := hseg.lexed
    rw [← List.append_assoc] at this
    exact client_no_gap this hcl
  · intro ha
    refine ⟨_, hseg.lexed, many_app (many_imp (fun _ h => .inl h) c2) (t2 fun sig hs => ?_)⟩
    obtain ⟨op, k1, k2⟩ := forall₂_left s1 sig hs
    obtain ⟨p, hp, hop'⟩ := List.mem_flatMap.1 k1
    exact (answers_iff hn hd k2).1 (ha p hp op hop')

end Verif.Lemmas.Syn
