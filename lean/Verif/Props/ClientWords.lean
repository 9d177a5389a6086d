import Verif.Props.Client
import Verif.Props.Words

/-! # C100: operations whose names are made of words -/

namespace Verif.Props

open Verif Verif.Model Verif.Model.Wsdl Verif.Spec Verif.Spec.Wsdl Verif.RoXml Verif.Lemmas Verif.Lemmas.Wsdl

private abbrev A := UnicodeTable.ascii

private theorem signature_name {root : Node} {op : Operation} {sig : Sig} (h : Signature root op sig) :
    op.node.attr "name".toList = some sig.name := by
  cases h with
  | oneWay _ _ _ h3 => exact h3
  | requestResponse _ _ _ _ h3 => exact h3

private theorem mem_words {U : UnicodeTable} {ns : List Str} {wss : List (List Str)}
    (h : List.Forall₂ (fun n ws => ∃ v, n = defaultFormatName U v ∧ Worded v ws) ns wss) {n v : Str} {ws : List Str}
    (hn : n = defaultFormatName U v) (hw : Worded v ws) : n ∈ ns ↔ ws ∈ wss := by
  induction h with
  | nil => simp
  | cons a _ ih =>
    obtain ⟨v', rfl, hw'⟩ := a
    rw [List.mem_cons, List.mem_cons, ih, hn, C31_field_styles U v v' _ _ hw hw']

/-- **C100** If the names of the operations are made of words, in any style, then the functions have different names exactly if no two
operations have the same words. -/
theorem C100_functions_iff (U : UnicodeTable) {root : Node} {d : Definitions} (hd : IsDefinitions root d) (ps : List PortType)
    {t : Str} (h : Wsdl.generate U d ps = .ok t) (hs : SafeParts root) (wss : List (List Str))
    (hw : List.Forall₂ (fun op ws => ∃ v, op.node.attr "name".toList = some v ∧ Worded v ws) (ps.flatMap PortType.operations) wss)
    (ls : List Str) (hl : Lines t ls) : ((readFns (.out []) ls).map (·.name)).Nodup ↔ wss.Nodup := by
  have hf := functions_for hd h hs hl
  generalize ps.flatMap PortType.operations = ops at hf hw
  generalize readFns (.out []) ls = fs at hf
  have key : List.Forall₂ (fun n ws => ∃ v, n = defaultFormatName U v ∧ Worded v ws) (fs.map (·.name)) wss := by
    induction hf generalizing wss with
    | nil => cases hw; exact .nil
    | cons a _ ih =>
      cases hw with
      | cons b hw =>
        obtain ⟨sig, h1, h2⟩ := a
        obtain ⟨v, h3, h4⟩ := b
        have e : v = sig.name := Option.some.inj (h3.symm.trans (signature_name h1))
        exact .cons ⟨v, by rw [e]; exact h2.1, h4⟩ (ih _ hw)
  clear hf hw
  generalize fs.map (·.name) = ns at key
  induction key with
  | nil => simp
  | cons a hk ih =>
    obtain ⟨v, h1, h2⟩ := a
    rw [List.nodup_cons, List.nodup_cons]
    exact and_congr (not_congr (mem_words hk h1 h2)) ih

private def order (d : Definitions) : List PortType := d.portTypes.map (·.2)
private def part (n t : String) : Node := el "part" [("name", n), ("element", t)] []
private def message (n : String) (ps : List Node) : Node := el "message" [("name", n)] ps
private def operation (n i : String) : Node := el "operation" [("name", n)] [el "input" [("message", i)] [], el "output" [("message", "Out")] []]

private def service : Node := el "definitions" []
  [message "Out" [part "y" "t:Y"], message "In" [part "x" "t:X"],
   el "portType" [("name", "P")] [operation "GetIt" "In", operation "set-it" "In"]]

private def same : Node := el "definitions" []
  [message "Out" [part "y" "t:Y"], message "In" [part "x" "t:X"],
   el "portType" [("name", "P")] [operation "GetIt" "In", operation "get-it" "In"]]

private theorem short : ∀ w ∈ ["get".toList, "set".toList, "it".toList], LowerWord w ∧ 2 ≤ w.length := by unfold LowerWord; decide
private theorem getIt : Worded "GetIt".toList ["get".toList, "it".toList] :=
  .inr (.mk (v := "Get".toList) (vs := ["It".toList]) (.inr (.mk (by decide))) (.cons (.mk (by decide)) .nil)
    (fun x hx => short x (by revert x; decide)))
private theorem set_it : Worded "set-it".toList ["set".toList, "it".toList] :=
  .inl (.more (s := ['-']) (short "set".toList (by decide)).1 (by decide) (by decide) (.one (short "it".toList (by decide)).1))
private theorem get_it : Worded "get-it".toList ["get".toList, "it".toList] :=
  .inl (.more (s := ['-']) (short "get".toList (by decide)).1 (by decide) (by decide) (.one (short "it".toList (by decide)).1))

/-- Operations of different words, and operations of the same words in different styles. -/
example : (∃ d t, IsDefinitions service d ∧ Wsdl.generate A d (order d) = .ok t ∧ SafeParts service ∧
      ((readFns (.out []) (Str.splitOn '\n' t)).map (·.name)).Nodup ∧
      List.Forall₂ (fun op ws => ∃ v, op.node.attr "name".toList = some v ∧ Worded v ws) ((order d).flatMap PortType.operations)
        [["get".toList, "it".toList], ["set".toList, "it".toList]]) ∧
    ∃ d t, IsDefinitions same d ∧ Wsdl.generate A d (order d) = .ok t ∧ SafeParts same ∧
      ¬ ((readFns (.out []) (Str.splitOn '\n' t)).map (·.name)).Nodup ∧
      List.Forall₂ (fun op ws => ∃ v, op.node.attr "name".toList = some v ∧ Worded v ws) ((order d).flatMap PortType.operations)
        [["get".toList, "it".toList], ["get".toList, "it".toList]] := by
  refine ⟨⟨_, _, (definitions_iff _ _).1 (rfl : Definitions.new service = .ok _), rfl, safeParts_of (by decide +kernel) (by decide +kernel),
    by decide +kernel, .cons ⟨_, rfl, getIt⟩ (.cons ⟨_, rfl, set_it⟩ .nil)⟩,
    _, _, (definitions_iff _ _).1 (rfl : Definitions.new same = .ok _), rfl, safeParts_of (by decide +kernel) (by decide +kernel),
    by decide +kernel, .cons ⟨_, rfl, getIt⟩ (.cons ⟨_, rfl, get_it⟩ .nil)⟩

end Verif.Props
