import Verif.Spec.Prints
import Verif.Props.Values
import Verif.Props.Writes

/-! # Lemmas about what the generated types write -/

namespace Verif.Lemmas.Prt

open Verif Verif.Model Verif.Spec Verif.Lemmas Verif.Lemmas.Val Verif.Props RoXml

/-! ## Literals are single words -/

private def litChars : Str := "0123456789+-.:TZPYMDHSeENaINFtrufals".toList

private def Lit (s : Str) : Prop := ∀ c ∈ s, c ∈ litChars

private theorem lit_nil : Lit [] := by intro c h; cases h
private theorem lit_app {a b : Str} (ha : Lit a) (hb : Lit b) : Lit (a ++ b) := by
  intro c h
  rcases List.mem_append.1 h with h | h
  · exact ha c h
  · exact hb c h
private theorem lit_cons {c : Char} {b : Str} (ha : c ∈ litChars) (hb : Lit b) : Lit (c :: b) :=
  lit_app (a := [c]) (by intro d h; rw [List.mem_singleton.1 h]; exact ha) hb
private theorem lit_digit {d : Nat} (h : d < 10) : digit d ∈ litChars := by
  have : ∀ d < 10, digit d ∈ litChars := by decide
  exact this d h
private theorem lit_dtext {ds : List Nat} (h : Digits ds) : Lit (dtext ds) := by
  intro c hc
  obtain ⟨d, hd, rfl⟩ := List.mem_map.1 hc
  exact lit_digit (h d hd)
private theorem lit_two {n : Nat} (h : n < 100) : Lit (two n) :=
  lit_cons (lit_digit (by omega)) (lit_cons (lit_digit (by omega)) lit_nil)
private theorem lit_sign (sg : Sign) : Lit sg.text := by cases sg <;> (unfold Lit Sign.text litChars; decide)
private theorem lit_durSign (b : Bool) : Lit (durSign b) := by cases b <;> (unfold Lit durSign litChars; decide)
private theorem lit_tz {t : Str} {o : Int} (h : TzText t o) : Lit t := by
  cases h with
  | zulu => unfold Lit litChars; decide
  | east h m h1 h2 => exact lit_cons (by decide) (lit_app (lit_two (by omega)) (lit_cons (by decide) (lit_two (by omega))))
  | west h m h1 h2 => exact lit_cons (by decide) (lit_app (lit_two (by omega)) (lit_cons (by decide) (lit_two (by omega))))
private theorem lit_optTz {t : Str} {o : Option Int} (h : OptTz t o) : Lit t := by
  cases h with
  | none => exact lit_nil
  | some h => exact lit_tz h
private theorem lit_year {neg : Bool} {s : Str} {y : Int} (h : XsdYear neg s y) : Lit s ∧ s ≠ [] := by
  obtain ⟨ds, h1, h2, -, rfl, -⟩ := h
  refine ⟨lit_app (lit_durSign _) (lit_dtext h1), ?_⟩
  intro e
  have e := (List.append_eq_nil_iff.1 e).2
  rw [dtext, List.map_eq_nil_iff] at e
  rw [e] at h2
  exact absurd h2 (by decide)
private theorem lit_second {t : Str} {n : Nat} {fs : List Nat} (h : SecondText t n fs) (hn : n < 60) : Lit t := by
  cases h with
  | whole => exact lit_two (by omega)
  | fraction h => exact lit_app (lit_two (by omega)) (lit_cons (by decide) (lit_dtext h.2))
private theorem lit_time {s : Str} {h m n : Nat} {fs : List Nat} (ht : XsdTime s h m n fs) : Lit s ∧ s ≠ [] := by
  obtain ⟨t, h1, h2, h3, h4, rfl⟩ := ht
  have : h < 100 := by omega
  refine ⟨lit_app (lit_app (lit_app (lit_app (lit_two this) ?_) (lit_two (by omega))) ?_) (lit_second h4 h3), ?_⟩
  · unfold Lit litChars; decide
  · unfold Lit litChars; decide
  · simp [two]
private theorem validDate_lt {y : Int} {m d : Nat} (h : ValidDate y m d) : m < 100 ∧ d < 100 := by
  obtain ⟨-, h2, -, h4, -⟩ := h
  refine ⟨by omega, ?_⟩
  have : maxDay m ≤ 31 := by unfold maxDay; split_ifs <;> omega
  omega
private theorem lit_day {neg : Bool} {s : Str} {y : Int} {m d : Nat} (h : XsdDay neg s y m d) : Lit s ∧ s ≠ [] := by
  obtain ⟨ys, h1, h2, rfl⟩ := h
  obtain ⟨h3, h4⟩ := validDate_lt h2
  refine ⟨lit_app (lit_app (lit_app (lit_app (lit_year h1).1 ?_) (lit_two h3)) ?_) (lit_two h4), ?_⟩
  · unfold Lit litChars; decide
  · unfold Lit litChars; decide
  · simp [two]
private theorem lit_comp {c : Char} {o : Option (List Nat)} (hc : c ∈ litChars) (h : ∀ ds, o = some ds → Digits1 ds) :
    Lit (compText c o) := by
  cases o with
  | none => exact lit_nil
  | some ds => exact lit_app (lit_dtext (h ds rfl).2) (lit_cons hc lit_nil)
private theorem lit_sec {o : Option (List Nat × Option (List Nat))} (h1 : ∀ ds f, o = some (ds, f) → Digits1 ds)
    (h2 : ∀ ds fs, o = some (ds, some fs) → Digits1 fs) : Lit (secText o) := by
  match o with
  | none => exact lit_nil
  | some (ds, none) => exact lit_app (lit_dtext (h1 ds _ rfl).2) (lit_cons (by decide) lit_nil)
  | some (ds, some fs) =>
    exact lit_app (lit_app (lit_dtext (h1 ds _ rfl).2) (lit_cons (by decide) (lit_dtext (h2 ds fs rfl).2))) (lit_cons (by decide) lit_nil)
private theorem lit_duration {s : Str} {x : DurParts} (h : XsdDuration s x) : Lit s ∧ s ≠ [] := by
  obtain ⟨⟨h1, h2, h3, h4, h5, h6, h7⟩, -, rfl⟩ := h
  have ht : Lit x.timeText := lit_app (lit_app (lit_comp (by decide) h4) (lit_comp (by decide) h5)) (lit_sec h6 h7)
  refine ⟨lit_app (lit_durSign _) (lit_cons (by decide) (lit_app
    (lit_app (lit_app (lit_comp (by decide) h1) (lit_comp (by decide) h2)) (lit_comp (by decide) h3)) ?_)), by simp [DurParts.text]⟩
  split
  · exact lit_nil
  · exact lit_cons (by decide) ht
private theorem lit_dec {s : Str} {sg : Sign} {ds fs : List Nat} (h : XsdDec s sg ds fs) : Lit s ∧ s ≠ [] := by
  cases h with
  | whole h => exact ⟨lit_app (lit_sign _) (lit_dtext h.2), by simp [dtext, h.1]⟩
  | point h1 h2 h3 => exact ⟨lit_app (lit_app (lit_sign _) (lit_dtext h1)) (lit_cons (by decide) (lit_dtext h2)), by simp⟩
private theorem lit_float {s : Str} {x : XFloat} (h : FloatText s x) : Lit s ∧ s ≠ [] := by
  cases h with
  | nan => exact ⟨by unfold Lit litChars; decide, by decide⟩
  | inf => exact ⟨lit_app (lit_sign _) (by unfold Lit litChars; decide), by simp⟩
  | num h1 h2 =>
    refine ⟨lit_app (lit_dec h1).1 ?_, by simp [(lit_dec h1).2]⟩
    cases h2 with
    | none => exact lit_nil
    | some hc hd =>
      refine lit_cons ?_ (lit_app (lit_sign _) (lit_dtext hd.2))
      rcases hc with rfl | rfl <;> decide

/-- Literals of the other types than texts and lists have no white space. -/
theorem literal_word {n : String} {s : Str} {x : XVal} (h : Literal n s x) (ht : n ∉ textTypes) (hl : n ∉ listTypes) : Word s := by
  suffices key : Lit s ∧ s ≠ [] by
    refine ⟨key.2, fun c hc => ?_⟩
    have : ∀ c ∈ litChars, ¬ Space c := by unfold Space; decide
    exact this c (key.1 c hc)
  cases h with
  | text h => exact absurd h ht
  | yes h => rcases h with rfl | rfl <;> exact ⟨by unfold Lit litChars; decide, by decide⟩
  | no h => rcases h with rfl | rfl <;> exact ⟨by unfold Lit litChars; decide, by decide⟩
  | int _ h =>
    obtain ⟨ds, h1, rfl, -⟩ := h
    exact ⟨lit_app (lit_sign _) (lit_dtext h1.2), by simp [dtext, h1.1]⟩
  | dec h => exact lit_dec h
  | double h => exact lit_float h
  | float h => exact lit_float h
  | date h1 h2 => exact ⟨lit_app (lit_day h1).1 (lit_optTz h2), by simp [(lit_day h1).2]⟩
  | time h1 h2 => exact ⟨lit_app (lit_time h1).1 (lit_optTz h2), by simp [(lit_time h1).2]⟩
  | dateTime h1 h2 h3 =>
    exact ⟨lit_app (lit_app (lit_app (lit_day h1).1 (by unfold Lit litChars; decide)) (lit_time h2).1) (lit_optTz h3), by simp⟩
  | stamp h1 h2 h3 =>
    exact ⟨lit_app (lit_app (lit_app (lit_day h1).1 (by unfold Lit litChars; decide)) (lit_time h2).1) (lit_tz h3), by simp⟩
  | duration h => exact lit_duration h
  | gDay h =>
    obtain ⟨d, t, h1, h2, -, rfl, h3⟩ := h
    exact ⟨lit_app (lit_app (by unfold Lit litChars; decide) (lit_two (by omega))) (lit_optTz h3), by simp⟩
  | gMonth h =>
    obtain ⟨d, t, h1, h2, -, rfl, h3⟩ := h
    exact ⟨lit_app (lit_app (by unfold Lit litChars; decide) (lit_two (by omega))) (lit_optTz h3), by simp⟩
  | gMonthDay h =>
    obtain ⟨m, d, t, h1, h2, h3, h4, -, -, rfl, h5⟩ := h
    have : maxDay m ≤ 31 := by unfold maxDay; split_ifs <;> omega
    exact ⟨lit_app (lit_app (lit_app (lit_app (by unfold Lit litChars; decide) (lit_two (by omega)))
      (by unfold Lit litChars; decide)) (lit_two (by omega))) (lit_optTz h5), by simp⟩
  | gYear h1 h2 => exact ⟨lit_app (lit_year h1).1 (lit_optTz h2), by simp [(lit_year h1).2]⟩
  | gYearMonth h1 h2 h3 h4 =>
    exact ⟨lit_app (lit_app (lit_app (lit_year h1).1 (by unfold Lit litChars; decide)) (lit_two (by omega))) (lit_optTz h4), by simp⟩
  | list h => exact absurd h hl

/-! ## Fields -/

theorem write_struct {W : Str → RVal → Str} {ty : Str} {v : RVal} {p : RPath} (hp : PathOf ty p)
    (ht : TupTy.fromPath p = .ok (.simple p) ∨ TupTy.fromPath p = .ok (.struct p)) : FieldWrites W ty (.one v) (W ty v) := by
  have key : ∃ f, tupleToStr (showEnv W) p = .ok f ∧ ∀ v, f (.one v) = some (W (pathText p) v) := by
    rcases ht with ht | ht
    · unfold tupleToStr; rw [ht, Res.ok_bind]; exact ⟨_, rfl, fun _ => rfl⟩
    · unfold tupleToStr; rw [ht, Res.ok_bind]; exact ⟨_, rfl, fun _ => rfl⟩
  obtain ⟨f, h1, h2⟩ := key
  exact ⟨p, f, .one v, hp, h1, rfl, by rw [h2, hp.2]⟩

theorem write_string {W : Str → RVal → Str} {s : Str} : FieldWrites W "String".toList (.text s) s := by
  have key : ∃ f, tupleToStr (showEnv W) (.mk [] "String".toList none) = .ok f ∧ ∀ s, f (.text s) = some s := by
    unfold tupleToStr
    rw [fromPath_eq, if_neg (by decide), if_pos rfl, Res.ok_bind]
    exact ⟨_, rfl, fun _ => rfl⟩
  obtain ⟨f, h1, h2⟩ := key
  exact ⟨_, f, .text s, pathOf_name (by unfold Plain; decide), h1, rfl, h2 s⟩

theorem write_vec {W : Str → RVal → Str} {ty : Str} {p : RPath} (hp : PathOf ty p)
    (hn : RPath.name p ≠ "Vec".toList) (vs : List RVal) :
    FieldWrites W ("Vec<".toList ++ ty ++ ">".toList) (.many vs) (joinDisplay (W ty) vs) := by
  obtain ⟨t, ht, h3⟩ := fromPath_not_vec hn
  have key : ∃ f, tupleToStr (showEnv W) (.mk [] "Vec".toList (some p)) = .ok f ∧
      ∀ vs, f (.many vs) = some (joinDisplay (W (pathText p)) vs) := by
    unfold tupleToStr
    rw [fromPath_vec [] p, Res.ok_bind]
    dsimp only
    rw [ht, Res.ok_bind]
    rcases h3 with rfl | rfl | rfl <;> exact ⟨_, rfl, fun _ => rfl⟩
  obtain ⟨f, h1, h2⟩ := key
  exact ⟨_, f, .many vs, pathOf_vec hp, h1, rfl, by rw [h2, hp.2]⟩

end Verif.Lemmas.Prt
