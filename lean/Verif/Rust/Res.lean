/-!
# Outcomes of a Rust function

Models `Result<T, E>` together with the possibility of a panic.  Error values (they are all
human-readable strings in this code base) are dropped: only "an error was returned" is kept.
-/

namespace Verif

/-- Outcome of a Rust function returning `Result<α, _>` which may also panic. -/
inductive Res (α : Type u) where
  /-- `Ok(a)` -/
  | ok (a : α)
  /-- `Err(_)`; the message is not modelled -/
  | err
  /-- the thread panics -/
  | panic
  deriving DecidableEq, Repr

namespace Res

/-- Sequencing: the `?` operator (and panics propagate). -/
def bind {α : Type u} {β : Type v} : Res α → (α → Res β) → Res β
  | ok a, f => f a
  | err, _ => err
  | panic, _ => panic

@[simp] theorem ok_bind {α : Type u} {β : Type v} (a : α) (f : α → Res β) : (ok a).bind f = f a := rfl
@[simp] theorem err_bind {α : Type u} {β : Type v} (f : α → Res β) : (err : Res α).bind f = err := rfl
@[simp] theorem panic_bind {α : Type u} {β : Type v} (f : α → Res β) : (panic : Res α).bind f = panic := rfl

instance : Monad Res where
  pure := Res.ok
  bind := Res.bind

@[simp] theorem pure_eq {α : Type u} (a : α) : (pure a : Res α) = ok a := rfl
@[simp] theorem bind_eq {α β : Type u} (x : Res α) (f : α → Res β) : (x >>= f) = x.bind f := rfl

/-- `Result::ok()`-style view: `none` on `err`; used for `Option`-returning std functions whose
result is turned into an error with `map_err(..)?`. -/
@[simp] def ofOption {α : Type u} : Option α → Res α
  | some a => ok a
  | none => err

/-- `x.map(f)` on the success value. -/
@[simp] def map {α : Type u} {β : Type v} (f : α → β) : Res α → Res β
  | ok a => ok (f a)
  | err => err
  | panic => panic

/-- `Result::ok` (a panic gives no value either). -/
def toOption {α : Type u} : Res α → Option α
  | ok a => some a
  | _ => none

/-- `Option::unwrap` / `Result::unwrap` on a failing value panics. -/
@[simp] def unwrap {α : Type u} : Option α → Res α
  | some a => ok a
  | none => panic

/-- Run a fallible function over a list from left to right, stopping at the first failure
(`iter().map(f).collect()` where `f` may panic). -/
def mapM' {α : Type u} {β : Type v} (f : α → Res β) : List α → Res (List β)
  | [] => ok []
  | a :: as => (f a).bind fun b => (mapM' f as).bind fun bs => ok (b :: bs)

theorem bind_eq_ok {α : Type u} {β : Type v} {x : Res α} {f : α → Res β} {b : β} :
    x.bind f = ok b ↔ ∃ a, x = ok a ∧ f a = ok b := by
  cases x <;> simp

theorem bind_eq_panic {α : Type u} {β : Type v} {x : Res α} {f : α → Res β} :
    x.bind f = panic ↔ x = panic ∨ ∃ a, x = ok a ∧ f a = panic := by
  cases x <;> simp

theorem bind_ne_panic {α : Type u} {β : Type v} {x : Res α} {f : α → Res β}
    (hx : x ≠ panic) (hf : ∀ a, x = ok a → f a ≠ panic) : x.bind f ≠ panic := by
  cases x <;> simp_all

end Res
end Verif
