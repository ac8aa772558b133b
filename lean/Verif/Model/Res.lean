/-!
# Outcomes of Rust calls

`Res α` is what a call can do: return `Ok`, return `Err`, panic, or (for loops modelled with fuel) not
finish within the fuel.
-/

namespace Verif

/-- `doctor-syn/src/error.rs:4-22`.  Spans and message texts are dropped. -/
inductive Err where
  | unsupportedExpr
  | unsupportedCodegen
  | undefinedVariable
  | notFound
  | couldNotConvertToExpression
  | couldNotConvertFromExpression
  | couldNotParse
  | couldNotEvaluate
  | wrongNumberOfTerms
  | expected32or64bits
  | overflow
  deriving DecidableEq, Repr

/-- Outcome of a call.  `panic` covers `unwrap` on `None`/`Err`, `panic!`, index out of bounds and division by
zero.  `diverge` means the fuel given to a loop ran out. -/
inductive Res (α : Type) where
  | ok (a : α)
  | err (e : Err)
  | panic
  | diverge
  deriving Repr, DecidableEq

namespace Res

/-- The `?` operator: everything but `ok` stops the caller. -/
@[inline] def bind {α β : Type} (r : Res α) (f : α → Res β) : Res β :=
  match r with
  | ok a => f a
  | err e => err e
  | panic => panic
  | diverge => diverge

instance : Monad Res where
  pure := ok
  bind := bind

/-- `Option::unwrap`. -/
def unwrapOpt {α : Type} : Option α → Res α
  | some a => ok a
  | none => panic

/-- `Result::unwrap`. -/
def unwrap {α : Type} : Res α → Res α
  | err _ => panic
  | r => r

/-- `Option::ok_or_else(err)` followed by `?`. -/
def okOr {α : Type} (e : Err) : Option α → Res α
  | some a => ok a
  | none => err e

@[simp] theorem pure_eq {α : Type} (a : α) : (pure a : Res α) = ok a := rfl
@[simp] theorem ok_bind {α β : Type} (a : α) (f : α → Res β) : (ok a >>= f) = f a := rfl
@[simp] theorem err_bind {α β : Type} (e : Err) (f : α → Res β) : ((err e : Res α) >>= f) = err e := rfl
@[simp] theorem panic_bind {α β : Type} (f : α → Res β) : ((panic : Res α) >>= f) = panic := rfl
@[simp] theorem diverge_bind {α β : Type} (f : α → Res β) : ((diverge : Res α) >>= f) = diverge := rfl

theorem bind_eq_ok {α β : Type} {r : Res α} {f : α → Res β} {b : β} :
    (r >>= f) = ok b ↔ ∃ a, r = ok a ∧ f a = ok b := by
  cases r <;> simp

instance : LawfulMonad Res := LawfulMonad.mk'
  (id_map := by intro α x; cases x <;> rfl)
  (pure_bind := by intros; rfl)
  (bind_assoc := by intro α β γ x f g; cases x <;> rfl)
  (bind_pure_comp := by intro α β f x; cases x <;> rfl)

end Res
end Verif
