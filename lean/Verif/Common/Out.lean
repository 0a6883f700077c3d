/-!
Outcomes of modelled C++ calls.

`ok a`    the call returned `a`;
`thrown`  the call left with a C++ exception (any `PowsyblException`, `std::out_of_range`, ...);
`ub`      the call ran into undefined behaviour (out-of-bounds access, dereference of `end()` or of
          a null / dangling pointer).  What happens afterwards is not modelled.

A stateful call is a function `σ → Out α × σ`: the state is returned also when the call throws, so that
partial effects of a failing call stay visible.
-/

namespace Verif

/-- Outcome of a modelled C++ call. -/
inductive Out (α : Type u) where
  | ok (a : α)
  | thrown
  | ub
  deriving DecidableEq, Repr

namespace Out

/-- Sequencing: an exception or undefined behaviour ends the computation. -/
def bind (x : Out α) (f : α → Out β) : Out β :=
  match x with
  | ok a => f a
  | thrown => thrown
  | ub => ub

/-- Applies a function to the result. -/
def map (f : α → β) (x : Out α) : Out β :=
  match x with
  | ok a => ok (f a)
  | thrown => thrown
  | ub => ub

/-- The call returned normally. -/
def isOk : Out α → Bool
  | ok _ => true
  | _ => false

instance : Monad Out where
  pure := ok
  bind := bind

@[simp] theorem bind_ok (a : α) (f : α → Out β) : (ok a).bind f = f a := rfl
@[simp] theorem bind_thrown (f : α → Out β) : (thrown : Out α).bind f = thrown := rfl
@[simp] theorem bind_ub (f : α → Out β) : (ub : Out α).bind f = ub := rfl
@[simp] theorem monad_bind_ok (a : α) (f : α → Out β) : (ok a >>= f) = f a := rfl
@[simp] theorem monad_bind_thrown (f : α → Out β) : ((thrown : Out α) >>= f) = thrown := rfl
@[simp] theorem monad_bind_ub (f : α → Out β) : ((ub : Out α) >>= f) = ub := rfl
@[simp] theorem pure_eq (a : α) : (pure a : Out α) = ok a := rfl
@[simp] theorem isOk_ok (a : α) : (ok a).isOk = true := rfl
@[simp] theorem isOk_thrown : (thrown : Out α).isOk = false := rfl
@[simp] theorem isOk_ub : (ub : Out α).isOk = false := rfl

theorem isOk_iff {x : Out α} : x.isOk = true ↔ ∃ a, x = ok a := by
  cases x <;> simp

theorem bind_eq_ok {x : Out α} {f : α → Out β} {b : β} :
    x.bind f = ok b ↔ ∃ a, x = ok a ∧ f a = ok b := by
  cases x <;> simp [bind]

end Out

end Verif
