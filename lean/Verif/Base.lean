/-!
# Outcomes of a C function

A C function of Athena either returns, terminates the run through `ath_error`, or runs into
behaviour the C standard leaves undefined.  The three are kept apart everywhere in the model.
-/

namespace Athena

/-- Result of a C call: a value, a call of `ath_error` (src/utils.c:118-134: message on the error
stream, then `MPI_Abort`/`exit`), or undefined behaviour. -/
inductive Res (α : Type _) where
  | ok (a : α)
  | fatal
  | ub
  deriving Repr, DecidableEq

namespace Res

/-- Sequencing: the first non-returning outcome wins. -/
def bind {α β : Type _} (r : Res α) (f : α → Res β) : Res β :=
  match r with
  | ok a => f a
  | fatal => fatal
  | ub => ub

instance : Monad Res where
  pure := ok
  bind := bind

@[simp] theorem bind_ok {α β : Type _} (a : α) (f : α → Res β) : (Res.ok a >>= f) = f a := rfl
@[simp] theorem bind_fatal {α β : Type _} (f : α → Res β) :
    ((Res.fatal : Res α) >>= f) = Res.fatal := rfl
@[simp] theorem bind_ub {α β : Type _} (f : α → Res β) :
    ((Res.ub : Res α) >>= f) = Res.ub := rfl
@[simp] theorem pure_eq_ok {α : Type _} (a : α) : (pure a : Res α) = Res.ok a := rfl

end Res
end Athena
