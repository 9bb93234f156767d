/-!
# Python exceptions as values
-/
namespace Forecaster

/-- The exception classes that the modelled code raises (or lets escape). -/
inductive PyErr
  | valueError | typeError | keyError | zeroDivisionError | attributeError
  | notImplementedError | indexError | overflowError | runtimeError | recursionError | stopIteration
  | fileNotFoundError
  deriving DecidableEq, Repr

/-- Decidable equality on results, so that examples can be checked by evaluation. -/
instance decEqExcept {ε α : Type} [DecidableEq ε] [DecidableEq α] : DecidableEq (Except ε α)
  | .ok a, .ok b => if h : a = b then isTrue (by rw [h]) else isFalse (by simpa using h)
  | .error a, .error b => if h : a = b then isTrue (by rw [h]) else isFalse (by simpa using h)
  | .ok _, .error _ => isFalse (by simp)
  | .error _, .ok _ => isFalse (by simp)

@[simp] theorem ok_bind {ε α β : Type _} (a : α) (f : α → Except ε β) :
    ((Except.ok a : Except ε α) >>= f) = f a := rfl
@[simp] theorem error_bind {ε α β : Type _} (e : ε) (f : α → Except ε β) :
    ((Except.error e : Except ε α) >>= f) = .error e := rfl
@[simp] theorem except_pure {ε α : Type _} (a : α) : (pure a : Except ε α) = .ok a := rfl
@[simp] theorem except_map_ok {ε α β : Type _} (f : α → β) (a : α) :
    (f <$> (Except.ok a : Except ε α)) = .ok (f a) := rfl
@[simp] theorem except_map_error {ε α β : Type _} (f : α → β) (e : ε) :
    (f <$> (Except.error e : Except ε α)) = .error e := rfl

end Forecaster
