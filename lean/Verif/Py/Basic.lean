/-!
# Python exceptions as values

The exception classes that the modelled code raises (or that Python raises on its behalf).
-/
namespace Verif.Py

/-- Exception classes appearing in the modelled parts of `/repo/flavio`.  Messages are not modelled. -/
inductive PyErr where
  | valueError
  | typeError
  | keyError
  | attributeError
  | indexError
  | notImplementedError
  | unboundLocalError
  | osError
  | zeroDivisionError
  | runtimeError
  | assertionError
  deriving DecidableEq, Repr

/-- `true` iff the result is an exception (used in statements). Python library semantics used by the model. -/
def raises {α : Type _} (r : Except PyErr α) : Prop := ∃ e, r = .error e

/-- Exceptions are equal as results if they are the same error or the same value. -/
instance {α : Type _} [DecidableEq α] : DecidableEq (Except PyErr α) := fun a b =>
  match a, b with
  | .ok x, .ok y => if h : x = y then isTrue (by rw [h]) else isFalse (by simpa using h)
  | .error x, .error y => if h : x = y then isTrue (by rw [h]) else isFalse (by simpa using h)
  | .ok _, .error _ => isFalse (by simp)
  | .error _, .ok _ => isFalse (by simp)

end Verif.Py
