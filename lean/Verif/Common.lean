/-!
Shared vocabulary of the osp-core models: Python exceptions as values.
-/
namespace Osp

/-- The Python exceptions raised by the modelled code (by class name; messages are not modelled). -/
inductive PyErr where
  | valueError | indexError | overflowError | notImplementedError | unicodeDecodeError
  | runtimeError | typeError | keyError | attributeError | isADirectoryError | fileNotFoundError
  | connectionClosed | assertionError | stopIteration | consistencyError | cardinalityError
  | resultEmptyError | multipleResultsError | syntaxError | exception
  deriving DecidableEq, Repr

instance {ε α : Type} [DecidableEq ε] [DecidableEq α] : DecidableEq (Except ε α) := fun a b =>
  match a, b with
  | .ok x, .ok y => if h : x = y then isTrue (by rw [h]) else isFalse (by intro e; cases e; exact h rfl)
  | .error x, .error y => if h : x = y then isTrue (by rw [h]) else isFalse (by intro e; cases e; exact h rfl)
  | .ok _, .error _ => isFalse (by intro e; cases e)
  | .error _, .ok _ => isFalse (by intro e; cases e)

end Osp
