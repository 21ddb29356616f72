/-!
# Outcomes of a function that may throw

`thrown`: an exception left the function.  `ub`: undefined behaviour of C++ was reached.
-/

namespace Verif

/-- Why there is no result. -/
inductive Bad
  | thrown
  | ub
  deriving DecidableEq, Repr

/-- The outcome of a call. -/
abbrev Out (α : Type) := Except Bad α

/-- An exception. -/
def throwOut {α : Type} : Out α := .error .thrown

/-- Undefined behaviour. -/
def ubOut {α : Type} : Out α := .error .ub

instance {α : Type} [DecidableEq α] : DecidableEq (Out α) := fun a b =>
  match a, b with
  | .ok x, .ok y => if h : x = y then isTrue (by rw [h]) else isFalse (by intro e; cases e; exact h rfl)
  | .error x, .error y => if h : x = y then isTrue (by rw [h]) else isFalse (by intro e; cases e; exact h rfl)
  | .ok _, .error _ => isFalse (by intro e; cases e)
  | .error _, .ok _ => isFalse (by intro e; cases e)

/-- Outcome of a function that returns `none` on an exception. -/
def ofThrow {α : Type} : Option α → Out α
  | some a => .ok a
  | none => throwOut

/-- Outcome of a function that returns `none` on undefined behaviour and `some none` on an exception. -/
def ofNested {α : Type} : Option (Option α) → Out α
  | some (some a) => .ok a
  | some none => throwOut
  | none => ubOut

end Verif
