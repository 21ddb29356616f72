import Verif.Numeric.ModelGradient

/-!
# What a vector of GSL holds
-/

namespace Verif.Numeric.Gradient

/-- The vector has these entries. -/
def Holds {α : Type} (v : GslVec α) (xs : List α) : Prop :=
  v.size = xs.length ∧ ∀ (i : Nat) (h : i < xs.length), v.data[i * v.stride]? = some xs[i]

/-- The user's derivative: whatever the destination has, if it has the right size it gets the gradient. -/
def Computes {α : Type} (df : List α → List α → List α) (grad : List α → List α) (n : Nat) : Prop :=
  ∀ dest xs, dest.length = n → xs.length = n → df dest xs = grad xs ∧ (grad xs).length = n

end Verif.Numeric.Gradient
