import Verif.Util.Loop
import Mathlib.Analysis.SpecialFunctions.Pow.Real

/-!
# The functions that `Minimizer` hands to GSL (src/Minimizer.h)
-/

namespace Verif.Numeric.Gradient

open Verif.Loop

/-- `gsl_vector`: entry `i` is `data[i * stride]` (the documentation of GSL). -/
structure GslVec (α : Type) where
  data : List α
  size : Nat
  stride : Nat

variable {α β : Type}

/-- `gsl_vector_get` (GSL); `none` is memory that is not the vector's. -/
def GslVec.get (v : GslVec α) (i : Nat) : Option α := if i < v.size then v.data[i * v.stride]? else none

/-- `gsl_vector_set` (GSL). -/
def GslVec.set (v : GslVec α) (i : Nat) (a : α) : Option (GslVec α) :=
  if i < v.size ∧ i * v.stride < v.data.length then some { v with data := v.data.set (i * v.stride) a } else none

/-- The copy of `v->data .. v->data + v->size`, Minimizer.h:23-24, 32-35. -/
def copy (v : GslVec α) : Option (List α) := if v.size ≤ v.data.length then some (v.data.take v.size) else none

/-- `myFunction` (Minimizer.h:19-26); `f` is `operator()` of the user's function. -/
def myFunction (f : List α → β) (v : GslVec α) : Option β := do
  let stdv ← copy v
  return f stdv

/-- `myDfunction` (Minimizer.h:28-39); `df` is the user's, with the old and the new contents of its first argument. -/
def myDfunction (df : List α → List α → List α) (v : GslVec α) (g : GslVec α) : Option (GslVec α) := do
  let src ← copy v
  let dest ← copy g
  let dest := df dest src
  loopN g.size (fun ind g => do
    let a ← dest[ind]?
    g.set ind a) g

/-- `myFdFunction` (Minimizer.h:41-46). -/
def myFdFunction (f : List α → β) (df : List α → List α → List α) (v : GslVec α) (g : GslVec α) : Option (β × GslVec α) := do
  let a ← myFunction f v
  let g ← myDfunction df v g
  return (a, g)

/-- `gradientNorm` (Minimizer.h:232-244), for a function of `n` variables; `fresh` is what `gsl_vector_alloc` finds in memory. -/
noncomputable def gradientNorm (df : List ℝ → List ℝ → List ℝ) (n : Nat) (fresh : Nat → ℝ) (v : GslVec ℝ) : Option ℝ := do
  let g ← myDfunction df v ⟨(List.range n).map fresh, n, 1⟩
  let sum ← loopN g.size (fun i sum => do
    let tmp ← g.get i
    return sum + tmp * tmp) 0
  return Real.sqrt sum

end Verif.Numeric.Gradient
