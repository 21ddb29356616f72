import Mathlib.Data.List.Basic
import Verif.Util.Out

/-!
# `Minimizer` (src/Minimizer.h)

The loops of the library around the minimizers of GSL.  A minimizer of GSL is a value with three
operations; nothing is assumed about them here.
-/

namespace Verif.Numeric

open Verif

/-- A minimizer of GSL: `gsl_multimin_*minimizer_set` (with the step and tolerances inside),
`_iterate` (a status, `0` for success, and the new state), the test of convergence
(`gsl_multimin_test_size` or `gsl_multimin_test_gradient`: `0` when converged, `GSL_CONTINUE` otherwise)
and `->x`. -/
structure Gsl (σ α : Type) where
  start : List α → σ
  iterate : σ → Int × σ
  test : σ → Int
  pos : σ → List α

/-- `GSL_CONTINUE` (gsl_errno.h). -/
def gslContinue : Int := -2

/-- What a call leaves: the value returned (`none` if it throws), the vector of the caller and `status_`. -/
structure Found (α : Type) where
  ret : Option Int
  vec : List α
  status : Int
  deriving DecidableEq

/-- The status of a new `Minimizer` (Minimizer.h:60-70). -/
def initStatus : Int := 100

/-- How the loop of `simplex` or `conjugateGradient` ends. -/
inductive LoopEnd (σ : Type)
  /-- `break`, or the counter has reached `maxIter_`: counter, state and status -/
  | fin (iter : Nat) (s : σ) (status : Int)
  /-- a status of `_iterate` that is not zero -/
  | err (iter : Nat) (status : Int)

/-- The loops of Minimizer.h:100-129 and 156-192; `left` is `maxIter_ - iter`.  Messages are left out. -/
def minLoop {σ α : Type} (g : Gsl σ α) : Nat → Nat → σ → Int → LoopEnd σ
  | 0, iter, s, st => .fin iter s st
  | left + 1, iter, s, _ =>
    let r := g.iterate s
    if r.1 ≠ 0 then .err iter r.1
    else
      let t := g.test r.2
      if t = 0 then .fin iter r.2 t else minLoop g left (iter + 1) r.2 t

/-- `found` (Minimizer.h:218-222), for a vector of the caller that is not longer than the one of GSL. -/
def foundVec {α : Type} (v x : List α) : List α := x.take v.length

/-- `simplex` (Minimizer.h:78-135), with `function_.size()` equal to `n`.  A vector of another size leaves
elements of the vectors of GSL without value, or writes after their end: undefined. -/
def simplex {σ α : Type} (g : Gsl σ α) (n maxIter : Nat) (status : Int) (v : List α) : Out (Found α) :=
  if v.length ≠ n then ubOut
  else match minLoop g maxIter 0 (g.start v) status with
    | .fin iter s st => .ok ⟨some iter, foundVec v (g.pos s), st⟩
    | .err _ st => .ok ⟨none, v, st⟩

/-- `conjugateGradient` (Minimizer.h:137-197): a status that is not zero ends it with `return -iter`. -/
def conjugateGradient {σ α : Type} (g : Gsl σ α) (n maxIter : Nat) (status : Int) (v : List α) : Out (Found α) :=
  if v.length ≠ n then ubOut
  else match minLoop g maxIter 0 (g.start v) status with
    | .fin iter s st => .ok ⟨some iter, foundVec v (g.pos s), st⟩
    | .err iter st => .ok ⟨some (-(iter : Int)), v, st⟩

/-- `statusString` (Minimizer.h:201-214). -/
def statusString (st : Int) : List Char :=
  if st = 0 then "GSL_SUCCESS".toList else if st = gslContinue then "GSL_CONTINUE".toList else "UNKNOWN".toList

end Verif.Numeric
