import Verif.Util.Loop
import Verif.Util.Out
import Mathlib.Algebra.Module.Basic
import Mathlib.Analysis.SpecialFunctions.Exp

/-!
# Model of `RungeKutta` and `LinearPrediction`

Numbers are exact.  `none`: undefined behaviour (an index out of range).
-/

namespace Verif.Extrap

open Verif.Loop

/-! ## Runge-Kutta -/

noncomputable section

variable {V W : Type} [AddCommGroup V] [Module ℝ V]

/-- The new `yi` of one pass of the loop of `solve`, src/RungeKutta.h:125-140. -/
def rkStep (f : ℝ → V → V) (h t : ℝ) (y : V) : V :=
  let f1 : ℝ := 1 / 2
  let k1 := h • f t y
  let tmp := y + f1 • k1
  let k2 := h • f (t + h * f1) tmp
  let tmp := y + f1 • k2
  let k3 := h • f (t + h * f1) tmp
  let tmp := y + k3
  let k4 := h • f (t + h) tmp
  let tmp := (1 : ℝ) • k1 + (2 : ℝ) • k2 + (2 : ℝ) • k3 + (1 : ℝ) • k4
  y + (1 / 6 : ℝ) • tmp

/-- The loop of `solve`, src/RungeKutta.h:124-141; `view` is what is kept of a state: the vector, or the diagonal of a matrix
(lines 131-134).  `checkNorm` only prints. -/
def rkLoop (f : ℝ → V → V) (h : ℝ) (view : V → W) : Nat → ℝ → V → List W → List W
  | 0, _, _, result => result
  | n + 1, t, y, result => rkLoop f h view n (t + h) (rkStep f h t y) (result ++ [view y])

/-- `solve`, src/RungeKutta.h:114-142; appends to `result`. -/
def solve (f : ℝ → V → V) (h : ℝ) (view : V → W) (result : List W) (t0 : ℝ) (n : Nat) (y0 : V) : List W :=
  rkLoop f h view n t0 y0 result

/-- `solveEx`, src/RungeKutta.h:108-112; the conversion of a number below zero is undefined. -/
def solveEx (f : ℝ → V → V) (h : ℝ) (view : V → W) (result : List W) (t0 t : ℝ) (y0 : V) : Option (List W) :=
  open Classical in if -1 < (t - t0) / h then some (solve f h view result t0 ⌊(t - t0) / h⌋₊ y0) else none

end

/-! ## Linear prediction -/

variable {K : Type} [Field K]

/-- `y_[i - j - 1]`; the difference of unsigned numbers wraps around, to an index out of range. -/
def back (y : List K) (i j : Nat) : Option K := if j + 1 ≤ i then y[i - j - 1]? else none

/-- One element of `computeA`, src/LinearPrediction.h:241-244. -/
def elemA (y : List K) (n l j : Nat) : Option K :=
  loopFrom n (2 * n) (fun i s => do
    let a ← back y i l
    let b ← back y i j
    return s + a * b) 0

/-- `computeA`, src/LinearPrediction.h:237-247: the rows. -/
def computeA (y : List K) (n p : Nat) : Option (List (List K)) :=
  (List.range p).mapM fun l => (List.range p).mapM fun j => elemA y n l j

/-- One element of `computeB`, src/LinearPrediction.h:252-254. -/
def elemB (y : List K) (n l : Nat) : Option K :=
  loopFrom n (2 * n) (fun i s => do
    let a ← back y i l
    let b ← y[i]?
    return s + a * b) 0

/-- `computeB`, src/LinearPrediction.h:249-257. -/
def computeB (y : List K) (n p : Nat) : Option (List K) := (List.range p).mapM fun l => elemB y n l

/-- The constructor, src/LinearPrediction.h:102-117, up to `computeD`. -/
def ctor (y : List K) (p : Nat) : Out (List (List K) × List K) :=
  if y.length % 2 = 1 then throwOut
  else
    match computeA y (y.length / 2) p, computeB y (y.length / 2) p with
    | some a, some b => .ok (a, b)
    | _, _ => ubOut

/-- `predict`, src/LinearPrediction.h:139-149. -/
def predict (d y : List K) (p : Nat) : Option (List K) :=
  loopFrom y.length (y.length + p) (fun i y => do
    let sum ← loopN d.length (fun j s => do
      let dj ← d[j]?
      let yj ← back y i j
      return s + dj * yj) 0
    return y ++ [sum]) y

/-- The inner loop of the reconstruction in `predict2`, src/LinearPrediction.h:186-188. -/
def rootsInner (r : K) : Nat → List K → Option (List K)
  | 0, ab => some ab
  | i + 1, ab => do
    let x ← ab[i]?
    let z ← ab[i + 1]?
    let ab ← setAt ab (i + 1) (x - r * z)
    rootsInner r i ab

/-- The reconstruction of the coefficients of a polynomial from its roots in `predict2`, src/LinearPrediction.h:180-190. -/
def fromRoots (roots : List K) : Option (List K) := do
  let p := roots.length
  let ab := List.replicate (p + 1) (0 : K)
  let r0 ← roots[0]?
  let ab ← setAt ab 0 (-r0)
  let ab ← setAt ab 1 1
  loopFrom 1 p (fun j ab => do
    let ab ← setAt ab (j + 1) 1
    let r ← roots[j]?
    let ab ← rootsInner r j ab
    let x ← ab[0]?
    setAt ab 0 (-r * x)) ab

end Verif.Extrap
