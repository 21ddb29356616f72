import Verif.Krylov.Model
import Verif.Numeric.Model
import Mathlib.Analysis.SpecialFunctions.Trigonometric.Basic

/-!
# Model of `ChebyshevSolver` and `ChebyshevSerializer`

Same conventions as in `Verif.Krylov.Model`.
-/

namespace Verif.Krylov

open Verif.Loop

noncomputable section

variable {𝕜 : Type} [RCLike 𝕜] {n : Nat}

/-- The parameters: the matrix, `oneOverA`, `b` and `steps`. -/
structure ChebParams (𝕜 : Type) (n : Nat) where
  mul : (Fin n → 𝕜) → Fin n → 𝕜
  oneOverA : ℝ
  b : ℝ
  steps : Nat

/-- `oneStepDec`, src/ChebyshevSolver.h:207-231: the new `x` and `y`, and `atmp` and `btmp`. -/
def oneStepDec (p : ChebParams 𝕜 n) (x y : Fin n → 𝕜) (jind : Nat) : ((Fin n → 𝕜) × (Fin n → 𝕜)) × ℝ × ℝ :=
  let z : Fin n → 𝕜 := fun i => (p.mul y i - (p.b : 𝕜) * y i) * (p.oneOverA : 𝕜)
  let val : ℝ := if jind = 0 then 1 else 2
  let atmp := reDot y y
  let tmp : Fin n → 𝕜 := fun i => (val : 𝕜) * z i - x i
  let btmp := reDot tmp y
  ((y, tmp), atmp, btmp)

/-- What `decomposition` works on. -/
structure ChebState (𝕜 : Type) (n : Nat) where
  x : Fin n → 𝕜
  y : Fin n → 𝕜
  data : List (Fin n → 𝕜)
  a : List ℝ
  b : List ℝ

/-- One pass of the loop of `decomposition`, src/ChebyshevSolver.h:187-197. -/
def chebStep (p : ChebParams 𝕜 n) (j : Nat) (s : ChebState 𝕜 n) : Option (ChebState 𝕜 n) := do
  let data ← setAt s.data j s.y
  let ((x, y), atmp, btmp) := oneStepDec p s.x s.y j
  let a0 ← s.a[0]?
  let a ← setAt s.a j (2 * atmp - a0)
  let b0 ← s.b[0]?
  let b ← setAt s.b j (2 * btmp - b0)
  return ⟨x, y, data, a, b⟩

/-- `decomposition`, src/ChebyshevSolver.h:179-203.  `stored` are the vectors that `lanczosVectors_` has: `none` is the null
pointer, which `cols()` follows in line 184. -/
def chebDecomposition (p : ChebParams 𝕜 n) (stored : Option (List (Fin n → 𝕜))) (init : Fin n → 𝕜) :
    Option (ChebState 𝕜 n) := do
  let data ← stored
  loopN data.length (chebStep p)
    ⟨fun _ => 0, init, data, List.replicate (2 * p.steps) 0, List.replicate (2 * p.steps) 0⟩

/-! ## `ChebyshevSerializer` -/

/-- `computeGnMuN`, src/ChebyshevSerializer.h:186-193. -/
def gnMuN (a b : List ℝ) (gn : List ℝ) : Option (List ℝ) :=
  loopN gn.length (fun i out => do
    let j := if i % 2 = 1 then (i - 1) / 2 else i / 2
    let tmp ← (if i % 2 = 1 then b[j]? else a[j]?)
    let g ← gn[i]?
    setAt out i (tmp * g)) (List.replicate gn.length 0)

/-- `calcF`, src/ChebyshevSerializer.h:178-184. -/
def calcF (x : ℝ) (gnmn : List ℝ) : Option ℝ := do
  let g0 ← gnmn[0]?
  let sum ← loopFrom 1 gnmn.length (fun i sum => (gnmn[i]?).map fun g => sum + g * Numeric.cheb x i) (1 / 2 * g0)
  return 2 * sum

/-- `initKernelJackson`, src/ChebyshevSerializer.h:212-220. -/
def jackson (N : Nat) : List ℝ :=
  (List.range N).map fun i : Nat =>
    (((N + 1 : Nat) - i : ℝ) * Real.cos (Real.pi * i / (N + 1 : Nat)) +
      Real.sin (Real.pi * i / (N + 1 : Nat)) * (1 / Real.tan (Real.pi / (N + 1 : Nat)))) / (N + 1 : Nat)

/-- `initKernelLorentz`, src/ChebyshevSerializer.h:222-229. -/
def lorentz (N : Nat) (lambda : ℝ) : List ℝ :=
  (List.range N).map fun i : Nat => Real.sinh (lambda * (1 - i / N)) / Real.sinh lambda

/-- The kinds of kernels; others do nothing (there is an `assert`). -/
inductive Kernel | jackson | lorentz (lambda : ℝ) | dirichlet

/-- Lines 134-138 of `plot`, src/ChebyshevSerializer.h, with `initKernel` 195-210. -/
def kernel (k : Kernel) (cutoff size : Nat) : List ℝ :=
  let N := if cutoff = 0 ∨ size < cutoff then size else cutoff
  match k with
  | .jackson => jackson N
  | .lorentz l => lorentz N l
  | .dirichlet => List.replicate N 1

/-- The parameters of `plot`: `omega1`, `omega2`, `deltaOmega`; `Eg`, `b`, `oneOverA`. -/
structure PlotP where
  omega1 : ℝ
  omega2 : ℝ
  delta : ℝ
  eg : ℝ
  b : ℝ
  oneOverA : ℝ

/-- One value of `plot`, lines 151-154. -/
def plotAt (q : PlotP) (gnmn : List ℝ) (omega : ℝ) : Option ℝ :=
  open Classical in
  let x := (omega + q.eg - q.b) * q.oneOverA
  let den := if x > 1 ∨ x < -1 then 0 else Real.sqrt (1 - x * x)
  if |den| > 1 / 1000000 then (calcF x gnmn).map (· / den) else some 0

/-- Lines 140-148 of `plot`: the numbers `gnmun`.  Line 148 prints `gn[5]`. -/
def plotMoments (k : Kernel) (cutoff : Nat) (a b : List ℝ) : Option (List ℝ) := do
  let gn := kernel k cutoff a.length
  let gnmun ← gnMuN a b gn
  let _ ← gn[0]?
  let _ ← gn[5]?
  return gnmun

end

end Verif.Krylov
