import Verif.Util.Loop
import Verif.Dense.Model
import Mathlib.Analysis.RCLike.Basic
import Mathlib.Analysis.SpecialFunctions.Pow.Real

/-!
# Model of `TridiagonalMatrix`, `LanczosVectors` and `LanczosCore`

Numbers are real or complex numbers without rounding.  Vectors of the Hilbert space, all of the length of the matrix, are
functions of the index; a loop over all indices is a function of the index or a sum.  `none`: undefined behaviour (an index
out of range).
-/

namespace Verif.Krylov

open Verif.Loop

/-! ## Tridiagonal matrices -/

/-- `buildDenseMatrix`, src/TridiagonalMatrix.h:151-164; `ι` is the conversion of the elements. -/
def buildDense {α β : Type} [Zero α] [Star β] (ι : β → α) (a b : List β) (m : Dense.Mat α) (n : Nat) :
    Option (Dense.Mat α) :=
  let n := if n = 0 then a.length else n
  if n = 0 then none
  else do
    let m := m.resizeVal n n 0
    let m ← loopN (n - 1) (fun i m => do
      let ai ← a[i]?
      let m ← m.set i i (ι ai)
      let bi ← b[i + 1]?
      let m ← m.set i (i + 1) (ι bi)
      m.set (i + 1) i (ι (star bi))) m
    let x ← a[n - 1]?
    m.set (n - 1) (n - 1) (ι x)

/-! ## Lanczos -/

noncomputable section

variable {𝕜 : Type} [RCLike 𝕜] {n : Nat}

/-- The sum of `real(x[i] * conj(y[i]))`. -/
def reDot (x y : Fin n → 𝕜) : ℝ := ∑ i, RCLike.re (x i * star (y i))

/-- One pass of the first loop of `reorthoIfNecessary`, src/LanczosVectors.h:250-257. -/
def orthoTo (V2 d : Fin n → 𝕜) : Fin n → 𝕜 :=
  let rij := ∑ h, star (d h) * V2 h
  fun h => V2 h - d h * rij

/-- `reorthoIfNecessary`, src/LanczosVectors.h:238-266.  The vector of the overlaps is always long enough here.  Dividing
by the norm of a vector that is zero gives NaN in the code, and zero here. -/
def reortho (enabled : Bool) (data : List (Fin n → 𝕜)) (V2 : Fin n → 𝕜) (iter : Nat) : Option (Fin n → 𝕜) :=
  if enabled then do
    let V2 ← loopN (iter + 1) (fun i V2 => (data[i]?).map (orthoTo V2)) V2
    return fun h => V2 h * ((1 / Real.sqrt (reDot V2 V2) : ℝ) : 𝕜)
  else some V2

/-- `V[i] *= 1 / btmp` for all `i`, if `btmp > 0`. -/
def normalize (V : Fin n → 𝕜) (btmp : ℝ) : Fin n → 𝕜 :=
  open Classical in if btmp > 0 then fun i => V i * ((1 / btmp : ℝ) : 𝕜) else V

/-- `oneStepDecomposition`, src/LanczosVectors.h:202-232: the new `V2`, and the coefficients.  `mul y` is `H y`. -/
def oneStep (mul : (Fin n → 𝕜) → Fin n → 𝕜) (enabled : Bool) (data : List (Fin n → 𝕜)) (V0 V1 : Fin n → 𝕜)
    (a b : List ℝ) (iter : Nat) : Option ((Fin n → 𝕜) × List ℝ × List ℝ) := do
  let w := mul V1
  let atmp := reDot w V1
  let a ← setAt a iter atmp
  let bi ← b[iter]?
  let V2 : Fin n → 𝕜 := fun h => w h - (atmp : 𝕜) * V1 h - (bi : 𝕜) * V0 h
  let btmp := Real.sqrt (reDot V2 V2)
  let b ← (if iter + 1 < a.length then setAt b (iter + 1) btmp else some b)
  let V2 ← reortho enabled data (normalize V2 btmp) iter
  return (V2, a, b)

/-- What `decomposition` leaves. -/
structure Result (𝕜 : Type) (n : Nat) where
  steps : Nat
  data : List (Fin n → 𝕜)
  a : List ℝ
  b : List ℝ

/-- The parameters: the matrix, `isReorthoEnabled`, whether at step `j` the eigenvalues have changed by less than the
tolerance since the step before (lines 221-234), and `minSteps`. -/
structure Params (𝕜 : Type) (n : Nat) where
  mul : (Fin n → 𝕜) → Fin n → 𝕜
  enabled : Bool
  close : Nat → Bool
  minSteps : Nat

/-- The loop of `decomposition`, src/LanczosCore.h:217-249, with at most `fuel` passes: the `j` at the end, and the
vectors and coefficients. -/
def loop (p : Params 𝕜 n) (maxn : Nat) : Nat → Nat → Bool → (Fin n → 𝕜) → (Fin n → 𝕜) → List (Fin n → 𝕜) → List ℝ → List ℝ →
    Option (Nat × List (Fin n → 𝕜) × List ℝ × List ℝ)
  | 0, j, _, _, _, data, a, b => some (j, data, a, b)
  | fuel + 1, j, exitFlag, V0, V1, data, a, b => do
    let (V2, a, b) ← oneStep p.mul p.enabled data V0 V1 a b j
    let exitFlag := exitFlag || p.close j || decide (j = maxn - 1)
    if exitFlag && decide (n ≤ 4) then some (j, data, a, b)
    else if exitFlag && decide (p.minSteps ≤ j) then some (j, data, a, b)
    else do
      let data ← setAt data (j + 1) V2
      loop p maxn fuel (j + 1) exitFlag V1 V2 data a b

/-- `decomposition`, src/LanczosCore.h:147-256, for a start vector of the right length (it throws otherwise); `steps` is
the maximum number of steps. -/
def decomposition (p : Params 𝕜 n) (steps : Nat) (init : Fin n → 𝕜) : Option (Result 𝕜 n) := do
  let V0 : Fin n → 𝕜 := fun i => init i * ((1 / Real.sqrt (reDot init init) : ℝ) : 𝕜)
  let maxn := if steps > n then n else steps
  let a := List.replicate maxn (0 : ℝ)
  let b ← setAt (List.replicate maxn (0 : ℝ)) 0 0
  let data ← setAt (List.replicate maxn (0 : Fin n → 𝕜)) 0 V0
  let w := p.mul V0
  let atmp := reDot w V0
  let a ← setAt a 0 atmp
  let V1 : Fin n → 𝕜 := fun i => w i - (atmp : 𝕜) * V0 i
  let btmp := Real.sqrt (reDot V1 V1)
  let b ← setAt b 1 btmp
  let V1 := normalize V1 btmp
  let data ← (if 1 < maxn then setAt data 1 V1 else some data)
  let (j, data, a, b) ← loop p maxn (maxn - 1) 1 false V0 V1 data a b
  let k := if j < maxn then j + 1 else maxn
  return ⟨k, data.take k, a.take k, b.take k⟩

/-- `excitedVector`, src/LanczosVectors.h:191-200: `z` plus the combination of the vectors with the coefficients `y`, the
column `excited` of `ritz`. -/
def excitedVector (data : List (Fin n → 𝕜)) (y : Nat → 𝕜) (z : Fin n → 𝕜) : Option (Fin n → 𝕜) :=
  loopN data.length (fun j z => (data[j]?).map fun d i => z i + y j * d i) z

end

end Verif.Krylov
