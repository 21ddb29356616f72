import Verif.Krylov.Model
import Verif.Util.Out

/-!
# Model of `LanczosSolver`

The decomposition is that of `Verif.Krylov.Model`, now with the test of convergence.  LAPACK is a parameter: `eigs a b k` is
what `dstedc` leaves of the diagonal `a`, and `diag m` the eigenvalues and the matrix after `diag(m, eigs, 'V')`.
-/

namespace Verif.Krylov

open Verif.Loop

noncomputable section

variable {𝕜 : Type} [RCLike 𝕜] {n : Nat}

/-- The matrix and the parameters of the solver. -/
structure SolverP (𝕜 : Type) (n : Nat) where
  mul : (Fin n → 𝕜) → Fin n → 𝕜
  reortho : Bool
  tolerance : ℝ
  minSteps : Nat
  eigs : List ℝ → List ℝ → Nat → List ℝ
  diag : Dense.Mat 𝕜 → List ℝ × Dense.Mat 𝕜

/-- The loop over the eigenvalues, src/LanczosCore.h:226-231: `deltaMax` and the new `eold`. -/
def deltas (count : Nat) (tmp eold : List ℝ) : Option (ℝ × List ℝ) :=
  loopN count (fun ii s => do
    let t ← tmp[ii]?
    let o ← s.2[ii]?
    let eold ← setAt s.2 ii t
    return (open Classical in if |t - o| > s.1 then |t - o| else s.1, eold)) (0, eold)

/-- The loop of `decomposition`, src/LanczosCore.h:217-249. -/
def loopD (p : SolverP 𝕜 n) (maxn excited : Nat) : Nat → Nat → Bool → List ℝ → (Fin n → 𝕜) → (Fin n → 𝕜) →
    List (Fin n → 𝕜) → List ℝ → List ℝ → Option (Nat × List (Fin n → 𝕜) × List ℝ × List ℝ)
  | 0, j, _, _, _, _, data, a, b => some (j, data, a, b)
  | fuel + 1, j, exitFlag, eold, V0, V1, data, a, b => do
    let (V2, a, b) ← oneStep p.mul p.reortho data V0 V1 a b j
    let tmp := p.eigs a b (j + 1)
    let (deltaMax, eold) ← deltas (min excited tmp.length) tmp eold
    let exitFlag := exitFlag || (open Classical in decide (deltaMax < p.tolerance)) || decide (j = maxn - 1)
    if exitFlag && decide (n ≤ 4) then some (j, data, a, b)
    else if exitFlag && decide (p.minSteps ≤ j) then some (j, data, a, b)
    else do
      let data ← setAt data (j + 1) V2
      loopD p maxn excited fuel (j + 1) exitFlag eold V1 V2 data a b

/-- `decomposition(initVector, ab, excitedForStop)`, src/LanczosCore.h:147-256.  `steps` is `steps_`, which the function
changes: it is `steps` of the result afterwards. -/
def decompositionD (p : SolverP 𝕜 n) (steps : Nat) (init : Fin n → 𝕜) (excited : Nat) : Option (Result 𝕜 n) := do
  let V0 : Fin n → 𝕜 := fun i => init i * ((1 / Real.sqrt (reDot init init) : ℝ) : 𝕜)
  let maxn := if steps > n then n else steps
  let a := List.replicate maxn (0 : ℝ)
  let b ← setAt (List.replicate maxn (0 : ℝ)) 0 0
  let data ← setAt (List.replicate maxn (0 : Fin n → 𝕜)) 0 V0
  let w := p.mul V0
  let atmp := reDot w V0
  let a ← setAt a 0 atmp
  let V1 : Fin n → 𝕜 := fun i => w i - (atmp : 𝕜) * V0 i
  let btmp := Real.sqrt (reDot V1 V1)
  let b ← setAt b 1 btmp
  let V1 := normalize V1 btmp
  let data ← (if 1 < maxn then setAt data 1 V1 else some data)
  let eold := List.replicate maxn (0 : ℝ)
  let (j, data, a, b) ← loopD p maxn excited (maxn - 1) 1 false eold V0 V1 data a b
  let k := if j < maxn then j + 1 else maxn
  return ⟨k, data.take k, a.take k, b.take k⟩

/-- The column `k` of `ritz`, out of range if there is no such column. -/
def column (ritz : Dense.Mat 𝕜) (k : Nat) : Option (Nat → 𝕜) :=
  if k < ritz.ncol then some fun j => (ritz.get j k).getD 0 else none

/-- `computeOneState`, src/LanczosSolver.h:36-70: the energy, the vector, and `steps_`.  The vector given as `z` is added
to. -/
def computeOneState (p : SolverP 𝕜 n) (steps : Nat) (z init : Fin n → 𝕜) (excited : Nat) :
    Out (ℝ × (Fin n → 𝕜) × Nat) :=
  match (do
    let r ← decompositionD p steps init excited
    let ritz ← buildDense (fun x : ℝ => (x : 𝕜)) r.a r.b ⟨0, 0, []⟩ 0
    let (eigs, ritz) := p.diag ritz
    let energy ← eigs[excited]?
    let y ← column ritz excited
    let z ← excitedVector r.data y z
    return (energy, z, r.steps) : Option (ℝ × (Fin n → 𝕜) × Nat)) with
  | none => ubOut
  | some (energy, z, steps) =>
    open Classical in if Real.sqrt (reDot z z) < 1 / 1000000 then throwOut else .ok (energy, z, steps)

/-- The loop of `computeAllStatesBelow`, src/LanczosSolver.h:88-89. -/
def allVectors (data : List (Fin n → 𝕜)) (ritz : Dense.Mat 𝕜) (m : Nat) (zs : List (Fin n → 𝕜)) : Option (List (Fin n → 𝕜)) :=
  loopN m (fun i zs => do
    let z ← zs[i]?
    let y ← column ritz i
    let z ← excitedVector data y z
    setAt zs i z) zs

/-- `computeAllStatesBelow`, src/LanczosSolver.h:72-89: the eigenvalues, the vectors, and `steps_`. -/
def computeAllStatesBelow (p : SolverP 𝕜 n) (steps : Nat) (zs : List (Fin n → 𝕜)) (init : Fin n → 𝕜) (excited : Nat) :
    Out (List ℝ × List (Fin n → 𝕜) × Nat) :=
  match decompositionD p steps init excited with
  | none => ubOut
  | some r =>
    if excited > r.steps then throwOut
    else
      match (do
        let ritz ← buildDense (fun x : ℝ => (x : 𝕜)) r.a r.b ⟨0, 0, []⟩ 0
        let (eigs, ritz) := p.diag ritz
        let zs ← allVectors r.data ritz (if zs.length > excited + 1 then excited + 1 else zs.length) zs
        return (eigs, zs, r.steps) : Option (List ℝ × List (Fin n → 𝕜) × Nat)) with
      | none => ubOut
      | some x => .ok x

end

end Verif.Krylov
