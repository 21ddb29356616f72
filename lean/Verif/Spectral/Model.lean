import Verif.Util.Loop
import Verif.Util.Out
import Mathlib.Analysis.Complex.Basic
import Mathlib.Analysis.SpecialFunctions.Trigonometric.Basic
import Mathlib.Algebra.Order.Floor.Semiring
import Mathlib.LinearAlgebra.Matrix.Notation

/-!
# Model of `ContinuedFraction` and `ContinuedFractionCollection`

Numbers are exact.  Real numbers are compared, so the definitions are not computable.  `diag` (LAPACK) gives the eigenvalues
and the matrix of the eigenvectors, from which line 231 takes the first row.
-/

namespace Verif.Spectral

open Verif.Loop

noncomputable section

open Classical

/-- The members of `ContinuedFraction` that the plots use, src/ContinuedFraction.h:241-248. -/
structure CF where
  matsubara : Bool
  eg : ℝ
  weight : ℂ
  isign : ℤ
  eigs : List ℝ
  intensity : List ℝ

/-- `PlotParams`, src/PlotParams.h. -/
structure PlotP where
  omega1 : ℝ
  omega2 : ℝ
  deltaOmega : ℝ
  delta : ℝ
  beta : ℝ
  matsubaras : Nat

/-- `diagonalize`, src/ContinuedFraction.h:219-232, from the eigenvalues and the first row of the eigenvectors. -/
def diagonalize (c : CF) (eigs row : List ℝ) : CF :=
  if c.weight = 0 then c
  else ⟨c.matsubara, c.eg, c.weight, c.isign, eigs, row.map fun x => x * x⟩

/-- `iOfOmega`, src/ContinuedFraction.h:200-211. -/
def iOfOmega (c : CF) (z : ℂ) (offset : ℝ) (isign : ℤ) : Option ℂ :=
  if c.weight = 0 then some 0
  else do
    let sum ← loopN c.intensity.length (fun l sum => do
      let i ← c.intensity[l]?
      let e ← c.eigs[l]?
      return sum + (i : ℂ) / (z - (isign : ℂ) * ((offset - e : ℝ) : ℂ))) 0
    return sum * c.weight

/-- The loop over frequencies, src/ContinuedFraction.h:162-170; `size` is the number of points, which bounds the passes. -/
def realLoop (g : ℝ → Option ℂ) (omega2 delta : ℝ) : Nat → ℝ → Nat → List (ℝ × ℂ) → Option (List (ℝ × ℂ))
  | 0, _, _, _ => none
  | fuel + 1, omega, counter, result =>
    if omega < omega2 then do
      let res ← g omega
      let result ← setAt result counter (omega, res)
      if result.length ≤ counter + 1 then some result
      else realLoop g omega2 delta fuel (omega + delta) (counter + 1) result
    else some result

/-- `plotReal`, src/ContinuedFraction.h:156-171.  The conversion of a number below zero, or of a division by zero, is
undefined. -/
def plotReal (c : CF) (p : PlotP) (result : List (ℝ × ℂ)) : Option (List (ℝ × ℂ)) :=
  if p.deltaOmega = 0 ∨ (p.omega2 - p.omega1) / p.deltaOmega ≤ -1 then none
  else
    let n := ⌊(p.omega2 - p.omega1) / p.deltaOmega⌋₊
    let result := if result.length = 0 then List.replicate n (0, 0) else result
    realLoop (fun omega => iOfOmega c ⟨omega, p.delta⟩ c.eg c.isign) p.omega2 p.deltaOmega (result.length + 1) p.omega1 0 result

/-- `matsubara`, src/ContinuedFraction.h:234-237. -/
def matsubara (ind : Nat) (p : PlotP) : ℝ := (2 * ind + 1) * Real.pi / p.beta

/-- The loop of `plotMatsubara`, src/ContinuedFraction.h:180-191. -/
def matsubaraLoop (c : CF) (p : PlotP) : Nat → Nat → List (ℝ × ℂ) → Option (List (ℝ × ℂ))
  | 0, _, result => some result
  | fuel + 1, ind, result => do
    let res ← iOfOmega c ⟨p.delta, matsubara ind p⟩ c.eg c.isign
    let result ← setAt result ind (matsubara ind p, res)
    if result.length ≤ ind + 1 then some result else matsubaraLoop c p fuel (ind + 1) result

/-- `plotMatsubara`, src/ContinuedFraction.h:173-192. -/
def plotMatsubara (c : CF) (p : PlotP) (result : List (ℝ × ℂ)) : Option (List (ℝ × ℂ)) :=
  let result := if result.length = 0 then List.replicate p.matsubaras (0, 0) else result
  matsubaraLoop c p p.matsubaras 0 result

/-- `plot`, src/ContinuedFraction.h:144-154. -/
def plot (c : CF) (p : PlotP) (result : List (ℝ × ℂ)) : Option (List (ℝ × ℂ)) :=
  if c.matsubara ∨ p.matsubaras > 0 then plotMatsubara c p result else plotReal c p result

/-- The loop of `accumulate` for vectors that are not empty, src/ContinuedFractionCollection.h:122-134. -/
def addLoop : List (ℝ × ℂ) → List (ℝ × ℂ) → Out (List (ℝ × ℂ))
  | [], _ => .ok []
  | _ :: _, [] => ubOut
  | a :: v1, b :: v2 => if a.1 ≠ b.1 then throwOut else do
    let r ← addLoop v1 v2
    return (a.1, a.2 + b.2) :: r

/-- `accumulate`, src/ContinuedFractionCollection.h:108-135.  What is left of `v1` after a throw is not modelled. -/
def accumulate (v1 v2 : List (ℝ × ℂ)) : Out (List (ℝ × ℂ)) :=
  if v1.length = 0 then .ok v2
  else if v1.length ≠ v2.length then throwOut
  else addLoop v1 v2

/-- `ContinuedFractionCollection::plot`, src/ContinuedFractionCollection.h:88-95. -/
def plotAll (data : List CF) (p : PlotP) (result : List (ℝ × ℂ)) : Out (List (ℝ × ℂ)) :=
  data.foldlM (fun result c => do
    let r ← (match plot c p [] with | some r => .ok r | none => ubOut)
    accumulate result r) result

end

end Verif.Spectral
