import Verif.Spectral.Model
import Verif.Lapack.Model
import Verif.Krylov.Model

/-!
# Model of the constructor of `ContinuedFraction` with LAPACK
-/

namespace Verif.Spectral

open Verif.Loop Verif.Dense

noncomputable section

open Classical

/-- The loop over the intensities, src/ContinuedFraction.h:229-232. -/
def intensities (T : Mat ℝ) : Option (List ℝ) :=
  loopN T.nrow (fun i l => do
    let x ← T.get 0 i
    setAt l i (x * x)) (resizeL [] T.nrow 0)

/-- The constructor from a tridiagonal matrix and parameters, src/ContinuedFraction.h:59-69, and `set`, lines 133-141, which both
call `diagonalize`, lines 219-233; `c` has the other members. -/
def construct (f : Lapack.Heev ℝ) (c : CF) (a b : List ℝ) : Out CF :=
  if c.weight = 0 then .ok c
  else do
    let T ← Lapack.acc (Krylov.buildDense (fun x => x) a b ⟨0, 0, []⟩ 0)
    let (T, eigs) ← Lapack.diag f true T (resizeL c.eigs T.nrow 0) 'V'
    let l ← Lapack.acc (intensities T)
    return ⟨c.matsubara, c.eg, c.weight, c.isign, eigs, l⟩

end

end Verif.Spectral
