import Verif.Whole.Model
import Verif.Krylov.ModelCurve

/-!
# A whole program: examples/testLanczos.cpp

Numbers have no rounding, but for the product inside the random number generator's constructor.
-/

namespace Verif.Whole.Lanczos

open Verif.Loop Verif.Dense

noncomputable section

/-- The diagonal, examples/testLanczos.cpp:17-20. -/
def diagonalOnes (n : Nat) : Option (Mat ℂ) := loopN n (fun i m => m.set i i 1) (Mat.mk0 n n)

/-- The dense matrix, examples/testLanczos.cpp:16-23; `none` is an access out of range. -/
def dense (n : Nat) : Option (Mat ℂ) := do
  let m ← diagonalOnes n
  let m ← m.set 1 2 ⟨0, 1 / 2⟩
  let x ← m.get 1 2
  let m ← m.set 2 1 (star x)
  let m ← m.set 5 3 (-(3 / 2))
  let x ← m.get 5 3
  m.set 3 5 x

/-- The program, examples/testLanczos.cpp:8-62: the energy and the vector printed.  The parameters are the ones of
src/ParametersForSolver.h:101-115, but for `lotaMemory`. -/
def program (fs : Lapack.Stedc) (fh : Lapack.Heev ℂ) (rnd : ℚ → ℚ) (now : Int) : Out (ℝ × (Fin 8 → ℂ)) := do
  let m ← Lapack.acc (dense 8)
  let c ← Lapack.acc (Crs.ofDense (fun z : ℂ => ‖z‖) m)
  let reortho ← isReorthoEnabled [] true
  Krylov.vectorsCtor true
  let v ← start rnd now 8
  let r ← Krylov.computeOneState ⟨crsMul c 8, reortho, 1 / 1000000000000, 4, Lapack.eigsOf fs, Lapack.diagOf fh false⟩ 200 0 v 0
  return (r.1, r.2.1)

end

end Verif.Whole.Lanczos
