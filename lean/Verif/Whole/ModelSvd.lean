import Verif.Lapack.Model

/-!
# A whole program: examples/svd.cpp
-/

namespace Verif.Whole.Svd

open Verif.Dense Verif.Lapack

noncomputable section

/-- The matrix, examples/svd.cpp:9-13; `none` is an access out of range. -/
def dense : Option (Mat ℝ) := do
  let a : Mat ℝ := Mat.mk0 4 2
  let a ← a.set 0 0 2
  let a ← a.set 0 1 4
  let a ← a.set 1 0 1
  a.set 1 1 3

/-- The program, examples/svd.cpp:5-38: the two matrices after `U` and the two vectors after `S`.  `f` is `dgesdd_` and `g` is
`dgesvd_`; the second call is given the `s` and the `vt` that the first has left. -/
def program (f g : SvdRoutine ℝ) (least least' : Int → Int → Int) : Out (Mat ℝ × List ℝ × Mat ℝ × List ℝ) := do
  let a ← acc dense
  let m := a
  let r ← svd f least 'A' a [] ⟨0, 0, []⟩
  let q ← svd g least' 'A' m r.2.1 r.2.2
  return (r.1, r.2.1, q.1, q.2.1)

end

end Verif.Whole.Svd
