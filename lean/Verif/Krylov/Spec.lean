import Verif.Krylov.Model
import Mathlib.LinearAlgebra.Matrix.Hermitian

/-!
# Tridiagonal matrices and orthonormal vectors
-/

namespace Verif.Krylov

/-- The tridiagonal matrix with the diagonal `a` and the entries `b` (from `b 1` on) beside it. -/
def tri {α : Type} [Zero α] [Star α] (a b : Nat → α) (k : Nat) : Matrix (Fin k) (Fin k) α := fun i j =>
  if i = j then a i
  else if j.val = i.val + 1 then b j
  else if i.val = j.val + 1 then star (b i)
  else 0

/-- The first `k` vectors as the columns of a matrix. -/
def cols {𝕜 : Type} {n : Nat} (v : Nat → Fin n → 𝕜) (k : Nat) : Matrix (Fin n) (Fin k) 𝕜 := fun i j => v j i

end Verif.Krylov
