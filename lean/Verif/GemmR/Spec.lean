import Verif.GemmR.Model
import Mathlib.Algebra.BigOperators.Group.Finset.Basic
import Mathlib.Data.Matrix.Mul
import Mathlib.LinearAlgebra.Matrix.ConjTranspose

/-!
# The product of two matrices
-/

namespace Verif.GemmR

variable {R : Type} [CommRing R] [StarRing R]

/-- The three forms of an argument. -/
inductive Form
  | plain
  | trans
  | conj

/-- The letters that stand for them. -/
def Form.letters : Form → List Char
  | .plain => ['N', 'n']
  | .trans => ['T', 't']
  | .conj => ['C', 'c']

/-- The list `M` holds, by columns of length `ld`, a matrix `X` with `op(X) = Y`. -/
def Holds (f : Form) (M : List R) (ld : Nat) {r s : Nat} (Y : Matrix (Fin r) (Fin s) R) : Prop :=
  match f with
  | .plain => ∀ (i : Fin r) (j : Fin s), M[i.val + j.val * ld]? = some (Y i j)
  | .trans => ∀ (i : Fin r) (j : Fin s), M[j.val + i.val * ld]? = some (Y i j)
  | .conj => ∀ (i : Fin r) (j : Fin s), ∃ x, M[j.val + i.val * ld]? = some x ∧ star x = Y i j

/-- The arguments make sense for BLAS: known letters, and leading dimensions not less than the lengths of columns. -/
structure Sensible (g : Args R) (fA fB : Form) : Prop where
  transA : g.transA ∈ fA.letters
  transB : g.transB ∈ fB.letters
  pos : 0 < g.m ∧ 0 < g.n
  ldA : 1 ≤ g.ldA ∧ match fA with | .plain => g.m ≤ g.ldA | _ => g.k ≤ g.ldA
  ldB : 1 ≤ g.ldB ∧ match fB with | .plain => g.k ≤ g.ldB | _ => g.n ≤ g.ldB
  ldC : g.m ≤ g.ldC

/-- The arguments make sense, and have sizes for which positions are values of `int`. -/
structure Valid (g : Args R) (fA fB : Form) : Prop extends Sensible g fA fB where
  sizes : g.m * g.ldA < 2 ^ 31 ∧ g.n * g.ldB < 2 ^ 31 ∧ g.n * g.ldC < 2 ^ 31

end Verif.GemmR
