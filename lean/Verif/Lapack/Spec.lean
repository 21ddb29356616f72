import Verif.Lapack.Model
import Verif.GemmR.Spec
import Mathlib.LinearAlgebra.UnitaryGroup
import Mathlib.Data.Matrix.Diagonal
import Mathlib.LinearAlgebra.Matrix.NonsingularInverse

/-!
# What the documentation of LAPACK says of its routines, and what a decomposition is
-/

namespace Verif.Lapack

open Verif.Dense

variable {𝕜 : Type} [RCLike 𝕜]

/-- `w` are the eigenvalues of `H` in ascending order and the columns of `V` are eigenvectors, orthonormal. -/
structure IsEigen {n : Nat} (H : Matrix (Fin n) (Fin n) 𝕜) (w : Fin n → ℝ) (V : Matrix (Fin n) (Fin n) 𝕜) : Prop where
  sorted : Monotone w
  unitary : V.conjTranspose * V = 1
  eigen : H * V = V * Matrix.diagonal fun k => (w k : 𝕜)

/-- `dsyev_`, `ssyev_` (`isReal`) and `zheev_`, `cheev_`. -/
structure HeevDoc (f : Heev 𝕜) (isReal : Bool) : Prop where
  illegal : ∀ jobz uplo n a lda w lwork, ¬ heevLegal isReal jobz uplo n lda lwork →
    (f jobz uplo n a lda w lwork).info < 0
  query : ∀ jobz uplo n a lda w, heevLegal isReal jobz uplo n lda (-1) →
    (f jobz uplo n a lda w (-1)).info = 0 ∧ (f jobz uplo n a lda w (-1)).a = a ∧ (f jobz uplo n a lda w (-1)).w = w
  work : ∀ (jobz uplo : Char) (n : Nat) (a : List 𝕜) (lda : Nat) (w : List ℝ) (lwork : Int)
    (H : Matrix (Fin n) (Fin n) 𝕜), heevLegal isReal jobz uplo n lda lwork → lwork ≠ -1 →
    heevRoom isReal n a lda w lwork lwork.toNat (3 * n) → uplo ∈ ['U', 'u'] → H.conjTranspose = H →
    (∀ i j : Fin n, i ≤ j → a[i.val + j.val * lda]? = some (H i j)) →
    0 ≤ (f jobz uplo n a lda w lwork).info ∧ (f jobz uplo n a lda w lwork).a.length = a.length ∧
    (f jobz uplo n a lda w lwork).w.length = w.length ∧
    ((f jobz uplo n a lda w lwork).info = 0 → ∃ (e : Fin n → ℝ) (V : Matrix (Fin n) (Fin n) 𝕜), IsEigen H e V ∧
      (∀ k : Fin n, (f jobz uplo n a lda w lwork).w[k.val]? = some (e k)) ∧
      (jobz ∈ ['V', 'v'] → GemmR.Holds .plain (f jobz uplo n a lda w lwork).a lda V))

/-- `getrf` and `getri`, of all four types.  A matrix without an inverse has a pivot equal to zero, which makes `info`
positive. -/
structure GetrDoc (g : Getr 𝕜) : Prop where
  trf : ∀ (n : Nat) (a : List 𝕜) (lda : Nat) (ipiv : List Int), (g.trf n n a lda ipiv).a.length = a.length ∧
    (g.trf n n a lda ipiv).ipiv.length = ipiv.length
  query : ∀ (n : Nat) (a : List 𝕜) (lda : Nat) (ipiv : List Int), n ≤ lda → 0 < n →
    (g.tri n a lda ipiv (-1)).a = a ∧ (n : ℝ) ≤ (g.tri n a lda ipiv (-1)).work0
  work : ∀ (n : Nat) (a : List 𝕜) (lda : Nat) (ipiv : List Int) (lwork : Int) (A : Matrix (Fin n) (Fin n) 𝕜),
    n ≤ lda → 0 < n → n ≤ ipiv.length → n ≤ lwork → GemmR.Holds .plain a lda A →
    (IsUnit A → (g.tri n (g.trf n n a lda ipiv).a lda (g.trf n n a lda ipiv).ipiv lwork).info = 0 ∧
      (g.tri n (g.trf n n a lda ipiv).a lda (g.trf n n a lda ipiv).ipiv lwork).a.length = a.length ∧
      GemmR.Holds .plain (g.tri n (g.trf n n a lda ipiv).a lda (g.trf n n a lda ipiv).ipiv lwork).a lda A⁻¹ ∧
      ∀ p, (∀ i j : Fin n, p ≠ i.val + j.val * lda) →
        (g.tri n (g.trf n n a lda ipiv).a lda (g.trf n n a lda ipiv).ipiv lwork).a[p]? = a[p]?) ∧
    (¬ IsUnit A → 0 < (g.tri n (g.trf n n a lda ipiv).a lda (g.trf n n a lda ipiv).ipiv lwork).info)

/-- `A` is the sum over `k` of column `k` of `U`, times `s k`, times row `k` of `Vt`; columns of `U` and rows of `Vt` are
orthonormal, and the numbers `s` descend to zero or above it. -/
structure IsSvd {m n uc vr : Nat} (A : Matrix (Fin m) (Fin n) 𝕜) (U : Matrix (Fin m) (Fin uc) 𝕜)
    (s : Fin (min m n) → ℝ) (Vt : Matrix (Fin vr) (Fin n) 𝕜) (hu : min m n ≤ uc) (hv : min m n ≤ vr) : Prop where
  sorted : Antitone s
  nonneg : ∀ k, 0 ≤ s k
  left : U.conjTranspose * U = 1
  right : Vt * Vt.conjTranspose = 1
  sum : ∀ i j, A i j = ∑ k : Fin (min m n), U i (k.castLE hu) * (s k : 𝕜) * Vt (k.castLE hv) j

/-- Columns of `U`. -/
def uCols (jobz : Char) (m n : Nat) : Nat := if jobz = 'A' then m else min m n

/-- Rows of `Vt`. -/
def vRows (jobz : Char) (m n : Nat) : Nat := if jobz = 'A' then n else min m n

theorem le_uCols (jobz : Char) (m n : Nat) : min m n ≤ uCols jobz m n := by unfold uCols; split <;> omega

theorem le_vRows (jobz : Char) (m n : Nat) : min m n ≤ vRows jobz m n := by unfold vRows; split <;> omega

/-- `gesdd` and `gesvd` (the latter with the letter given twice), of all four types. -/
structure SvdDoc (f : SvdRoutine 𝕜) (least : Int → Int → Int) : Prop where
  query : ∀ jobz m n a lda s u ldu vt ldvt, svdLegal least jobz m n lda ldu ldvt (-1) →
    (f jobz m n a lda s u ldu vt ldvt (-1)).info = 0 ∧ (f jobz m n a lda s u ldu vt ldvt (-1)).a = a ∧
    (f jobz m n a lda s u ldu vt ldvt (-1)).s = s ∧ (f jobz m n a lda s u ldu vt ldvt (-1)).u = u ∧
    (f jobz m n a lda s u ldu vt ldvt (-1)).vt = vt ∧
    ((max 1 (least m n) : Int) : ℝ) ≤ (f jobz m n a lda s u ldu vt ldvt (-1)).work0
  work : ∀ (jobz : Char) (m n : Nat) (a : List 𝕜) (lda : Nat) (s : List ℝ) (u : List 𝕜) (ldu : Nat) (vt : List 𝕜)
    (ldvt : Nat) (lwork : Int) (work rwork iwork : Nat) (A : Matrix (Fin m) (Fin n) 𝕜),
    svdLegal least jobz m n lda ldu ldvt lwork → lwork ≠ -1 →
    svdRoom jobz m n a lda s u ldu vt ldvt lwork work rwork iwork → GemmR.Holds .plain a lda A →
    0 ≤ (f jobz m n a lda s u ldu vt ldvt lwork).info ∧
    (f jobz m n a lda s u ldu vt ldvt lwork).s.length = s.length ∧
    (f jobz m n a lda s u ldu vt ldvt lwork).u.length = u.length ∧
    (f jobz m n a lda s u ldu vt ldvt lwork).vt.length = vt.length ∧
    ((f jobz m n a lda s u ldu vt ldvt lwork).info = 0 → ∃ U e Vt,
      IsSvd A U e Vt (le_uCols jobz m n) (le_vRows jobz m n) ∧
      GemmR.Holds .plain (f jobz m n a lda s u ldu vt ldvt lwork).u ldu U ∧
      (∀ k : Fin (min m n), (f jobz m n a lda s u ldu vt ldvt lwork).s[k.val]? = some (e k)) ∧
      GemmR.Holds .plain (f jobz m n a lda s u ldu vt ldvt lwork).vt ldvt Vt)

end Verif.Lapack
