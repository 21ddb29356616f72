import Verif.Lapack.Spec
import Verif.Dense.Lemmas
import Mathlib.Analysis.Normed.Algebra.MatrixExponential
import Mathlib.Analysis.Normed.Algebra.Exponential

namespace Verif.Lapack

open Verif.Loop Verif.Dense

variable {𝕜 : Type} [RCLike 𝕜]

theorem toInt_ge {k : Int} {x : ℝ} (hk : 0 ≤ k) (h : (k : ℝ) ≤ x) : k ≤ toInt x := by
  unfold toInt
  have : (0 : ℝ) ≤ x := le_trans (by exact_mod_cast hk) h
  rw [if_pos this]
  exact Int.le_floor.2 h

/-- A represented matrix is in the array. -/
theorem rep_holds {m : Mat 𝕜} {r c : Nat} {A : Matrix (Fin r) (Fin c) 𝕜} (h : Represents m r c A) :
    GemmR.Holds .plain m.data r A := by
  intro i j
  rw [← h.entry i j, h.shape.get i.2 j.2]

theorem holds_rep {d : List 𝕜} {r c : Nat} {A : Matrix (Fin r) (Fin c) 𝕜} (hl : d.length = r * c)
    (h : GemmR.Holds .plain d r A) : Represents ⟨r, c, d⟩ r c A := by
  refine ⟨rfl, rfl, hl, ?_⟩
  intro i j
  have hs : Shape (⟨r, c, d⟩ : Mat 𝕜) r c := ⟨rfl, rfl, hl⟩
  rw [hs.get i.2 j.2]
  exact h i j

theorem get_some {m : Mat 𝕜} {r c : Nat} (h : Shape m r c) (hr : 0 < r) (hc : 0 < c) : (m.get 0 0).isNone = false := by
  rw [h.get hr hc]
  have : 0 + 0 * r < m.data.length := by rw [h.size]; exact idx_lt hr hc
  rw [List.getElem?_eq_getElem this]
  rfl

theorem get_none {m : Mat 𝕜} (h : m.nrow = 0 ∨ m.ncol = 0) : (m.get 0 0).isNone = true := by
  unfold Mat.get
  rw [if_neg (by omega)]
  rfl

/-- The loops of `exp` and `expIpi`. -/
theorem funcLoop_spec (e : ℝ → 𝕜) {v : Mat 𝕜} {eigs : List ℝ} {n : Nat} {V : Matrix (Fin n) (Fin n) 𝕜}
    {w : Fin n → ℝ} (hv : Represents v n n V) (hw : ∀ k : Fin n, eigs[k.val]? = some (w k)) :
    ∃ r, funcLoop e v eigs n = some r ∧
      Represents r n n (V * Matrix.diagonal (fun k => e (w k)) * V.conjTranspose).transpose := by
  unfold funcLoop
  refine fill_double _ (shape_mk0 n n) (fun i j => loopN n (fun k sum => do
      let alpha ← eigs[k]?
      let x ← v.get i k
      let y ← v.get j k
      return sum + star x * y * e alpha) 0) ?_
  intro i j
  have := loopN_sum n (fun k => do
      let alpha ← eigs[k]?
      let x ← v.get i k
      let y ← v.get j k
      return star x * y * e alpha) (fun k => star (V i k) * V j k * e (w k)) (by
        intro k
        simp [hw k, hv.entry i k, hv.entry j k]) 0
  rw [zero_add] at this
  rw [show ((V * Matrix.diagonal (fun k => e (w k)) * V.conjTranspose).transpose i j) =
      ∑ k, star (V i k) * V j k * e (w k) by
    rw [Matrix.transpose_apply, Matrix.mul_apply]
    refine Finset.sum_congr rfl fun k _ => ?_
    rw [Matrix.mul_diagonal, Matrix.conjTranspose_apply]
    ring, ← this]
  refine loopN_congr n _ _ _ ?_
  intro k s hk
  cases eigs[k]? <;> cases v.get i k <;> cases v.get j k <;> rfl

/-- A function of the eigenvalues that is the exponential of a multiple. -/
theorem exp_eigen {n : Nat} {H V : Matrix (Fin n) (Fin n) 𝕜} {w : Fin n → ℝ} (h : IsEigen H w V) (c : 𝕜) :
    NormedSpace.exp (c • H) = V * Matrix.diagonal (fun k => NormedSpace.exp (c * (w k : 𝕜))) * V.conjTranspose := by
  have hu : V * V.conjTranspose = 1 := mul_eq_one_comm.1 h.unitary
  have hi : V⁻¹ = V.conjTranspose := Matrix.inv_eq_right_inv hu
  have hU : IsUnit V := by
    rw [Matrix.isUnit_iff_isUnit_det]
    exact Matrix.isUnit_det_of_right_inverse hu
  have hH : c • H = V * Matrix.diagonal (fun k => c * (w k : 𝕜)) * V⁻¹ := by
    rw [hi, show (fun k => c * (w k : 𝕜)) = c • fun k => (w k : 𝕜) from rfl, Matrix.diagonal_smul,
      Matrix.mul_smul, Matrix.smul_mul, ← h.eigen, Matrix.mul_assoc, hu, Matrix.mul_one]
  rw [hH, Matrix.exp_conj _ _ hU, Matrix.exp_diagonal, hi, Pi.exp_def]

end Verif.Lapack
