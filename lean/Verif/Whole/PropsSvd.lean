import Verif.Whole.ModelSvd
import Verif.Lapack.PropsSvd
import Mathlib.LinearAlgebra.Matrix.Charpoly.Coeff

/-!
# C156: a program that finds singular values twice
-/

namespace Verif.Whole.Svd

open Verif.Dense Verif.Lapack Matrix

/-- The matrix of the program. -/
def target : Matrix (Fin 4) (Fin 2) ℝ := !![2, 4; 1, 3; 0, 0; 0, 0]

theorem dense_spec : ∃ m, dense = some m ∧ Represents m 4 2 target := by
  refine ⟨⟨4, 2, [2, 1, 0, 0, 4, 3, 0, 0]⟩, rfl, Represents.of_data ⟨rfl, rfl, rfl⟩ ?_⟩
  intro i j
  fin_cases i <;> fin_cases j <;> simp [target]

/-- The singular values of the matrix. -/
theorem target_values {e : Fin 2 → ℝ} {U : Matrix (Fin 4) (Fin 4) ℝ} {Vt : Matrix (Fin 2) (Fin 2) ℝ}
    (h : IsSvd target U (e : Fin (min 4 2) → ℝ) Vt (by decide) (by decide)) :
    List.ofFn e = [Real.sqrt (15 + Real.sqrt 221), Real.sqrt (15 - Real.sqrt 221)] := by
  have h1 := h.charpoly
  have h2 : (targetᴴ * target).charpoly = ∏ k : Fin 2, (Polynomial.X - Polynomial.C (e k * e k)) :=
    mul_left_cancel₀ (pow_ne_zero 2 Polynomial.X_ne_zero) h1
  have hM : targetᴴ * target = !![5, 11; 11, 25] := by
    ext i j
    fin_cases i <;> fin_cases j <;> simp [target, mul_apply, Fin.sum_univ_four] <;> norm_num
  rw [hM, charpoly_fin_two, Fin.prod_univ_two] at h2
  have d0 := congrArg (Polynomial.eval 0) h2
  have d1 := congrArg (Polynomial.eval 1) h2
  simp [det_fin_two, trace_fin_two] at d0 d1
  have n0 : 0 ≤ e 0 := h.nonneg (0 : Fin 2)
  have n1 : 0 ≤ e 1 := h.nonneg (1 : Fin 2)
  have hle : e 1 ≤ e 0 := h.sorted (show (0 : Fin 2) ≤ 1 by decide)
  have hp : e 0 * e 0 + e 1 * e 1 = 30 := by linarith
  have hq : e 0 * e 0 * (e 1 * e 1) = 4 := by linarith
  have hge : 15 ≤ e 0 * e 0 := by nlinarith
  have hs : Real.sqrt 221 = e 0 * e 0 - 15 := by
    rw [Real.sqrt_eq_iff_mul_self_eq (by norm_num) (by linarith)]
    nlinarith
  rw [hs, List.ofFn_succ, List.ofFn_succ, List.ofFn_zero]
  have e1 : 15 + (e 0 * e 0 - 15) = e 0 * e 0 := by ring
  have e2 : 15 - (e 0 * e 0 - 15) = e 1 * e 1 := by linarith
  rw [e1, e2, Real.sqrt_mul_self n0, Real.sqrt_mul_self n1]
  rfl

/-- **C156** Whatever the two routines of LAPACK, the program prints twice the same singular values, and both matrices are orthogonal. -/
theorem svd_twice {f g : SvdRoutine ℝ} {least least' : Int → Int → Int} (hf : SvdDoc f least) (hg : SvdDoc g least')
    (hc : ∀ jobz m n a lda s u ldu vt ldvt lwork, (f jobz m n a lda s u ldu vt ldvt lwork).info ≤ 0)
    (hc' : ∀ jobz m n a lda s u ldu vt ldvt lwork, (g jobz m n a lda s u ldu vt ldvt lwork).info ≤ 0) :
    ∃ u u' U U', Represents u 4 4 U ∧ Represents u' 4 4 U' ∧ Uᵀ * U = 1 ∧ U'ᵀ * U' = 1 ∧
      program f g least least' = .ok (u, [Real.sqrt (15 + Real.sqrt 221), Real.sqrt (15 - Real.sqrt 221)], u',
        [Real.sqrt (15 + Real.sqrt 221), Real.sqrt (15 - Real.sqrt 221)]) := by
  obtain ⟨m, m1, m2⟩ := dense_spec
  obtain ⟨u, s, vt, U, e, Vt, r1, r2, r3, r4, r5⟩ := svd_spec hf m2 (by decide) (by decide) [] (vt := ⟨0, 0, []⟩) (jobz := 'A') (.inl rfl) (.inl rfl)
    fun _ _ _ _ => hc _ _ _ _ _ _ _ _ _ _ _
  obtain ⟨u', s', vt', U', e', Vt', q1, q2, q3, q4, q5⟩ := svd_spec hg m2 (by decide) (by decide) s (vt := vt) (jobz := 'A') (.inl rfl)
    (.inr r4.nrow) fun _ _ _ _ => hc' _ _ _ _ _ _ _ _ _ _ _
  refine ⟨u, u', U, U', r2, q2, ?_, ?_, ?_⟩
  · exact (congrArg (· * U) (conjTranspose_eq_transpose_of_trivial U).symm).trans r5.left
  · exact (congrArg (· * U') (conjTranspose_eq_transpose_of_trivial U').symm).trans q5.left
  · have w := target_values (e := e) r5
    have w' := target_values (e := e') q5
    unfold program
    rw [m1]
    simp only [acc, bind, Except.bind, r1, q1]
    rw [← w, r3, q3]
    rw [show List.ofFn e' = List.ofFn e from w'.trans w.symm]
    rfl

/-- There are routines as in the hypotheses. -/
example : ∃ (f : SvdRoutine ℝ) (least : Int → Int → Int) (u u' : Mat ℝ), program f f least least =
    .ok (u, [Real.sqrt (15 + Real.sqrt 221), Real.sqrt (15 - Real.sqrt 221)], u', [Real.sqrt (15 + Real.sqrt 221), Real.sqrt (15 - Real.sqrt 221)]) := by
  obtain ⟨f, least, hf, hc⟩ := svd_always_exists (𝕜 := ℝ)
  obtain ⟨u, u', _, _, _, _, _, _, h⟩ := svd_twice hf hf (fun _ _ _ _ _ _ _ _ _ _ _ => (hc _ _ _ _ _ _ _ _ _ _ _).le)
    fun _ _ _ _ _ _ _ _ _ _ _ => (hc _ _ _ _ _ _ _ _ _ _ _).le
  exact ⟨f, least, u, u', h⟩

end Verif.Whole.Svd
