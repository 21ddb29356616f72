import Verif.Whole.ModelLanczos
import Verif.Whole.Props
import Mathlib.LinearAlgebra.Eigenspace.Basic

/-!
# C155: the lowest energy of the matrix of testLanczos
-/

namespace Verif.Whole.Lanczos

open Verif.Loop Verif.Dense Verif.Krylov Verif.Lapack Matrix

/-! ## Powers of a matrix with few eigenvalues -/

theorem pow_eigen {n : Nat} {H : Matrix (Fin n) (Fin n) ℂ} {x : Fin n → ℂ} {μ : ℂ} (h : H *ᵥ x = μ • x) (i : Nat) :
    (H ^ i) *ᵥ x = μ ^ i • x := by
  induction i with
  | zero => simp
  | succ i ih => rw [pow_succ, ← mulVec_mulVec, h, mulVec_smul, ih, smul_smul, pow_succ, mul_comm]

/-- A vector that is a sum of `m` eigenvectors with eigenvalues that differ: the first `m` powers are independent, and their
space has all the eigenvectors. -/
theorem eigen_parts {n m : Nat} {H : Matrix (Fin n) (Fin n) ℂ} {u : Fin m → Fin n → ℂ} {μ : Fin m → ℂ} (hμ : Function.Injective μ)
    (hu : ∀ j, H *ᵥ u j = μ j • u j) (h0 : ∀ j, u j ≠ 0) :
    Independent H (∑ j, u j) m ∧ ∀ j, u j ∈ Powers H (∑ j, u j) m := by
  have hlin : LinearIndependent ℂ u :=
    Module.End.eigenvectors_linearIndependent' (Matrix.toLin' H) μ hμ u fun j =>
      Module.End.hasEigenvector_iff.2 ⟨Module.End.mem_eigenspace_iff.2 (by rw [toLin'_apply, hu]), h0 j⟩
  have hpow : ∀ i : Nat, (H ^ i) *ᵥ (∑ j, u j) = ∑ j, μ j ^ i • u j := by
    intro i
    rw [mulVec_sum]
    exact Finset.sum_congr rfl fun j _ => pow_eigen (hu j) i
  have hdet : (vandermonde μ).det ≠ 0 := det_vandermonde_ne_zero_iff.2 hμ
  have hind : Independent H (∑ j, u j) m := by
    unfold Independent
    rw [Fintype.linearIndependent_iff]
    intro g hg
    have h1 : ∑ j, (∑ i : Fin m, g i * μ j ^ i.1) • u j = 0 := by
      rw [← hg]
      simp only [hpow, Finset.smul_sum, Finset.sum_smul, smul_smul]
      exact Finset.sum_comm
    have h2 := Fintype.linearIndependent_iff.1 hlin _ h1
    have := Matrix.eq_zero_of_mulVec_eq_zero hdet (v := g) (by
      funext k
      simp only [Matrix.mulVec, dotProduct, vandermonde_apply, Pi.zero_apply]
      rw [← h2 k]
      exact Finset.sum_congr rfl fun i _ => mul_comm _ _)
    exact fun i => congrFun this i
  refine ⟨hind, fun j => ?_⟩
  have hle : Powers H (∑ j, u j) m ≤ Submodule.span ℂ (Set.range u) := by
    unfold Powers
    rw [Submodule.span_le]
    rintro _ ⟨i, rfl⟩
    simp only [hpow]
    exact Submodule.sum_mem _ fun j _ => Submodule.smul_mem _ _ (Submodule.subset_span ⟨j, rfl⟩)
  have heq : Powers H (∑ j, u j) m = Submodule.span ℂ (Set.range u) := by
    refine Submodule.eq_of_le_of_finrank_eq hle ?_
    rw [finrank_span_eq_card hlin]
    exact finrank_span_eq_card hind
  rw [heq]
  exact Submodule.subset_span ⟨j, rfl⟩

/-! ## The matrix -/

/-- The matrix of the program: ones on the diagonal, sites 1 and 2 joined by `i/2`, sites 3 and 5 by `-3/2`. -/
noncomputable def target : Matrix (Fin 8) (Fin 8) ℂ := fun i j =>
  if i = j then 1
  else if i = 1 ∧ j = 2 then Complex.I / 2
  else if i = 2 ∧ j = 1 then -(Complex.I / 2)
  else if (i = 3 ∧ j = 5) ∨ (i = 5 ∧ j = 3) then -(3 / 2)
  else 0

theorem dense_spec : ∃ m, dense 8 = some m ∧ Represents m 8 8 target := by
  refine ⟨⟨8, 8, [1, 0, 0, 0, 0, 0, 0, 0, 0, 1, star ⟨0, 1 / 2⟩, 0, 0, 0, 0, 0, 0, ⟨0, 1 / 2⟩, 1, 0, 0, 0, 0, 0,
    0, 0, 0, 1, 0, -(3 / 2), 0, 0, 0, 0, 0, 0, 1, 0, 0, 0, 0, 0, 0, -(3 / 2), 0, 1, 0, 0,
    0, 0, 0, 0, 0, 0, 1, 0, 0, 0, 0, 0, 0, 0, 0, 1]⟩, rfl, Represents.of_data ⟨rfl, rfl, rfl⟩ ?_⟩
  have h : (⟨0, 1 / 2⟩ : ℂ) = Complex.I / 2 := by
    apply Complex.ext <;> simp
  rw [h]
  intro i j
  fin_cases i <;> fin_cases j <;> simp [target, neg_div]

theorem target_hermitian : target.IsHermitian := by
  ext i j
  fin_cases i <;> fin_cases j <;> simp [target, conjTranspose_apply, neg_div]

/-- What the matrix does to a vector. -/
theorem target_mul (x : Fin 8 → ℂ) : target *ᵥ x = ![x 0, x 1 + Complex.I / 2 * x 2, -(Complex.I / 2) * x 1 + x 2, x 3 - 3 / 2 * x 5, x 4,
    -(3 / 2) * x 3 + x 5, x 6, x 7] := by
  funext i
  fin_cases i <;> simp [Matrix.mulVec, dotProduct, Fin.sum_univ_eight, target, Fin.ext_iff] <;> ring

/-- The lowest eigenvalue is `-1/2`: no expectation value is below. -/
theorem target_lower : LowerBound target (-(1 / 2)) := by
  intro x
  have h : RCLike.re (star x ⬝ᵥ (target *ᵥ x)) = -(1 / 2) * ∑ i, ‖x i‖ ^ 2 + (3 / 2 * (‖x 0‖ ^ 2 + ‖x 4‖ ^ 2 + ‖x 6‖ ^ 2 + ‖x 7‖ ^ 2) +
      (‖x 1‖ ^ 2 + ‖x 2‖ ^ 2 + 1 / 2 * ‖x 1 + Complex.I * x 2‖ ^ 2) + 3 / 2 * ‖x 3 - x 5‖ ^ 2) := by
    simp only [← Complex.normSq_eq_norm_sq, Complex.normSq_apply]
    rw [target_mul]
    simp [dotProduct, Fin.sum_univ_eight]
    ring
  rw [h]
  have : 0 ≤ 3 / 2 * (‖x 0‖ ^ 2 + ‖x 4‖ ^ 2 + ‖x 6‖ ^ 2 + ‖x 7‖ ^ 2) +
      (‖x 1‖ ^ 2 + ‖x 2‖ ^ 2 + 1 / 2 * ‖x 1 + Complex.I * x 2‖ ^ 2) + 3 / 2 * ‖x 3 - x 5‖ ^ 2 := by positivity
  linarith

/-- The five eigenvalues. -/
noncomputable def levels : Fin 5 → ℂ := ![-(1 / 2), 1 / 2, 1, 3 / 2, 5 / 2]

/-- The parts of a vector that belong to them. -/
noncomputable def parts (v : Fin 8 → ℂ) : Fin 5 → Fin 8 → ℂ :=
  ![![0, 0, 0, (v 3 + v 5) / 2, 0, (v 3 + v 5) / 2, 0, 0],
    ![0, -Complex.I * ((v 2 + Complex.I * v 1) / 2), (v 2 + Complex.I * v 1) / 2, 0, 0, 0, 0, 0],
    ![v 0, 0, 0, 0, v 4, 0, v 6, v 7],
    ![0, Complex.I * ((v 2 - Complex.I * v 1) / 2), (v 2 - Complex.I * v 1) / 2, 0, 0, 0, 0, 0],
    ![0, 0, 0, (v 3 - v 5) / 2, 0, -((v 3 - v 5) / 2), 0, 0]]

theorem parts_sum (v : Fin 8 → ℂ) : ∑ j, parts v j = v := by
  funext i
  have hI := Complex.I_mul_I
  rw [Finset.sum_apply, Fin.sum_univ_five]
  fin_cases i <;> simp [parts] <;> ring_nf
  simp

theorem parts_eigen (v : Fin 8 → ℂ) (j : Fin 5) : target *ᵥ parts v j = levels j • parts v j := by
  rw [target_mul]
  funext i
  fin_cases j <;> fin_cases i <;> simp [parts, levels] <;> ring_nf <;> simp <;> ring

theorem levels_injective : Function.Injective levels := by
  intro a b h
  fin_cases a <;> fin_cases b <;> simp [levels] at h ⊢ <;> norm_num [Complex.ext_iff] at h

/-! ## The random vector -/

/-- The eight random numbers, at whatever time: all that is needed of them. -/
theorem first_eight (rnd : ℚ → ℚ) (hr : Random.Rounding rnd) (now : Int) :
    ∃ v : List ℝ, Random.fillRandom rnd now 8 = some v ∧ v.length = 8 ∧ v.getD 0 0 ≠ 0 ∧ v.getD 2 0 ≠ 0 ∧
      v.getD 3 0 + v.getD 5 0 ≠ 0 ∧ v.getD 3 0 - v.getD 5 0 ≠ 0 := by
  obtain ⟨v, hv, hl, hs, -⟩ := Random.fillRandom_unit rnd hr now 8 (by omega)
  obtain ⟨s, h1, -, -⟩ := Random.make48_spec rnd hr now 0 1 (by omega)
  refine ⟨v, hv, hl, ?_⟩
  unfold Random.fillRandom at hv
  rw [if_neg (by omega), h1] at hv
  simp only [Option.map_some, Random.drands, Random.drand48, List.map_cons, List.map_nil, Option.some.injEq] at hv
  generalize 1.0 / Real.sqrt _ = c at hv
  have hc : c ≠ 0 := by
    rintro rfl
    subst hv
    simp only [mul_zero, List.map_cons, List.map_nil, List.sum_cons, List.sum_nil, add_zero] at hs
    exact zero_ne_one hs
  have k0 : Random.lcg (Random.srand48 s) % 4 = 1 := by
    unfold Random.lcg Random.srand48
    omega
  have step : ∀ k, Random.lcg k % 4 = (k + 3) % 4 := by
    intro k
    unfold Random.lcg
    omega
  generalize Random.lcg (Random.srand48 s) = a0 at k0 hv
  have k1 := step a0
  generalize Random.lcg a0 = a1 at k1 hv
  have k2 := step a1
  generalize Random.lcg a1 = a2 at k2 hv
  have k3 := step a2
  generalize Random.lcg a2 = a3 at k3 hv
  have k4 := step a3
  generalize Random.lcg a3 = a4 at k4 hv
  have k5 := step a4
  generalize Random.lcg a4 = a5 at k5 hv
  subst hv
  simp only [Rat.cast_div, Rat.cast_natCast, Rat.cast_ofNat, List.getD_cons_zero, List.getD_cons_succ]
  have e5 : (0.5 : ℝ) = 1 / 2 := by norm_num
  rw [e5, ← add_mul, ← sub_mul]
  refine ⟨mul_ne_zero ?_ hc, mul_ne_zero ?_ hc, mul_ne_zero ?_ hc, mul_ne_zero ?_ hc⟩
  · intro h
    have h2 : (a0 : ℝ) = 140737488355328 := by linarith
    have h3 : a0 = 140737488355328 := by exact_mod_cast h2
    omega
  · intro h
    have h2 : (a2 : ℝ) = 140737488355328 := by linarith
    have h3 : a2 = 140737488355328 := by exact_mod_cast h2
    omega
  · intro h
    have h2 : (a3 : ℝ) + a5 = 281474976710656 := by linarith
    have h3 : a3 + a5 = 281474976710656 := by exact_mod_cast h2
    omega
  · intro h
    have h2 : (a3 : ℝ) = a5 := by linarith
    have h3 : a3 = a5 := by exact_mod_cast h2
    omega

/-- No part of the random vector is zero. -/
theorem parts_ne {v : List ℝ} (h0 : v.getD 0 0 ≠ 0) (h2 : v.getD 2 0 ≠ 0) (hs : v.getD 3 0 + v.getD 5 0 ≠ 0)
    (hd : v.getD 3 0 - v.getD 5 0 ≠ 0) (j : Fin 5) : parts (startOf v 8) j ≠ 0 := by
  intro h
  fin_cases j
  · have := congrFun h 3
    simp only [parts, startOf] at this
    exact hs (by simpa using congrArg Complex.re this)
  · have := congrFun h 2
    simp only [parts, startOf] at this
    exact h2 (by simpa using congrArg Complex.re this)
  · have := congrFun h 0
    simp only [parts, startOf] at this
    exact h0 (by simpa using congrArg Complex.re this)
  · have := congrFun h 2
    simp only [parts, startOf] at this
    exact h2 (by simpa using congrArg Complex.re this)
  · have := congrFun h 3
    simp only [parts, startOf] at this
    exact hd (by simpa using congrArg Complex.re this)

/-! ## The program -/

theorem reortho_off : isReorthoEnabled [] true = .ok false := by decide

/-- **C155** At whatever time the program is run it prints the lowest eigenvalue, `-1/2`, and a normalized eigenvector: zero but for
sites 3 and 5, where it has the same number, of square size `1/2`. -/
theorem lanczos_ground {fs : Stedc} (hs : StedcDoc fs) {fh : Heev ℂ} (hf : HeevDoc fh false)
    (hc : ∀ jobz uplo n a lda w lwork, (fh jobz uplo n a lda w lwork).info ≤ 0) (rnd : ℚ → ℚ) (hr : Random.Rounding rnd) (now : Int) :
    ∃ x : ℂ, ‖x‖ ^ 2 = 1 / 2 ∧ program fs fh rnd now = .ok (-(1 / 2), ![0, 0, 0, x, 0, x, 0, 0]) := by
  obtain ⟨m, m1, m2⟩ := dense_spec
  obtain ⟨c, c1, c2⟩ := crs_of m2
  obtain ⟨v, hv, -, v0, v2, v3, v4⟩ := first_eight rnd hr now
  have hst : start rnd now 8 = .ok (startOf v 8) := by
    unfold start
    rw [hv]
  obtain ⟨hi, hp⟩ := eigen_parts levels_injective (parts_eigen (startOf v 8)) (parts_ne v0 v2 v3 v4)
  rw [parts_sum] at hi hp
  obtain ⟨E, z, e, hR, hl, hE, -, -⟩ := ground_inexact_fails
    (⟨(target *ᵥ ·), false, 1 / 1000000000000, 4, eigsOf fs, diagOf fh false⟩ : SolverP ℂ 8) target rfl target_hermitian (eigs_same_size hs)
    (diag_diagonalizes hf hc) 200 (startOf v 8) (by decide) (.inr (by simp only; omega)) (by norm_num) 5 rfl hi
  have hlow := hl _ target_lower
  have hEq : E = -(1 / 2) := by
    have h1 := hE _ (hp 0)
    rw [parts_eigen, dotProduct_smul, dot_self, reDot_self] at h1
    have hpos : 0 < ∑ i, ‖parts (startOf v 8) 0 i‖ ^ 2 := by
      have := parts_ne v0 v2 v3 v4 0
      obtain ⟨i, hi⟩ := Function.ne_iff.1 this
      have hi' : 0 < ‖parts (startOf v 8) 0 i‖ := norm_pos_iff.2 hi
      exact Finset.sum_pos' (fun i _ => by positivity) ⟨i, Finset.mem_univ _, by positivity⟩
    have h2 : E * ∑ i, ‖parts (startOf v 8) 0 i‖ ^ 2 ≤ -(1 / 2) * ∑ i, ‖parts (startOf v 8) 0 i‖ ^ 2 := by
      refine h1.trans (le_of_eq ?_)
      have : levels 0 = ((-(1 / 2) : ℝ) : ℂ) := by simp [levels]
      rw [this, smul_eq_mul]
      exact RCLike.re_ofReal_mul _ _
    exact le_antisymm (le_of_mul_le_mul_right h2 hpos) hlow
  subst hEq
  have hz := lowest_eigen target_hermitian target_lower hR.unit hR.energy
  rw [target_mul] at hz
  have z0 := congrFun hz 0
  have z1 := congrFun hz 1
  have z2 := congrFun hz 2
  have z3 := congrFun hz 3
  have z4 := congrFun hz 4
  have z6 := congrFun hz 6
  have z7 := congrFun hz 7
  simp at z0 z1 z2 z3 z4 z6 z7
  have hI := Complex.I_mul_I
  have e2 : z 2 = 0 := by linear_combination (3 / 4) * z2 + (Complex.I / 4) * z1 - (z 2 / 8) * hI
  have e1 : z 1 = 0 := by linear_combination (2 / 3) * z1 - (Complex.I / 3) * e2
  have e0 : z 0 = 0 := by linear_combination (2 / 3) * z0
  have e4 : z 4 = 0 := by linear_combination (2 / 3) * z4
  have e6 : z 6 = 0 := by linear_combination (2 / 3) * z6
  have e7 : z 7 = 0 := by linear_combination (2 / 3) * z7
  have e5 : z 5 = z 3 := by linear_combination -(2 / 3) * z3
  have ez : z = ![0, 0, 0, z 3, 0, z 3, 0, 0] := by
    funext i
    fin_cases i <;> simp [e0, e1, e2, e4, e5, e6, e7]
  refine ⟨z 3, ?_, ?_⟩
  · have h1 : ∑ i, ‖z i‖ ^ 2 = 1 := by
      have := hR.unit
      rw [dot_self, reDot_self] at this
      have := congrArg RCLike.re this
      rwa [RCLike.ofReal_re, RCLike.one_re] at this
    rw [Fin.sum_univ_eight, e0, e1, e2, e4, e5, e6, e7] at h1
    simp at h1
    linarith
  · unfold program
    rw [m1]
    simp only [acc, bind, Except.bind]
    rw [c1, reortho_off]
    simp only [vectorsCtor, hst, c2, e]
    rw [if_neg (by simp)]
    simp only [pure, Except.pure]
    rw [← ez]

/-- **C155** The number printed is the lowest eigenvalue: it is one, and no other is below. -/
theorem lanczos_lowest :
    target *ᵥ ![0, 0, 0, 1, 0, 1, 0, 0] = (-(1 / 2) : ℂ) • ![0, 0, 0, 1, 0, 1, 0, 0] ∧
      ∀ (μ : ℝ) (x : Fin 8 → ℂ), x ≠ 0 → target *ᵥ x = (μ : ℂ) • x → -(1 / 2) ≤ μ := by
  constructor
  · rw [target_mul]
    funext i
    fin_cases i <;> simp <;> norm_num
  · intro μ x hx h
    have h1 := target_lower x
    rw [h, dotProduct_smul, dot_self, reDot_self, smul_eq_mul] at h1
    have h2 : -(1 / 2) * ∑ i, ‖x i‖ ^ 2 ≤ μ * ∑ i, ‖x i‖ ^ 2 := h1.trans (le_of_eq (RCLike.re_ofReal_mul _ _))
    obtain ⟨i, hi⟩ := Function.ne_iff.1 hx
    have hi' : 0 < ‖x i‖ := norm_pos_iff.2 hi
    have hpos : 0 < ∑ i, ‖x i‖ ^ 2 := Finset.sum_pos' (fun i _ => by positivity) ⟨i, Finset.mem_univ _, by positivity⟩
    exact le_of_mul_le_mul_right h2 hpos

/-- There is a LAPACK that does what its documentation says. -/
example : ∃ (fs : Stedc) (fh : Heev ℂ) (x : ℂ), ‖x‖ ^ 2 = 1 / 2 ∧
    program fs fh id 1700000000 = .ok (-(1 / 2), ![0, 0, 0, x, 0, x, 0, 0]) := by
  obtain ⟨fs, hs, _⟩ := stedc_exists
  obtain ⟨fh, hf, hc⟩ := heev_exists (𝕜 := ℂ) false
  exact ⟨fs, fh, lanczos_ground hs hf hc id Random.exact_rounding 1700000000⟩

end Verif.Whole.Lanczos
