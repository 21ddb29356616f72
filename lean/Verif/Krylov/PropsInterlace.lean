import Verif.Krylov.PropsAccuracy
import Mathlib.LinearAlgebra.Dimension.Finite
import Mathlib.LinearAlgebra.FiniteDimensional.Basic

/-!
# C124: where the other energies of the Lanczos solver are
-/

namespace Verif.Krylov

open Matrix

variable {𝕜 : Type} [RCLike 𝕜] {n : Nat}

/-- A system with more unknowns than equations has a solution. -/
theorem kernel_exists {m : Nat} (M : Matrix (Fin m) (Fin (m + 1)) 𝕜) : ∃ c, c ≠ 0 ∧ M *ᵥ c = 0 := by
  have h : Module.finrank 𝕜 (Fin m → 𝕜) < Module.finrank 𝕜 (Fin (m + 1) → 𝕜) := by simp
  have := LinearMap.ker_ne_bot_of_finrank_lt (f := M.mulVecLin) h
  obtain ⟨c, hc, h0⟩ := (Submodule.ne_bot_iff _).1 this
  exact ⟨c, h0, by simpa using hc⟩

/-- Of the values on a space, `m + 1` cannot all be below what all but `m` eigenvalues are. -/
theorem minmax {k m : Nat} (H W : Matrix (Fin n) (Fin n) 𝕜) (μ : Fin n → ℝ) (hWW' : W * Wᴴ = 1)
    (hH : H = W * diagonal (fun i => (μ i : 𝕜)) * Wᴴ) (Q : Matrix (Fin n) (Fin k) 𝕜) (w : Fin k → ℝ) (hQ : Qᴴ * Q = 1)
    (hT : Qᴴ * H * Q = diagonal (fun i => (w i : 𝕜))) (a : Fin (m + 1) → Fin k) (ha : Function.Injective a) (b : Fin m → Fin n) (A B : ℝ)
    (hA : ∀ s, w (a s) ≤ A) (hB : ∀ l, (∀ s, b s ≠ l) → B ≤ μ l) : B ≤ A := by
  classical
  obtain ⟨c, hc, h0⟩ := kernel_exists (fun s t => (Wᴴ * Q) (b s) (a t) : Matrix (Fin m) (Fin (m + 1)) 𝕜)
  -- the vector in the space
  set d : Fin k → 𝕜 := fun j => ∑ t, if a t = j then c t else 0 with hd
  have hda : ∀ t, d (a t) = c t := by
    intro t
    simp only [hd]
    rw [Finset.sum_eq_single t]
    · rw [if_pos rfl]
    · intro t' _ h
      rw [if_neg fun e => h (ha e)]
    · simp
  have hdn : ∀ j, (∀ t, a t ≠ j) → d j = 0 := by
    intro j h
    simp only [hd]
    exact Finset.sum_eq_zero fun t _ => if_neg (h t)
  have hd0 : d ≠ 0 := by
    intro h
    apply hc
    funext t
    rw [← hda t, h]
    rfl
  set y := Q *ᵥ d with hy
  have hst : star y = star d ᵥ* Qᴴ := star_mulVec _ _
  have hyn : norm2 y = norm2 d := by
    unfold norm2
    rw [← dot_norms, ← dot_norms, hst, hy, dotProduct_mulVec, vecMul_vecMul, hQ, vecMul_one]
  have hye : RCLike.re (star y ⬝ᵥ (H *ᵥ y)) = ∑ j, ‖d j‖ ^ 2 * w j := by
    rw [hst, hy, mulVec_mulVec, dotProduct_mulVec, vecMul_vecMul, ← Matrix.mul_assoc, hT, ← dotProduct_mulVec]
    simp only [dotProduct, mulVec_diagonal, Pi.star_apply, map_sum]
    refine Finset.sum_congr rfl fun i _ => ?_
    have : star (d i) * ((w i : 𝕜) * d i) = (w i : 𝕜) * (star (d i) * d i) := by ring
    rw [this, RCLike.star_def, RCLike.conj_mul, ← RCLike.ofReal_pow, ← RCLike.ofReal_mul, RCLike.ofReal_re, mul_comm]
  have hub : RCLike.re (star y ⬝ᵥ (H *ᵥ y)) ≤ A * norm2 y := by
    rw [hye, hyn, norm2, Finset.mul_sum]
    refine Finset.sum_le_sum fun j _ => ?_
    by_cases h : ∃ t, a t = j
    · obtain ⟨t, rfl⟩ := h
      rw [mul_comm]
      exact mul_le_mul_of_nonneg_right (hA t) (by positivity)
    · rw [hdn j (fun t e => h ⟨t, e⟩)]
      simp
  have hz : ∀ s, (Wᴴ *ᵥ y) (b s) = 0 := by
    intro s
    have h1 := congrFun h0 s
    rw [hy, mulVec_mulVec]
    simp only [mulVec, dotProduct, Pi.zero_apply] at h1 ⊢
    rw [← h1]
    simp only [hd, Finset.mul_sum]
    rw [Finset.sum_comm]
    refine Finset.sum_congr rfl fun t _ => ?_
    rw [Finset.sum_eq_single (a t)]
    · rw [if_pos rfl]
    · intro j _ h
      rw [if_neg (Ne.symm h), mul_zero]
    · simp
  have hlb : B * norm2 y ≤ RCLike.re (star y ⬝ᵥ (H *ᵥ y)) := by
    have h1 := expectation_diag (W := W) μ y
    rw [← hH] at h1
    rw [h1, coords_norm hWW' y, Finset.mul_sum]
    refine Finset.sum_le_sum fun l _ => ?_
    by_cases h : ∃ s, b s = l
    · obtain ⟨s, rfl⟩ := h
      rw [hz s]
      simp
    · rw [mul_comm]
      exact mul_le_mul_of_nonneg_left (hB l fun s e => h ⟨s, e⟩) (by positivity)
  have hpos : 0 < norm2 y := by
    rw [hyn]
    obtain ⟨j, hj⟩ := Function.ne_iff.1 hd0
    refine Finset.sum_pos' (fun _ _ => by positivity) ⟨j, Finset.mem_univ _, ?_⟩
    have : 0 < ‖d j‖ := norm_pos_iff.2 hj
    positivity
  exact le_of_mul_le_mul_right (hlb.trans hub) hpos

/-- The values on a space lie between the eigenvalues from below and from above. -/
theorem cauchy_interlace {k : Nat} (H W : Matrix (Fin n) (Fin n) 𝕜) (μ : Fin n → ℝ) (hμ : Monotone μ) (hWW' : W * Wᴴ = 1)
    (hH : H = W * diagonal (fun i => (μ i : 𝕜)) * Wᴴ) (Q : Matrix (Fin n) (Fin k) 𝕜) (w : Fin k → ℝ) (hw : Monotone w) (hQ : Qᴴ * Q = 1)
    (hT : Qᴴ * H * Q = diagonal (fun i => (w i : 𝕜))) (hk : k ≤ n) (i : Nat) (hi : i < k) :
    μ ⟨i, by omega⟩ ≤ w ⟨i, hi⟩ ∧ w ⟨i, hi⟩ ≤ μ ⟨n - k + i, by omega⟩ := by
  constructor
  · refine minmax (m := i) H W μ hWW' hH Q w hQ hT (fun s => ⟨s.1, by omega⟩) (fun s t h => by simpa [Fin.ext_iff] using h)
      (fun s => ⟨s.1, by omega⟩) _ _ ?_ ?_
    · intro s
      exact hw (Fin.mk_le_mk.2 (by omega))
    · intro l hl
      refine hμ (Fin.mk_le_of_le_val ?_)
      by_contra h
      exact hl ⟨l.1, by omega⟩ rfl
  · have hneg : -H = W * diagonal (fun j => ((-μ j : ℝ) : 𝕜)) * Wᴴ := by
      have : (diagonal (fun j => ((-μ j : ℝ) : 𝕜)) : Matrix (Fin n) (Fin n) 𝕜) = -diagonal (fun j => (μ j : 𝕜)) := by
        rw [diagonal_neg]
        congr 1
        funext j
        simp
      rw [this, Matrix.mul_neg, Matrix.neg_mul, ← hH]
    have hTn : Qᴴ * (-H) * Q = diagonal (fun j => ((-w j : ℝ) : 𝕜)) := by
      have : (diagonal (fun j => ((-w j : ℝ) : 𝕜)) : Matrix (Fin k) (Fin k) 𝕜) = -diagonal (fun j => (w j : 𝕜)) := by
        rw [diagonal_neg]
        congr 1
        funext j
        simp
      rw [this, Matrix.mul_neg, Matrix.neg_mul, hT]
    have := minmax (m := k - 1 - i) (-H) W (fun j => -μ j) hWW' hneg Q (fun j => -w j) hQ hTn (fun s => ⟨k - 1 - s.1, by omega⟩)
      (fun s t h => by simp only [Fin.mk.injEq] at h; ext; omega) (fun s => ⟨n - 1 - s.1, by omega⟩) (-w ⟨i, hi⟩) (-μ ⟨n - k + i, by omega⟩)
      (by
        intro s
        have : w ⟨i, hi⟩ ≤ w ⟨k - 1 - s.1, by omega⟩ := hw (Fin.mk_le_mk.2 (by omega))
        simpa using this) (by
        intro l hl
        have : μ l ≤ μ ⟨n - k + i, by omega⟩ := by
          refine hμ ?_
          rw [Fin.le_def]
          simp only
          by_contra h
          exact hl ⟨n - 1 - l.1, by omega⟩ (by ext; simp; omega)
        simpa using this)
    linarith

/-- **C124** The energies that `computeAllStatesBelow` returns lie between the exact ones: the one at place `i` is not below the exact one
at place `i` from the bottom, and not above the one at the same place from the top. -/
theorem states_interlace (p : SolverP 𝕜 n) (H : Matrix (Fin n) (Fin n) 𝕜) (hp : p.mul = (H *ᵥ ·)) (hH : H.IsHermitian) (hs : SameSize p)
    (hd : Diagonalizes p.diag) (steps : Nat) (init : Fin n → 𝕜) (h2 : 2 ≤ min steps n) (hmin : n ≤ 4 ∨ p.minSteps < min steps n)
    (hi : Independent H init (min steps n)) (W : Matrix (Fin n) (Fin n) 𝕜) (μ : Fin n → ℝ) (hμ : Monotone μ) (hWW' : W * Wᴴ = 1)
    (hW : H * W = W * diagonal (fun i => (μ i : 𝕜))) (excited : Nat) (zs zs' : List (Fin n → 𝕜)) (eigs : List ℝ) (k : Nat)
    (h : computeAllStatesBelow p steps zs init excited = .ok (eigs, zs', k)) :
    eigs.length = k ∧ k ≤ n ∧ ∀ i (hk : k ≤ n) (hik : i < k) E, eigs[i]? = some E → μ ⟨i, by omega⟩ ≤ E ∧ E ≤ μ ⟨n - k + i, by omega⟩ := by
  have h0 : init ≠ 0 := by
    rintro rfl
    have := hi.ne_zero (⟨0, by omega⟩ : Fin (min steps n))
    simp at this
  obtain ⟨⟨k', data, ra, rb⟩, hr, g1, g2, -, hl, v, a, b, ritz, w, U, hv, hv0, hb, hw, hU, u1, u2, u3, hmain⟩ :=
    run_spec p H hp hH hs hd steps init h0 h2 hmin excited
  obtain ⟨m1, m2, m3⟩ := hmain _ g2 hi
  simp only at g1 g2 hl hv hb w U hw hU u1 u2 u3 m1 m2
  unfold computeAllStatesBelow at h
  rw [hr] at h
  simp only at h
  split at h
  · cases h
  · simp only [bind, hb, Option.bind_some, hw] at h
    split at h
    · cases h
    · rename_i x e
      rw [Option.bind_eq_some_iff] at e
      obtain ⟨y, -, e⟩ := e
      simp only [pure, Option.some.injEq] at e
      subst e
      simp only [Except.ok.injEq, Prod.mk.injEq] at h
      obtain ⟨rfl, rfl, rfl⟩ := h
      have hHW : H = W * diagonal (fun i => (μ i : 𝕜)) * Wᴴ := by rw [← hW, Matrix.mul_assoc, hWW', Matrix.mul_one]
      have hQ : (cols v k' * U)ᴴ * (cols v k' * U) = 1 := by
        rw [conjTranspose_mul, Matrix.mul_assoc, ← Matrix.mul_assoc _ (cols v k'), m1, Matrix.one_mul, u1]
      have hT : (cols v k' * U)ᴴ * H * (cols v k' * U) = diagonal (fun i => (w i : 𝕜)) := by
        have : (cols v k' * U)ᴴ * H * (cols v k' * U) = Uᴴ * ((cols v k')ᴴ * H * cols v k' * U) := by
          rw [conjTranspose_mul]
          simp only [Matrix.mul_assoc]
        rw [this, m2, u2, ← Matrix.mul_assoc, u1, Matrix.one_mul]
      refine ⟨by simp, by omega, fun i hk hik E hE => ?_⟩
      rw [List.getElem?_ofFn, dif_pos hik] at hE
      cases hE
      exact cauchy_interlace H W μ hμ hWW' hHW (cols v k' * U) w u3 hQ hT hk i hik

/-! A matrix with its eigenvectors in order; that a run of the solver meets the other hypotheses is shown with `allStates_spec`. -/

example : ∃ (W : Matrix (Fin 2) (Fin 2) ℝ) (μ : Fin 2 → ℝ), Monotone μ ∧ W * Wᴴ = 1 ∧
    (!![0, 0; 0, 1] : Matrix (Fin 2) (Fin 2) ℝ) * W = W * diagonal (fun i => ((μ i : ℝ) : ℝ)) := by
  refine ⟨1, ![0, 1], ?_, by simp, ?_⟩
  · intro i j h
    fin_cases i <;> fin_cases j <;> simp at h ⊢
  · ext i j
    fin_cases i <;> fin_cases j <;> simp

end Verif.Krylov
