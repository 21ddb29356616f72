import Verif.Krylov.PropsCurve
import Verif.Krylov.PropsStates

/-!
# C124: how accurate the ground state of the Lanczos solver is
-/

namespace Verif.Krylov

open Matrix Polynomial Polynomial.Chebyshev

variable {𝕜 : Type} [RCLike 𝕜] {n : Nat}

/-- The lowest eigenvalue is `lo`, and all others are between `next` and `hi`. -/
def Gap (H : Matrix (Fin n) (Fin n) 𝕜) (lo next hi : ℝ) : Prop :=
  ∀ (μ : ℝ) (y : Fin n → 𝕜), y ≠ 0 → H *ᵥ y = (μ : 𝕜) • y → μ = lo ∨ next ≤ μ ∧ μ ≤ hi

/-- The vector `v` is the sum of `g`, its part in the states with eigenvalue `lo`, and of `x`, which is orthogonal to all those states. -/
structure Split (H : Matrix (Fin n) (Fin n) 𝕜) (lo : ℝ) (v g x : Fin n → 𝕜) : Prop where
  sum : v = g + x
  eigen : H *ᵥ g = (lo : 𝕜) • g
  orth : ∀ y, H *ᵥ y = (lo : 𝕜) • y → star y ⬝ᵥ x = 0

/-- The square of the norm. -/
noncomputable def norm2 (v : Fin n → 𝕜) : ℝ := ∑ i, ‖v i‖ ^ 2

theorem norm2_nonneg (v : Fin n → 𝕜) : 0 ≤ norm2 v := Finset.sum_nonneg fun _ _ => by positivity

theorem coords_norm {W : Matrix (Fin n) (Fin n) 𝕜} (hW : W * Wᴴ = 1) (v : Fin n → 𝕜) : norm2 v = ∑ i, ‖(Wᴴ *ᵥ v) i‖ ^ 2 := by
  have h := expectation_diag (W := W) (fun _ => 1) v
  have hd : (diagonal (fun _ => ((1 : ℝ) : 𝕜)) : Matrix (Fin n) (Fin n) 𝕜) = 1 := by
    rw [RCLike.ofReal_one]; exact diagonal_one
  rw [hd, Matrix.mul_one, hW, one_mulVec, dot_norms] at h
  simpa [norm2] using h

theorem coords_eigen {H W : Matrix (Fin n) (Fin n) 𝕜} {f : Fin n → ℝ} (hWW : Wᴴ * W = 1)
    (hH : H = W * diagonal (fun i => (f i : 𝕜)) * Wᴴ) {μ : ℝ} {g : Fin n → 𝕜} (hg : H *ᵥ g = (μ : 𝕜) • g) (i : Fin n) (hi : f i ≠ μ) :
    (Wᴴ *ᵥ g) i = 0 := by
  have h1 : Wᴴ *ᵥ (H *ᵥ g) = diagonal (fun i => (f i : 𝕜)) *ᵥ (Wᴴ *ᵥ g) := by
    rw [hH, mulVec_mulVec, ← Matrix.mul_assoc, ← Matrix.mul_assoc, hWW, Matrix.one_mul, mulVec_mulVec]
  rw [hg, mulVec_smul] at h1
  have h2 := congrFun h1 i
  rw [mulVec_diagonal, Pi.smul_apply, smul_eq_mul] at h2
  have h3 : ((μ - f i : ℝ) : 𝕜) * (Wᴴ *ᵥ g) i = 0 := by
    rw [RCLike.ofReal_sub, sub_mul, h2, sub_self]
  rcases mul_eq_zero.1 h3 with h | h
  · exact absurd (RCLike.ofReal_eq_zero.1 h) (sub_ne_zero.2 (Ne.symm hi))
  · exact h

theorem column_eigen {H W : Matrix (Fin n) (Fin n) 𝕜} {f : Fin n → ℝ} (hWW : Wᴴ * W = 1)
    (hH : H = W * diagonal (fun i => (f i : 𝕜)) * Wᴴ) (i : Fin n) : H *ᵥ (fun j => W j i) = (f i : 𝕜) • fun j => W j i := by
  have h1 : H * W = W * diagonal (fun i => (f i : 𝕜)) := by
    rw [hH, Matrix.mul_assoc, hWW, Matrix.mul_one]
  funext j
  have := congrFun (congrFun h1 j) i
  rw [mul_diagonal] at this
  rw [Pi.smul_apply, smul_eq_mul, mul_comm, ← this]
  rfl

theorem column_ne {W : Matrix (Fin n) (Fin n) 𝕜} (hWW : Wᴴ * W = 1) (i : Fin n) : (fun j => W j i) ≠ 0 := by
  intro h
  have h1 := congrFun (congrFun hWW i) i
  rw [mul_apply, one_apply_eq] at h1
  have : ∀ j, W j i = 0 := fun j => congrFun h j
  simp [this] at h1

/-- The eigenvalues, in any basis of eigenvectors. -/
theorem Gap.at {H W : Matrix (Fin n) (Fin n) 𝕜} {f : Fin n → ℝ} (hWW : Wᴴ * W = 1) (hH : H = W * diagonal (fun i => (f i : 𝕜)) * Wᴴ)
    {lo next hi : ℝ} (hg : Gap H lo next hi) (i : Fin n) : f i = lo ∨ next ≤ f i ∧ f i ≤ hi :=
  hg (f i) _ (column_ne hWW i) (column_eigen hWW hH i)

/-- The coordinates of the two parts. -/
theorem Split.coords {H W : Matrix (Fin n) (Fin n) 𝕜} {f : Fin n → ℝ} (hWW : Wᴴ * W = 1) (hWW' : W * Wᴴ = 1)
    (hH : H = W * diagonal (fun i => (f i : 𝕜)) * Wᴴ) {lo : ℝ} {v g x : Fin n → 𝕜} (h : Split H lo v g x) :
    norm2 g = ∑ i, (if f i = lo then ‖(Wᴴ *ᵥ v) i‖ ^ 2 else 0) ∧ norm2 x = ∑ i, (if f i = lo then 0 else ‖(Wᴴ *ᵥ v) i‖ ^ 2) := by
  have hx : ∀ i, f i = lo → (Wᴴ *ᵥ x) i = 0 := by
    intro i hi
    have := h.orth (fun j => W j i) (by rw [column_eigen hWW hH i, hi])
    rw [← this]
    simp [mulVec, dotProduct, conjTranspose_apply]
  have hv : ∀ i, (Wᴴ *ᵥ v) i = (Wᴴ *ᵥ g) i + (Wᴴ *ᵥ x) i := by
    intro i
    rw [h.sum, mulVec_add]
    rfl
  rw [coords_norm hWW' g, coords_norm hWW' x]
  constructor
  · refine Finset.sum_congr rfl fun i _ => ?_
    by_cases hi : f i = lo
    · rw [if_pos hi, hv, hx i hi, add_zero]
    · rw [if_neg hi, coords_eigen hWW hH h.eigen i hi]
      simp
  · refine Finset.sum_congr rfl fun i _ => ?_
    by_cases hi : f i = lo
    · rw [if_pos hi, hx i hi]
      simp
    · rw [if_neg hi, hv, coords_eigen hWW hH h.eigen i hi, zero_add]

/-- Every vector is such a sum. -/
theorem split_exists {H : Matrix (Fin n) (Fin n) 𝕜} (hH : H.IsHermitian) (lo : ℝ) (v : Fin n → 𝕜) : ∃ g x, Split H lo v g x := by
  classical
  obtain ⟨W, hWW, hWW', hd, -⟩ := poly_spectral hH
  set f := hH.eigenvalues with hf
  set u := Wᴴ *ᵥ v with hu
  refine ⟨W *ᵥ (fun i => if f i = lo then u i else 0), W *ᵥ (fun i => if f i = lo then 0 else u i), ?_, ?_, ?_⟩
  · rw [← mulVec_add]
    have : ((fun i => if f i = lo then u i else 0) + fun i => if f i = lo then 0 else u i) = u := by
      funext i
      simp only [Pi.add_apply]
      split <;> simp
    rw [this, hu, mulVec_mulVec, hWW', one_mulVec]
  · rw [hd, mulVec_mulVec, Matrix.mul_assoc, hWW, Matrix.mul_one, ← mulVec_mulVec, ← mulVec_smul]
    congr 1
    funext i
    rw [mulVec_diagonal, Pi.smul_apply, smul_eq_mul]
    split
    · rename_i h; rw [h]
    · simp
  · intro y hy
    have h1 : star y ⬝ᵥ (W *ᵥ fun i => if f i = lo then 0 else u i) = star (Wᴴ *ᵥ y) ⬝ᵥ fun i => if f i = lo then 0 else u i := by
      rw [dotProduct_mulVec, star_mulVec, conjTranspose_conjTranspose]
    rw [h1]
    refine Finset.sum_eq_zero fun i _ => ?_
    by_cases hi : f i = lo
    · simp only [if_pos hi, mul_zero]
    · rw [Pi.star_apply, coords_eigen hWW hd hy i hi, star_zero, zero_mul]

/-- A polynomial of the matrix applied to the vector is in the space of the powers. -/
theorem aeval_powers (H : Matrix (Fin n) (Fin n) 𝕜) (init : Fin n → 𝕜) (k : Nat) (p : ℝ[X]) (hp : p.natDegree < k) :
    aeval H p *ᵥ init ∈ Powers H init k := by
  rw [aeval_eq_sum_range' hp, sum_mulVec]
  refine Submodule.sum_mem _ fun i hi => ?_
  rw [smul_mulVec, show (p.coeff i • H ^ i *ᵥ init) = ((p.coeff i : ℝ) : 𝕜) • H ^ i *ᵥ init by
    funext j; simp [RCLike.real_smul_eq_coe_mul]]
  exact Submodule.smul_mem _ _ (Submodule.subset_span ⟨⟨i, Finset.mem_range.1 hi⟩, rfl⟩)

/-- The norm and the energy of a polynomial of the matrix applied to a vector. -/
theorem poly_vector {H W : Matrix (Fin n) (Fin n) 𝕜} {f : Fin n → ℝ} (hWW : Wᴴ * W = 1) (hWW' : W * Wᴴ = 1)
    (hH : H = W * diagonal (fun i => (f i : 𝕜)) * Wᴴ) (hp : ∀ p : ℝ[X], aeval H p = W * diagonal (fun i => ((p.eval (f i) : ℝ) : 𝕜)) * Wᴴ)
    (p : ℝ[X]) (v : Fin n → 𝕜) : norm2 (aeval H p *ᵥ v) = ∑ i, ‖(Wᴴ *ᵥ v) i‖ ^ 2 * p.eval (f i) ^ 2 ∧
      RCLike.re (star (aeval H p *ᵥ v) ⬝ᵥ (H *ᵥ (aeval H p *ᵥ v))) = ∑ i, ‖(Wᴴ *ᵥ v) i‖ ^ 2 * p.eval (f i) ^ 2 * f i := by
  have hc : ∀ i, (Wᴴ *ᵥ (aeval H p *ᵥ v)) i = ((p.eval (f i) : ℝ) : 𝕜) * (Wᴴ *ᵥ v) i := by
    intro i
    rw [hp, mulVec_mulVec, ← Matrix.mul_assoc, ← Matrix.mul_assoc, hWW, Matrix.one_mul, ← mulVec_mulVec, mulVec_diagonal]
  have hn : ∀ i, ‖(Wᴴ *ᵥ (aeval H p *ᵥ v)) i‖ ^ 2 = ‖(Wᴴ *ᵥ v) i‖ ^ 2 * p.eval (f i) ^ 2 := by
    intro i
    rw [hc, norm_mul, mul_pow, RCLike.norm_ofReal, sq_abs, mul_comm]
  constructor
  · rw [coords_norm hWW']
    exact Finset.sum_congr rfl fun i _ => hn i
  · have h1 := expectation_diag (W := W) f (aeval H p *ᵥ v)
    rw [← hH] at h1
    rw [h1]
    exact Finset.sum_congr rfl fun i _ => by rw [hn]

/-- The polynomial that is small on the upper part of the spectrum. -/
noncomputable def filterPoly (next hi : ℝ) (m : Nat) : ℝ[X] :=
  (T ℝ (m : ℤ)).comp (Polynomial.C (-2 / (hi - next)) * X + Polynomial.C ((hi + next) / (hi - next)))

theorem filter_degree (next hi : ℝ) (m : Nat) : (filterPoly next hi m).natDegree ≤ m := by
  unfold filterPoly
  refine natDegree_comp_le.trans ?_
  have h1 : (T ℝ (m : ℤ)).natDegree = m := by simp
  rw [h1]
  calc m * _ ≤ m * 1 := Nat.mul_le_mul_left m (natDegree_linear_le)
    _ = m := Nat.mul_one m

theorem filter_eval (next hi : ℝ) (m : Nat) (x : ℝ) (h : next < hi) :
    (filterPoly next hi m).eval x = (T ℝ (m : ℤ)).eval ((hi + next - 2 * x) / (hi - next)) := by
  unfold filterPoly
  rw [eval_comp]
  congr 1
  simp only [eval_add, eval_mul, eval_C, eval_X]
  have : hi - next ≠ 0 := by linarith
  field_simp
  ring

theorem filter_small (next hi : ℝ) (m : Nat) (x : ℝ) (h : next < hi) (h1 : next ≤ x) (h2 : x ≤ hi) : (filterPoly next hi m).eval x ^ 2 ≤ 1 := by
  rw [filter_eval _ _ _ _ h, sq_le_one_iff_abs_le_one]
  refine abs_eval_T_real_le_one _ ?_
  have : 0 < hi - next := by linarith
  rw [abs_le, le_div_iff₀ this, div_le_iff₀ this]
  constructor <;> linarith

/-- How far the lowest eigenvalue is from the others: it is above one. -/
noncomputable def separation (lo next hi : ℝ) : ℝ := (hi + next - 2 * lo) / (hi - next)

theorem separation_gt {lo next hi : ℝ} (h1 : lo < next) (h2 : next < hi) : 1 < separation lo next hi := by
  unfold separation
  rw [one_lt_div (by linarith)]
  linarith

/-- The lowest expectation value of the space of the powers is close to the lowest eigenvalue. -/
theorem krylov_error {H : Matrix (Fin n) (Fin n) 𝕜} (hH : H.IsHermitian) {lo next hi : ℝ} (h1 : lo < next) (h2 : next < hi)
    (hg : Gap H lo next hi) {init g x : Fin n → 𝕜} (hs : Split H lo init g x) (k : Nat) (E : ℝ)
    (hE : ∀ y ∈ Powers H init (k + 1), E * norm2 y ≤ RCLike.re (star y ⬝ᵥ (H *ᵥ y))) :
    (E - lo) * (norm2 g * (T ℝ (k : ℤ)).eval (separation lo next hi) ^ 2) ≤ (hi - lo) * norm2 x := by
  classical
  obtain ⟨W, hWW, hWW', hd, hp⟩ := poly_spectral hH
  set f := hH.eigenvalues with hf
  set p := filterPoly next hi k with hpd
  have hxn := norm2_nonneg x
  rcases le_or_gt E lo with hlo | hlo
  · have : (E - lo) * (norm2 g * (T ℝ (k : ℤ)).eval (separation lo next hi) ^ 2) ≤ 0 :=
      mul_nonpos_of_nonpos_of_nonneg (by linarith) (mul_nonneg (norm2_nonneg g) (sq_nonneg _))
    have : 0 ≤ (hi - lo) * norm2 x := mul_nonneg (by linarith) hxn
    linarith
  · have hy := hE (aeval H p *ᵥ init) (aeval_powers H init (k + 1) p (Nat.lt_succ_of_le (filter_degree next hi k)))
    obtain ⟨e1, e2⟩ := poly_vector hWW hWW' hd hp p init
    obtain ⟨n1, n2⟩ := hs.coords hWW hWW' hd
    set c : Fin n → ℝ := fun i => ‖(Wᴴ *ᵥ init) i‖ ^ 2 with hc
    have hc0 : ∀ i, 0 ≤ c i := fun i => by positivity
    have hT : p.eval lo = (T ℝ (k : ℤ)).eval (separation lo next hi) := filter_eval _ _ _ _ h2
    have s1 : norm2 g * (T ℝ (k : ℤ)).eval (separation lo next hi) ^ 2 ≤ norm2 (aeval H p *ᵥ init) := by
      rw [n1, e1, Finset.sum_mul]
      refine Finset.sum_le_sum fun i _ => ?_
      by_cases hi : f i = lo
      · rw [if_pos hi, hi, hT]
      · rw [if_neg hi, zero_mul]
        exact mul_nonneg (hc0 i) (sq_nonneg _)
    have s2 : RCLike.re (star (aeval H p *ᵥ init) ⬝ᵥ (H *ᵥ (aeval H p *ᵥ init))) - lo * norm2 (aeval H p *ᵥ init) ≤ (hi - lo) * norm2 x := by
      rw [e1, e2, n2, Finset.mul_sum, Finset.mul_sum, ← Finset.sum_sub_distrib]
      refine Finset.sum_le_sum fun i _ => ?_
      have e : ‖(Wᴴ *ᵥ init) i‖ ^ 2 * p.eval (f i) ^ 2 * f i - lo * (‖(Wᴴ *ᵥ init) i‖ ^ 2 * p.eval (f i) ^ 2) =
          (f i - lo) * p.eval (f i) ^ 2 * c i := by rw [hc]; ring
      rw [e]
      by_cases hi' : f i = lo
      · rw [if_pos hi', hi']
        simp
      · rw [if_neg hi']
        rcases hg.at hWW hd i with h | ⟨h3, h4⟩
        · exact absurd h hi'
        · have h5 := filter_small next hi k (f i) h2 h3 h4
          refine mul_le_mul_of_nonneg_right ?_ (hc0 i)
          calc (f i - lo) * p.eval (f i) ^ 2 ≤ (f i - lo) * 1 := mul_le_mul_of_nonneg_left h5 (by linarith)
            _ ≤ hi - lo := by linarith
    have s3 := mul_le_mul_of_nonneg_left s1 (by linarith : 0 ≤ E - lo)
    have s4 : (E - lo) * norm2 (aeval H p *ᵥ init) = E * norm2 (aeval H p *ᵥ init) - lo * norm2 (aeval H p *ᵥ init) := by ring
    linarith

theorem Gap.lower {H : Matrix (Fin n) (Fin n) 𝕜} (hH : H.IsHermitian) {lo next hi : ℝ} (h1 : lo < next) (hg : Gap H lo next hi) : LowerBound H lo := by
  intro x
  obtain ⟨W, hWW, hWW', hd, -⟩ := poly_spectral hH
  have h2 := expectation_diag (W := W) hH.eigenvalues x
  rw [← hd] at h2
  have h3 := coords_norm hWW' x
  rw [norm2] at h3
  rw [h2, h3, Finset.mul_sum]
  refine Finset.sum_le_sum fun i _ => ?_
  rw [mul_comm]
  refine mul_le_mul_of_nonneg_left ?_ (by positivity)
  rcases hg.at hWW hd i with h | ⟨h, -⟩
  · exact h.ge
  · linarith

/-- A vector with low energy is close to the ground states. -/
theorem vector_error {H : Matrix (Fin n) (Fin n) 𝕜} (hH : H.IsHermitian) {lo next hi : ℝ} (hg : Gap H lo next hi)
    {z g x : Fin n → 𝕜} (hs : Split H lo z g x) : (next - lo) * norm2 x ≤ RCLike.re (star z ⬝ᵥ (H *ᵥ z)) - lo * norm2 z := by
  classical
  obtain ⟨W, hWW, hWW', hd, -⟩ := poly_spectral hH
  obtain ⟨n1, n2⟩ := hs.coords hWW hWW' hd
  have h2 := expectation_diag (W := W) hH.eigenvalues z
  rw [← hd] at h2
  rw [h2, n2, coords_norm hWW' z, Finset.mul_sum, Finset.mul_sum, ← Finset.sum_sub_distrib]
  refine Finset.sum_le_sum fun i _ => ?_
  by_cases hi' : hH.eigenvalues i = lo
  · rw [if_pos hi', hi']
    linarith
  · rw [if_neg hi']
    rcases hg.at hWW hd i with h | ⟨h3, -⟩
    · exact absurd h hi'
    · have : 0 ≤ ‖(Wᴴ *ᵥ z) i‖ ^ 2 := by positivity
      nlinarith

/-- The Chebyshev polynomial grows like a power. -/
theorem cheb_growth (m : Nat) (y : ℝ) (h : 1 ≤ y) : (y + √(y ^ 2 - 1)) ^ m / 2 ≤ (T ℝ (m : ℤ)).eval y := by
  have hs : 0 ≤ √(y ^ 2 - 1) := Real.sqrt_nonneg _
  have hpos : 0 < y + √(y ^ 2 - 1) := by linarith
  have hq : √(y ^ 2 - 1) ^ 2 = y ^ 2 - 1 := Real.sq_sqrt (by nlinarith)
  have hc : Real.cosh (Real.log (y + √(y ^ 2 - 1))) = y := by
    rw [Real.cosh_log hpos]
    field_simp
    nlinarith
  have h1 := T_real_cosh (θ := Real.log (y + √(y ^ 2 - 1))) (m : ℤ)
  rw [hc] at h1
  rw [h1, Real.cosh_eq]
  have h2 : Real.exp (((m : ℤ) : ℝ) * Real.log (y + √(y ^ 2 - 1))) = (y + √(y ^ 2 - 1)) ^ m := by
    rw [Int.cast_natCast, Real.exp_nat_mul, Real.exp_log hpos]
  rw [h2]
  have := Real.exp_pos (-(((m : ℤ) : ℝ) * Real.log (y + √(y ^ 2 - 1))))
  linarith

/-- **C124** The ground state of the solver, for a matrix whose lowest eigenvalue is `lo` and whose others are between `next` and `hi`, and
a start vector with a part `g` among the ground states and a part `x` orthogonal to them: the energy is not below the exact one, and its
error is at most `(hi - lo) ‖x‖² / (‖g‖² T(γ)²)`, where `T` is the Chebyshev polynomial of a degree of one less than the number of steps.
What the vector has outside of the ground states is at most the error of the energy over the gap. -/
theorem ground_accuracy (p : SolverP 𝕜 n) (H : Matrix (Fin n) (Fin n) 𝕜) (hp : p.mul = (H *ᵥ ·)) (hH : H.IsHermitian) (hs : SameSize p)
    (hd : Diagonalizes p.diag) (steps : Nat) (init : Fin n → 𝕜) (h2 : 2 ≤ min steps n) (hmin : n ≤ 4 ∨ p.minSteps < min steps n)
    (hind : Independent H init (min steps n)) {lo next hi : ℝ} (g1 : lo < next) (g2 : next < hi) (hg : Gap H lo next hi)
    {g x : Fin n → 𝕜} (hsp : Split H lo init g x) :
    ∃ (E : ℝ) (z : Fin n → 𝕜) (k : Nat), computeOneState p steps 0 init 0 = .ok (E, z, k + 1) ∧ k + 1 ≤ min steps n ∧
      (0 < p.tolerance → 4 < n → k = max p.minSteps 1) ∧ lo ≤ E ∧
      (E - lo) * (norm2 g * (T ℝ (k : ℤ)).eval (separation lo next hi) ^ 2) ≤ (hi - lo) * norm2 x ∧
      norm2 z = 1 ∧ ∃ gz xz, Split H lo z gz xz ∧ (next - lo) * norm2 xz ≤ E - lo := by
  rcases oneState_spec p H hp hH hs hd steps init h2 hmin hind 0 with ⟨k, h1, h3, -⟩ | ⟨E, z, k, e, -, q1, q2, q3, hR, hl, hE, -⟩
  · omega
  · obtain ⟨k, rfl⟩ : ∃ j, k = j + 1 := ⟨k - 1, by omega⟩
    obtain ⟨gz, xz, hz⟩ := split_exists hH lo z
    have hn : norm2 z = 1 := by
      have := hR.unit
      rw [dot_self, reDot_self] at this
      exact_mod_cast this
    refine ⟨E, z, k, e, q2, fun ht hn => by have := q3 rfl ht hn; omega, hl lo (hg.lower hH g1),
      krylov_error hH g1 g2 hg hsp k E (hE rfl), hn, gz, xz, hz, ?_⟩
    have := vector_error hH hg hz
    rw [hR.energy, RCLike.ofReal_re, hn] at this
    linarith

/-- **C124** The error of the energy goes down at least as fast as a power of the number of steps, which depends on the gap only. -/
theorem ground_rate {lo next hi E G Y : ℝ} (g1 : lo < next) (g2 : next < hi) (hG : 0 ≤ G) (k : Nat) (hE : lo ≤ E)
    (h : (E - lo) * (G * (T ℝ (k : ℤ)).eval (separation lo next hi) ^ 2) ≤ (hi - lo) * Y) :
    (E - lo) * G * (separation lo next hi + √(separation lo next hi ^ 2 - 1)) ^ (2 * k) ≤ 4 * ((hi - lo) * Y) := by
  have hs := separation_gt g1 g2
  have h1 := cheb_growth k _ hs.le
  have h0 : 0 ≤ (separation lo next hi + √(separation lo next hi ^ 2 - 1)) ^ k / 2 := by
    have := Real.sqrt_nonneg (separation lo next hi ^ 2 - 1)
    positivity
  have h3 := pow_le_pow_left₀ h0 h1 2
  have h4 := mul_le_mul_of_nonneg_left h3 (mul_nonneg (by linarith : 0 ≤ E - lo) hG)
  rw [div_pow, ← pow_mul, mul_comm k 2] at h4
  nlinarith

/-- **C124** More steps do not give a higher energy. -/
theorem more_steps (p q : SolverP 𝕜 n) (H : Matrix (Fin n) (Fin n) 𝕜) (hp : p.mul = (H *ᵥ ·)) (hq : q.mul = (H *ᵥ ·)) (hH : H.IsHermitian)
    (hs : SameSize p) (hs' : SameSize q) (hd : Diagonalizes p.diag) (hd' : Diagonalizes q.diag) (steps steps' : Nat) (init : Fin n → 𝕜)
    (h2 : 2 ≤ min steps n) (h2' : 2 ≤ min steps' n) (hmin : n ≤ 4 ∨ p.minSteps < min steps n) (hmin' : n ≤ 4 ∨ q.minSteps < min steps' n)
    (hi : Independent H init (min steps n)) (hi' : Independent H init (min steps' n)) {E E' : ℝ} {z z' : Fin n → 𝕜} {k k' : Nat}
    (h : computeOneState p steps 0 init 0 = .ok (E, z, k)) (h' : computeOneState q steps' 0 init 0 = .ok (E', z', k')) (hk : k ≤ k') : E' ≤ E := by
  rcases oneState_spec p H hp hH hs hd steps init h2 hmin hi 0 with ⟨_, h1, h3, -⟩ | ⟨E1, z1, k1, e, -, -, -, -, hR, -, -, -⟩
  · omega
  rcases oneState_spec q H hq hH hs' hd' steps' init h2' hmin' hi' 0 with ⟨_, h1, h3, -⟩ | ⟨E2, z2, k2, e', -, -, -, -, -, -, hE, -⟩
  · omega
  rw [h] at e
  rw [h'] at e'
  simp only [Except.ok.injEq, Prod.mk.injEq] at e e'
  obtain ⟨rfl, rfl, rfl⟩ := e
  obtain ⟨rfl, rfl, rfl⟩ := e'
  have hz : z ∈ Powers H init k' := by
    have hle : Powers H init k ≤ Powers H init k' := by
      unfold Powers
      rw [Submodule.span_le]
      rintro _ ⟨i, rfl⟩
      exact Submodule.subset_span ⟨⟨i.1, by omega⟩, rfl⟩
    exact hle hR.space
  have hn : ∑ i, ‖z i‖ ^ 2 = 1 := by
    have := hR.unit
    rw [dot_self, reDot_self] at this
    exact_mod_cast this
  have := hE rfl z hz
  rwa [hn, mul_one, hR.energy, RCLike.ofReal_re] at this

/-! A matrix with a gap, and a start vector with both parts. -/

example : Gap (!![0, 0; 0, 1] : Matrix (Fin 2) (Fin 2) ℝ) 0 1 2 ∧
    Split (!![0, 0; 0, 1] : Matrix (Fin 2) (Fin 2) ℝ) 0 ![3, 4] ![3, 0] ![0, 4] ∧
    Independent (!![0, 0; 0, 1] : Matrix (Fin 2) (Fin 2) ℝ) ![3, 4] 2 ∧ (!![0, 0; 0, 1] : Matrix (Fin 2) (Fin 2) ℝ).IsHermitian := by
  refine ⟨?_, ⟨?_, ?_, ?_⟩, ?_, ?_⟩
  · intro μ y hy h
    have h0 := congrFun h 0
    have h1 := congrFun h 1
    simp [mulVec, dotProduct, Fin.sum_univ_two] at h0 h1
    by_cases hm : μ = 0
    · exact .inl hm
    · have hy0 : y 0 = 0 := h0.resolve_left hm
      have hy1 : y 1 ≠ 0 := fun h' => hy (by ext i; fin_cases i <;> simp [hy0, h'])
      have : μ = 1 := by
        have : (μ - 1) * y 1 = 0 := by linarith
        rcases mul_eq_zero.1 this with h | h
        · linarith
        · exact absurd h hy1
      exact .inr ⟨this.ge, by linarith⟩
  · ext i; fin_cases i <;> simp
  · ext i; fin_cases i <;> simp [mulVec, dotProduct, Fin.sum_univ_two]
  · intro y h
    have h1 := congrFun h 1
    simp [mulVec, dotProduct, Fin.sum_univ_two] at h1
    simp [dotProduct, Fin.sum_univ_two, h1]
  · unfold Independent
    rw [Fintype.linearIndependent_iff]
    intro c hc
    have h0 := congrFun hc 0
    have h1 := congrFun hc 1
    simp [mulVec, dotProduct, Fin.sum_univ_two] at h0 h1
    rw [h0, zero_mul, zero_add] at h1
    intro i
    fin_cases i
    · exact h0
    · show c 1 = 0
      linarith
  · ext i j; fin_cases i <;> fin_cases j <;> simp

end Verif.Krylov
