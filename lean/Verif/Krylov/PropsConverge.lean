import Verif.Krylov.PropsKernel
import Mathlib.Topology.ContinuousMap.Weierstrass

/-!
# C122: the plots converge to the spectrum
-/

namespace Verif.Krylov

open Verif.Loop Matrix Polynomial Polynomial.Chebyshev Filter Topology

variable {𝕜 : Type} [RCLike 𝕜] {n : Nat}

/-- The series with the coefficients `c`. -/
noncomputable def series (c : Nat → ℝ) (N : Nat) (x : ℝ) : ℝ :=
  c 0 + 2 * ∑ i ∈ Finset.range N, c (i + 1) * (T ℝ ((i + 1 : Nat) : ℤ)).eval x

theorem series_continuous (c : Nat → ℝ) (N : Nat) : Continuous (series c N) := by
  unfold series
  fun_prop

theorem series_nonneg {ι : Type} (s : Finset ι) (w y : ι → ℝ) (hw : ∀ i ∈ s, 0 ≤ w i) (hy : ∀ i ∈ s, |y i| ≤ 1) (g c : Nat → ℝ) (N : Nat)
    (hg : PosKernel g N) (hc : ∀ k, c k = g k * ∑ i ∈ s, w i * (T ℝ (k : ℤ)).eval (y i)) (x : ℝ) (hx : |x| ≤ 1) : 0 ≤ series c N x := by
  unfold series
  have e : c 0 + 2 * ∑ i ∈ Finset.range N, c (i + 1) * (T ℝ ((i + 1 : Nat) : ℤ)).eval x =
      ∑ j ∈ s, w j * (g 0 + 2 * ∑ i ∈ Finset.range N, g (i + 1) * (T ℝ ((i + 1 : Nat) : ℤ)).eval (y j) * (T ℝ ((i + 1 : Nat) : ℤ)).eval x) := by
    simp only [mul_add, Finset.sum_add_distrib]
    congr 1
    · rw [hc, Finset.mul_sum]
      refine Finset.sum_congr rfl fun j _ => ?_
      simp [mul_comm]
    · simp only [hc, Finset.mul_sum, Finset.sum_mul]
      rw [Finset.sum_comm]
      refine Finset.sum_congr rfl fun j _ => Finset.sum_congr rfl fun i _ => ?_
      ring
  rw [e]
  exact Finset.sum_nonneg fun j hj => mul_nonneg (hw j hj) (series_positive g N hg x (y j) hx (hy j hj))

/-- The integral of a function with a series. -/
noncomputable def against (f : ℝ → ℝ) (F : ℝ → ℝ) : ℝ := ∫ t in (0)..Real.pi, f (Real.cos t) * F (Real.cos t)

theorem against_eq (f F : ℝ → ℝ) : against f F = ∫ x in (-1)..1, f x * F x * √(1 - x ^ 2)⁻¹ := by
  have h := integral_measureT_eq_integral_cos (f := fun x => f x * F x)
  rw [integral_measureT] at h
  exact h.symm

theorem cos_mem (t : ℝ) : Real.cos t ∈ Set.Icc (-1 : ℝ) 1 := ⟨Real.neg_one_le_cos t, Real.cos_le_one t⟩

theorem comp_cos {f : ℝ → ℝ} (hf : ContinuousOn f (Set.Icc (-1) 1)) : Continuous fun t => f (Real.cos t) :=
  hf.comp_continuous Real.continuous_cos cos_mem

theorem against_T (c : Nat → ℝ) (N m : Nat) : against (fun x => (T ℝ (m : ℤ)).eval x) (series c N) = if m < N + 1 then Real.pi * c m else 0 := by
  rw [against_eq]
  exact series_moments c N m

theorem against_add {f g F : ℝ → ℝ} (hf : ContinuousOn f (Set.Icc (-1) 1)) (hg : ContinuousOn g (Set.Icc (-1) 1)) (hF : Continuous F) :
    against (fun x => f x + g x) F = against f F + against g F := by
  unfold against
  rw [← intervalIntegral.integral_add]
  · simp only [add_mul]
  · exact ((comp_cos hf).mul (hF.comp Real.continuous_cos)).intervalIntegrable _ _
  · exact ((comp_cos hg).mul (hF.comp Real.continuous_cos)).intervalIntegrable _ _

theorem against_mul (a : ℝ) (f F : ℝ → ℝ) : against (fun x => a * f x) F = a * against f F := by
  unfold against
  rw [← intervalIntegral.integral_const_mul]
  simp only [mul_assoc]

/-- A function that is small gives a small integral. -/
theorem against_le {f F : ℝ → ℝ} (hf : ContinuousOn f (Set.Icc (-1) 1)) (hF : Continuous F) (hp : ∀ x, |x| ≤ 1 → 0 ≤ F x) (e : ℝ)
    (h : ∀ x ∈ Set.Icc (-1 : ℝ) 1, |f x| ≤ e) : |against f F| ≤ e * against (fun _ => 1) F := by
  rw [← against_mul, abs_le]
  have hcF := hF.comp Real.continuous_cos
  have hpos : ∀ t, 0 ≤ F (Real.cos t) := fun t => hp _ (Real.abs_cos_le_one t)
  have hi := ((comp_cos hf).mul hcF).intervalIntegrable 0 Real.pi (μ := MeasureTheory.volume)
  have he : IntervalIntegrable (fun t => e * 1 * F (Real.cos t)) MeasureTheory.volume 0 Real.pi :=
    (continuous_const.mul hcF).intervalIntegrable _ _
  constructor
  · unfold against
    rw [← intervalIntegral.integral_neg]
    refine intervalIntegral.integral_mono_on Real.pi_pos.le he.neg hi fun t _ => ?_
    have := (abs_le.1 (h _ (cos_mem t))).1
    nlinarith [hpos t]
  · refine intervalIntegral.integral_mono_on Real.pi_pos.le hi he fun t _ => ?_
    have := (abs_le.1 (h _ (cos_mem t))).2
    nlinarith [hpos t]

/-- The integrals with polynomials have a limit if those with the Chebyshev polynomials do. -/
theorem against_poly (F : Nat → ℝ → ℝ) (hF : ∀ N, Continuous (F N)) (D : ℝ[X] →ₗ[ℝ] ℝ)
    (h : ∀ m : Nat, Tendsto (fun N => against (fun x => (T ℝ (m : ℤ)).eval x) (F N)) atTop (𝓝 (D (T ℝ (m : ℤ))))) (p : ℝ[X]) :
    Tendsto (fun N => against (fun x => p.eval x) (F N)) atTop (𝓝 (D p)) := by
  have hc : ∀ p : ℝ[X], ContinuousOn (fun x => p.eval x) (Set.Icc (-1) 1) := fun p => p.continuous.continuousOn
  have add : ∀ p q : ℝ[X], Tendsto (fun N => against (fun x => p.eval x) (F N)) atTop (𝓝 (D p)) →
      Tendsto (fun N => against (fun x => q.eval x) (F N)) atTop (𝓝 (D q)) →
      Tendsto (fun N => against (fun x => (p + q).eval x) (F N)) atTop (𝓝 (D (p + q))) := by
    intro p q hp hq
    simp only [eval_add, map_add]
    simp only [against_add (hc p) (hc q) (hF _)]
    exact hp.add hq
  have smul : ∀ (a : ℝ) (p : ℝ[X]), Tendsto (fun N => against (fun x => p.eval x) (F N)) atTop (𝓝 (D p)) →
      Tendsto (fun N => against (fun x => (a • p).eval x) (F N)) atTop (𝓝 (D (a • p))) := by
    intro a p hp
    simp only [eval_smul, smul_eq_mul, map_smul, against_mul]
    exact hp.const_mul a
  have hT : ∀ m : ℤ, Tendsto (fun N => against (fun x => (T ℝ m).eval x) (F N)) atTop (𝓝 (D (T ℝ m))) := by
    intro m
    rcases Int.natAbs_eq m with hm | hm
    · rw [hm]; exact h _
    · rw [hm, T_neg]; exact h _
  have hX : ∀ (k : Nat) (m : ℤ), Tendsto (fun N => against (fun x => (X ^ k * T ℝ m).eval x) (F N)) atTop (𝓝 (D (X ^ k * T ℝ m))) := by
    intro k
    induction k with
    | zero => intro m; simpa using hT m
    | succ k ih =>
      intro m
      have e : (X ^ (k + 1) * T ℝ m : ℝ[X]) = (1 / 2 : ℝ) • (X ^ k * T ℝ (m + 1) + X ^ k * T ℝ (m - 1)) := by
        have h2 := T_add_two ℝ (m - 1)
        rw [show m - 1 + 2 = m + 1 by ring, show m - 1 + 1 = m by ring] at h2
        rw [h2, ← mul_add, sub_add_cancel, pow_succ, smul_eq_C_mul, show (2 : ℝ[X]) = C 2 by rfl]
        have : (C (1 / 2 : ℝ) : ℝ[X]) * C 2 = 1 := by rw [← Polynomial.C_mul]; norm_num
        linear_combination (-(X ^ k * X * T ℝ m)) * this
      rw [e]
      exact smul _ _ (add _ _ (ih _) (ih _))
  induction p using Polynomial.induction_on' with
  | add p q hp hq => exact add p q hp hq
  | monomial k a =>
    have := smul a _ (hX k 0)
    rw [T_zero, mul_one] at this
    rw [← C_mul_X_pow_eq_monomial, ← smul_eq_C_mul]
    exact this

/-- And so do those with continuous functions, if the series are not negative. -/
theorem against_continuous {ι : Type} (s : Finset ι) (w y : ι → ℝ) (hw : ∀ i ∈ s, 0 ≤ w i) (hy : ∀ i ∈ s, |y i| ≤ 1)
    (F : Nat → ℝ → ℝ) (hF : ∀ N, Continuous (F N)) (hp : ∀ N x, |x| ≤ 1 → 0 ≤ F N x) (hm : ∀ N, against (fun _ => 1) (F N) = Real.pi * ∑ i ∈ s, w i)
    (h : ∀ p : ℝ[X], Tendsto (fun N => against (fun x => p.eval x) (F N)) atTop (𝓝 (Real.pi * ∑ i ∈ s, w i * p.eval (y i))))
    (f : ℝ → ℝ) (hf : ContinuousOn f (Set.Icc (-1) 1)) :
    Tendsto (fun N => against f (F N)) atTop (𝓝 (Real.pi * ∑ i ∈ s, w i * f (y i))) := by
  set M := Real.pi * ∑ i ∈ s, w i with hM
  have hM0 : 0 ≤ M := mul_nonneg Real.pi_pos.le (Finset.sum_nonneg hw)
  rw [Metric.tendsto_atTop]
  intro e he
  obtain ⟨p, hpf⟩ := exists_polynomial_near_of_continuousOn (-1) 1 f hf (e / (2 * (2 * M + 1))) (by positivity)
  obtain ⟨N0, hN0⟩ := Metric.tendsto_atTop.1 (h p) (e / 2) (by positivity)
  refine ⟨N0, fun N hN => ?_⟩
  have h1 := hN0 N hN
  rw [Real.dist_eq] at h1 ⊢
  have hq : ContinuousOn (fun x => -1 * p.eval x) (Set.Icc (-1) 1) := continuousOn_const.mul p.continuous.continuousOn
  have hc : ContinuousOn (fun x => f x + -1 * p.eval x) (Set.Icc (-1) 1) := hf.add hq
  have h2 := against_le hc (hF N) (hp N) (e / (2 * (2 * M + 1))) (fun x hx => by
    have := (hpf x hx).le
    rw [abs_sub_comm] at this
    rwa [neg_one_mul, ← sub_eq_add_neg])
  rw [against_add hf hq (hF N), against_mul, hm] at h2
  have h3 : |Real.pi * ∑ i ∈ s, w i * p.eval (y i) - Real.pi * ∑ i ∈ s, w i * f (y i)| ≤ e / (2 * (2 * M + 1)) * M := by
    rw [← mul_sub, ← Finset.sum_sub_distrib, abs_mul, abs_of_pos Real.pi_pos, hM, mul_left_comm]
    refine mul_le_mul_of_nonneg_left ?_ Real.pi_pos.le
    rw [Finset.mul_sum]
    refine (Finset.abs_sum_le_sum_abs _ _).trans (Finset.sum_le_sum fun i hi => ?_)
    rw [← mul_sub, abs_mul, abs_of_nonneg (hw i hi), mul_comm]
    exact mul_le_mul_of_nonneg_right (hpf _ (abs_le.1 (hy i hi))).le (hw i hi)
  have h4 : e / (2 * (2 * M + 1)) * M + e / (2 * (2 * M + 1)) * M < e / 2 := by
    rw [← add_mul, ← add_div, div_mul_eq_mul_div, div_lt_div_iff₀ (by positivity) (by norm_num)]
    nlinarith
  have e1 : against f (F N) - Real.pi * ∑ i ∈ s, w i * f (y i) =
      (against f (F N) + -1 * against (fun x => p.eval x) (F N)) + (against (fun x => p.eval x) (F N) - Real.pi * ∑ i ∈ s, w i * p.eval (y i)) +
      (Real.pi * ∑ i ∈ s, w i * p.eval (y i) - Real.pi * ∑ i ∈ s, w i * f (y i)) := by ring
  rw [e1]
  refine (abs_add_three _ _ _).trans_lt ?_
  linarith

/-- **C122** The plots converge: with more and more moments of a vector and a scaled matrix, and with the kernels of Jackson or Lorentz, the
integral of the series over the weight with any continuous function goes to π times the sum of the function at the eigenvalues, with the
weights that the vector has there. -/
theorem plot_converges (k : Kernel) (hk : k = .jackson ∨ ∃ l, l ≠ 0 ∧ k = .lorentz l) {A : Matrix (Fin n) (Fin n) 𝕜} (hA : A.IsHermitian)
    (hl : LowerBound A (-1)) (hu : UpperBound A 1) (v : Fin n → 𝕜) :
    ∃ F : Nat → ℝ → ℝ,
      (∀ N, 6 ≤ N → ∃ l, plotMoments k 0 ((List.range N).map fun i => moment A v (2 * i)) ((List.range N).map fun i => moment A v (2 * i + 1)) = some l ∧
        ∀ x, calcF x l = some (F N x)) ∧
      ∃ w : Fin n → ℝ, (∀ i, 0 ≤ w i) ∧
        (∀ p : ℝ[X], RCLike.re (star v ⬝ᵥ (aeval A p *ᵥ v)) = ∑ i, w i * p.eval (hA.eigenvalues i)) ∧
        ∀ f : ℝ → ℝ, ContinuousOn f (Set.Icc (-1) 1) →
          Tendsto (fun N => ∫ x in (-1)..1, f x * F N x * √(1 - x ^ 2)⁻¹) atTop (𝓝 (Real.pi * ∑ i, w i * f (hA.eigenvalues i))) := by
  obtain ⟨w, hw, hpoly⟩ := expectation_poly hA v
  have hy : ∀ i, |hA.eigenvalues i| ≤ 1 := fun i => abs_le.2 (eigenvalue_bounds hA hl hu i)
  have hmom : ∀ m : Nat, moment A v m = ∑ i, w i * (T ℝ (m : ℤ)).eval (hA.eigenvalues i) := fun m => hpoly _
  -- the coefficients; below seven moments those of the seventh, which do not matter
  set M : Nat → Nat := fun N => max N 6 with hMdef
  set g : Nat → Nat → ℝ := fun N i => ((kernel k 0 (M N))[i]?).getD 0 with hgdef
  have hlen : ∀ N, (kernel k 0 N).length = N := by
    intro N
    unfold kernel
    cases k <;> simp [jackson, lorentz]
  have hg : ∀ N, ∀ i < M N - 1 + 1, (kernel k 0 (M N))[i]? = some (g N i) := by
    intro N i hi
    have : 6 ≤ M N := le_max_right _ _
    simp only [hgdef]
    rw [List.getElem?_eq_getElem (by rw [hlen]; omega), Option.getD_some]
  have hkl : ∀ l, k = .lorentz l → l ≠ 0 := by
    rintro l rfl
    rcases hk with h | ⟨l', h, e⟩
    · simp at h
    · injection e with e
      rwa [e]
  set F : Nat → ℝ → ℝ := fun N => series (fun i => g N i * moment A v i) (M N - 1) with hFdef
  have hpos : ∀ N, PosKernel (g N) (M N - 1) := fun N =>
    kernel_positive k hk 0 (M N) (M N - 1) (by
      have : 6 ≤ M N := le_max_right _ _
      rw [if_pos (.inl rfl)]; omega) (g N) (hg N)
  refine ⟨F, fun N hN => ?_, w, hw, hpoly, fun f hf => ?_⟩
  · have hMN : M N = N := max_eq_left hN
    have hgN := hg N
    rw [hMN] at hgN
    have hll : ∀ (f : Nat → ℝ), ∀ i < ((List.range N).map f).length, ((List.range N).map f)[i]? = some (f i) := by
      intro f i hi
      rw [List.length_map, List.length_range] at hi
      rw [List.getElem?_map, List.getElem?_range hi]
      rfl
    have hl0 : ((List.range N).map fun i => moment A v (2 * i)).length = N := by simp
    obtain ⟨l, e, hln, hc⟩ := plotMoments_spec k 0 ((List.range N).map fun i => moment A v (2 * i)) ((List.range N).map fun i => moment A v (2 * i + 1))
      (fun i => moment A v (2 * i)) (fun i => moment A v (2 * i + 1)) (g N) (N - 1 + 1) (by
        rw [if_pos (.inl rfl), hl0]; omega) (by omega) (by simp) (hll _) (fun i hi => hll _ i (by simpa using hi)) (by rw [hl0]; exact hgN)
    refine ⟨l, e, fun x => ?_⟩
    rw [calcF_spec x l _ (N - 1) hln hc]
    simp only [hFdef, series, hMN, momentOf_even_odd (fun i => moment A v i)]
  · simp only [← against_eq]
    have hT : ∀ m : Nat, Tendsto (fun N => against (fun x => (T ℝ (m : ℤ)).eval x) (F N)) atTop
        (𝓝 (Real.pi * ∑ i, w i * (T ℝ (m : ℤ)).eval (hA.eigenvalues i))) := by
      intro m
      have h1 := ((kernel_limit k hkl m).mul_const (moment A v m)).const_mul Real.pi
      rw [one_mul, hmom] at h1
      refine h1.congr' ?_
      filter_upwards [eventually_ge_atTop (m + 7)] with N hN
      have hMN : M N = N := max_eq_left (by omega)
      simp only [hFdef]
      rw [against_T, hMN, if_pos (by omega)]
      simp only [hgdef, hMN, hmom]
    let D : ℝ[X] →ₗ[ℝ] ℝ :=
      { toFun := fun p => Real.pi * ∑ i, w i * p.eval (hA.eigenvalues i)
        map_add' := fun p q => by
          simp only [eval_add, mul_add, Finset.sum_add_distrib]
        map_smul' := fun a p => by
          simp only [eval_smul, smul_eq_mul, RingHom.id_apply, Finset.mul_sum]
          exact Finset.sum_congr rfl fun i _ => by ring }
    refine against_continuous Finset.univ w hA.eigenvalues (fun i _ => hw i) (fun i _ => hy i) F (fun N => series_continuous _ _) ?_ ?_ ?_ f hf
    · intro N x hx
      exact series_nonneg Finset.univ w hA.eigenvalues (fun i _ => hw i) (fun i _ => hy i) (g N) _ (M N - 1) (hpos N) (fun k => by rw [hmom]) x hx
    · intro N
      have h1 := against_T (fun i => g N i * moment A v i) (M N - 1) 0
      rw [if_pos (by omega)] at h1
      simp only [Nat.cast_zero, T_zero, eval_one] at h1
      have h0 := kernel_zero k 0 (M N) (lt_of_lt_of_le (by norm_num) (le_max_right N 6)) hkl
      rw [hg N 0 (by omega), Option.some.injEq] at h0
      rw [h0, one_mul, hmom] at h1
      simpa using h1
    · exact fun p => against_poly F (fun N => series_continuous _ _) D hT p

/-! ## Example -/

/-- The weights of two sites that exchange a particle. -/
example : ∃ F : Nat → ℝ → ℝ, ∀ N, 6 ≤ N →
    ∃ l, plotMoments .jackson 0 ((List.range N).map fun i => moment (!![0, 1; 1, 0] : Matrix (Fin 2) (Fin 2) ℝ) ![1, 0] (2 * i))
      ((List.range N).map fun i => moment (!![0, 1; 1, 0] : Matrix (Fin 2) (Fin 2) ℝ) ![1, 0] (2 * i + 1)) = some l ∧ ∀ x, calcF x l = some (F N x) := by
  obtain ⟨F, h, _⟩ := plot_converges .jackson (.inl rfl) (A := (!![0, 1; 1, 0] : Matrix (Fin 2) (Fin 2) ℝ))
    (by ext i j; fin_cases i <;> fin_cases j <;> simp)
    (by
      intro x
      simp [dotProduct, Matrix.mulVec, Fin.sum_univ_two]
      nlinarith [sq_nonneg (x 0 + x 1)])
    (by
      intro x
      simp [dotProduct, Matrix.mulVec, Fin.sum_univ_two]
      nlinarith [sq_nonneg (x 0 - x 1)]) ![1, 0]
  exact ⟨F, h⟩

end Verif.Krylov
