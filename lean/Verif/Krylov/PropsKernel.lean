import Verif.Krylov.PropsCurve
import Mathlib.Analysis.SpecialFunctions.Trigonometric.Chebyshev.Basic
import Mathlib.Analysis.SpecialFunctions.Trigonometric.Chebyshev.Orthogonality
import Mathlib.Analysis.SpecialFunctions.Trigonometric.Deriv
import Mathlib.Tactic.LinearCombination
import Mathlib.Tactic.FieldSimp

/-!
# C122: what the kernels of the kernel polynomial method guarantee
-/

namespace Verif.Krylov

open Verif.Loop Matrix Polynomial Polynomial.Chebyshev Filter Topology

variable {𝕜 : Type} [RCLike 𝕜] {n : Nat}

/-- The product of a sequence of `M` numbers with itself moved by `k`. -/
noncomputable def auto (a : Nat → ℝ) (M k : Nat) : ℝ := ∑ j ∈ Finset.range (M - k), a j * a (j + k)

theorem auto_succ (a : Nat → ℝ) (M k : Nat) (h : k ≤ M) : auto a (M + 1) k = auto a M k + a (M - k) * a M := by
  unfold auto
  rw [show M + 1 - k = (M - k) + 1 by omega, Finset.sum_range_succ, show M - k + k = M by omega]

theorem auto_top (a : Nat → ℝ) (M : Nat) : auto a M M = 0 := by simp [auto]

/-- A sum of squares: the square of a trigonometric sum. -/
theorem auto_square (a : Nat → ℝ) (t : ℝ) (M : Nat) :
    (∑ j ∈ Finset.range M, a j * Real.cos (j * t)) ^ 2 + (∑ j ∈ Finset.range M, a j * Real.sin (j * t)) ^ 2 =
    auto a M 0 + 2 * ∑ i ∈ Finset.range M, auto a M (i + 1) * Real.cos ((i + 1 : Nat) * t) := by
  induction M with
  | zero => simp [auto]
  | succ M ih =>
    rw [Finset.sum_range_succ, Finset.sum_range_succ, Finset.sum_range_succ _ M, auto_top, auto_succ a M 0 (Nat.zero_le _), Nat.sub_zero]
    have h1 : ∑ i ∈ Finset.range M, auto a (M + 1) (i + 1) * Real.cos ((i + 1 : Nat) * t) =
        ∑ i ∈ Finset.range M, auto a M (i + 1) * Real.cos ((i + 1 : Nat) * t) +
        ∑ i ∈ Finset.range M, a i * a M * Real.cos ((M - i : ℝ) * t) := by
      rw [← Finset.sum_range_reflect (fun i => a i * a M * Real.cos ((M - i : ℝ) * t)), ← Finset.sum_add_distrib]
      refine Finset.sum_congr rfl fun i hi => ?_
      have hi := Finset.mem_range.1 hi
      rw [auto_succ a M (i + 1) (by omega), show M - 1 - i = M - (i + 1) by omega, add_mul]
      congr 3
      rw [Nat.cast_sub (by omega)]
      ring
    have h2 : ∑ i ∈ Finset.range M, a i * a M * Real.cos ((M - i : ℝ) * t) =
        a M * Real.cos (M * t) * ∑ i ∈ Finset.range M, a i * Real.cos (i * t) +
        a M * Real.sin (M * t) * ∑ i ∈ Finset.range M, a i * Real.sin (i * t) := by
      rw [Finset.mul_sum, Finset.mul_sum, ← Finset.sum_add_distrib]
      refine Finset.sum_congr rfl fun i _ => ?_
      rw [sub_mul, Real.cos_sub]
      ring
    rw [h1, h2]
    have h3 := Real.sin_sq_add_cos_sq (M * t)
    linear_combination ih + a M ^ 2 * h3

/-- The kernel of the coefficients is nowhere negative. -/
def PosKernel (g : Nat → ℝ) (N : Nat) : Prop :=
  ∀ t : ℝ, 0 ≤ g 0 + 2 * ∑ i ∈ Finset.range N, g (i + 1) * Real.cos ((i + 1 : Nat) * t)

theorem posKernel_of_auto (g a : Nat → ℝ) (s : ℝ) (hs : 0 ≤ s) (N : Nat) (h : ∀ i < N + 1, g i = s * auto a (N + 1) i) : PosKernel g N := by
  intro t
  have h1 := auto_square a t (N + 1)
  rw [Finset.sum_range_succ _ N, Finset.sum_range_succ _ N, Finset.sum_range_succ (fun i => auto a (N + 1) (i + 1) * _) N, auto_top, zero_mul,
    add_zero] at h1
  have h2 : ∑ i ∈ Finset.range N, g (i + 1) * Real.cos ((i + 1 : Nat) * t) =
      s * ∑ i ∈ Finset.range N, auto a (N + 1) (i + 1) * Real.cos ((i + 1 : Nat) * t) := by
    rw [Finset.mul_sum]
    refine Finset.sum_congr rfl fun i hi => ?_
    rw [h (i + 1) (by have := Finset.mem_range.1 hi; omega), mul_assoc]
  rw [h 0 (by omega), h2]
  have : s * auto a (N + 1) 0 + 2 * (s * ∑ i ∈ Finset.range N, auto a (N + 1) (i + 1) * Real.cos ((i + 1 : Nat) * t)) =
      s * (auto a (N + 1) 0 + 2 * ∑ i ∈ Finset.range N, auto a (N + 1) (i + 1) * Real.cos ((i + 1 : Nat) * t)) := by ring
  rw [this, ← h1]
  positivity

/-! ## Jackson -/

theorem sum_cos_progression (q : ℝ) (n M : Nat) :
    (∑ j ∈ Finset.range M, Real.cos ((2 * j + 2 + n : Nat) * q)) * Real.sin q =
      (Real.sin ((2 * M + 1 + n : Nat) * q) - Real.sin ((1 + n : Nat) * q)) / 2 := by
  induction M with
  | zero => simp
  | succ M ih =>
    rw [Finset.sum_range_succ, add_mul, ih]
    have h1 : ((2 * (M + 1) + 1 + n : Nat) : ℝ) * q = ((2 * M + 2 + n : Nat) : ℝ) * q + q := by push_cast; ring
    have h2 : ((2 * M + 1 + n : Nat) : ℝ) * q = ((2 * M + 2 + n : Nat) : ℝ) * q - q := by push_cast; ring
    rw [h1, h2, Real.sin_add, Real.sin_sub]
    ring

/-- The coefficients of Jackson are those of a sine. -/
theorem jackson_auto (N i : Nat) (hi : i < N) :
    (((N + 1 : Nat) - i : ℝ) * Real.cos (Real.pi * i / (N + 1 : Nat)) +
      Real.sin (Real.pi * i / (N + 1 : Nat)) * (1 / Real.tan (Real.pi / (N + 1 : Nat)))) / (N + 1 : Nat) =
    2 / (N + 1 : Nat) * auto (fun j => Real.sin ((j + 1 : Nat) * (Real.pi / (N + 1 : Nat)))) N i := by
  set q := Real.pi / (N + 1 : Nat) with hq
  have hN : ((N + 1 : Nat) : ℝ) ≠ 0 := by positivity
  have hN1 : (1 : ℝ) < (N + 1 : Nat) := by exact_mod_cast (by omega : 1 < N + 1)
  have hNq : ((N + 1 : Nat) : ℝ) * q = Real.pi := by rw [hq]; field_simp
  have hs : Real.sin q ≠ 0 := by
    refine (Real.sin_pos_of_pos_of_lt_pi (by rw [hq]; positivity) ?_).ne'
    rw [hq, div_lt_iff₀ (by positivity)]
    nlinarith [Real.pi_pos]
  have hcot : 1 / Real.tan q = Real.cos q / Real.sin q := by rw [Real.tan_eq_sin_div_cos, one_div_div]
  have hiq : Real.pi * i / (N + 1 : Nat) = i * q := by rw [hq]; ring
  rw [hcot, hiq]
  have h1 : auto (fun j => Real.sin ((j + 1 : Nat) * q)) N i =
      ∑ j ∈ Finset.range (N - i), (Real.cos (i * q) - Real.cos ((2 * j + 2 + i : Nat) * q)) / 2 := by
    unfold auto
    refine Finset.sum_congr rfl fun j _ => ?_
    have h1 : (i : ℝ) * q = ((j + i + 1 : Nat) : ℝ) * q - ((j + 1 : Nat) : ℝ) * q := by push_cast; ring
    have h2 : ((2 * j + 2 + i : Nat) : ℝ) * q = ((j + i + 1 : Nat) : ℝ) * q + ((j + 1 : Nat) : ℝ) * q := by push_cast; ring
    rw [h1, h2, Real.cos_sub, Real.cos_add]
    ring
  have h2 := sum_cos_progression q i (N - i)
  have h3 : ((2 * (N - i) + 1 + i : Nat) : ℝ) * q = 2 * Real.pi - ((1 + i : Nat) : ℝ) * q := by
    rw [← hNq]
    push_cast [Nat.cast_sub hi.le]
    ring
  rw [h3, Real.sin_two_pi_sub] at h2
  have h4 : ((1 + i : Nat) : ℝ) * q = i * q + q := by push_cast; ring
  rw [h4, Real.sin_add] at h2
  rw [h1, ← Finset.sum_div, Finset.sum_sub_distrib, Finset.sum_const, Finset.card_range, nsmul_eq_mul, Nat.cast_sub hi.le]
  have h5 : ∑ j ∈ Finset.range (N - i), Real.cos ((2 * j + 2 + i : Nat) * q) =
      -(Real.sin (i * q) * (Real.cos q / Real.sin q) + Real.cos (i * q)) := by
    have : ∑ j ∈ Finset.range (N - i), Real.cos ((2 * j + 2 + i : Nat) * q) =
        ((-(Real.sin (i * q) * Real.cos q + Real.cos (i * q) * Real.sin q) -
          (Real.sin (i * q) * Real.cos q + Real.cos (i * q) * Real.sin q)) / 2) / Real.sin q := by
      rw [← h2, mul_div_assoc, div_self hs, mul_one]
    rw [this]
    field_simp
    ring
  rw [h5]
  push_cast
  ring

/-! ## Lorentz -/

/-- The coefficients of Lorentz are those of an exponential. -/
theorem lorentz_auto (N i : Nat) (hi : i < N) (l : ℝ) (hl : l ≠ 0) :
    Real.sinh (l * (1 - i / N)) / Real.sinh l =
    (1 - Real.exp (-(2 * l / N))) / (1 - Real.exp (-(2 * l))) * auto (fun j => Real.exp (-(l * j / N))) N i := by
  have hN : (N : ℝ) ≠ 0 := by
    have : 0 < N := by omega
    positivity
  have hsum : ∀ M : Nat, (1 - Real.exp (-(2 * l / N))) * ∑ j ∈ Finset.range M, Real.exp (-(l * j / N)) * Real.exp (-(l * (j + i : Nat) / N)) =
      Real.exp (-(l * i / N)) - Real.exp (-(l * (2 * M + i : Nat) / N)) := by
    intro M
    induction M with
    | zero => simp
    | succ M ih =>
      rw [Finset.sum_range_succ, mul_add, ih, ← Real.exp_add, sub_mul, ← Real.exp_add]
      have h1 : -(l * M / N) + -(l * (M + i : Nat) / N) = -(l * (2 * M + i : Nat) / N) := by push_cast; ring
      have h2 : -(2 * l / N) + (-(l * M / N) + -(l * (M + i : Nat) / N)) = -(l * (2 * (M + 1) + i : Nat) / N) := by push_cast; ring
      rw [h2, h1]
      ring
  have h1 : 1 - Real.exp (-(2 * l)) ≠ 0 := by
    intro h
    have : Real.exp (-(2 * l)) = 1 := by linarith
    rw [Real.exp_eq_one_iff] at this
    exact hl (by linarith)
  have hs : Real.sinh l ≠ 0 := fun h => hl (Real.sinh_injective (by rw [h, Real.sinh_zero]))
  have h2 : auto (fun j => Real.exp (-(l * j / N))) N i =
      ∑ j ∈ Finset.range (N - i), Real.exp (-(l * j / N)) * Real.exp (-(l * (j + i : Nat) / N)) := rfl
  rw [h2, div_mul_eq_mul_div, hsum, div_eq_div_iff hs h1]
  have h3 : -(l * (2 * (N - i) + i : Nat) / N) = -(2 * l) + l * i / N := by
    push_cast [Nat.cast_sub hi.le]
    field_simp
    ring
  rw [h3, Real.sinh_eq, Real.sinh_eq]
  have h4 : l * (1 - i / N) = l + -(l * i / N) := by field_simp; ring
  have h5 : -(l * (1 - i / N)) = -l + l * i / N := by field_simp; ring
  have h6 : -(2 * l) = -l + -l := by ring
  rw [h5, h4, h6]
  simp only [Real.exp_add]
  have h7 : Real.exp l * Real.exp (-l) = 1 := by rw [← Real.exp_add]; simp
  linear_combination (Real.exp (-l) * Real.exp (l * i / N) - Real.exp (-(l * i / N)) * Real.exp (-l)) / 2 * h7

/-- **C122** The kernels of Jackson and Lorentz are nowhere negative. -/
theorem kernel_positive (k : Kernel) (hk : k = .jackson ∨ ∃ l, l ≠ 0 ∧ k = .lorentz l) (cutoff size N : Nat)
    (hN : N + 1 = if cutoff = 0 ∨ size < cutoff then size else cutoff) (g : Nat → ℝ)
    (hg : ∀ i < N + 1, (kernel k cutoff size)[i]? = some (g i)) (t : ℝ) :
    0 ≤ g 0 + 2 * ∑ i ∈ Finset.range N, g (i + 1) * Real.cos ((i + 1 : Nat) * t) := by
  rcases hk with rfl | ⟨l, hl, rfl⟩
  · refine posKernel_of_auto g (fun j => Real.sin ((j + 1 : Nat) * (Real.pi / (N + 1 + 1 : Nat)))) (2 / (N + 1 + 1 : Nat)) (by positivity) N
      (fun i hi => ?_) t
    have h := hg i hi
    simp only [kernel, ← hN, jackson] at h
    rw [List.getElem?_map, List.getElem?_range hi, Option.map_some, Option.some.injEq] at h
    rw [← h]
    exact jackson_auto (N + 1) i hi
  · refine posKernel_of_auto g (fun j => Real.exp (-(l * j / (N + 1 : Nat))))
      ((1 - Real.exp (-(2 * l / (N + 1 : Nat)))) / (1 - Real.exp (-(2 * l)))) ?_ N (fun i hi => ?_) t
    · have hp : (0 : ℝ) < (N + 1 : Nat) := by positivity
      rcases lt_or_gt_of_ne hl with h | h
      · have h1 : 2 * l / (N + 1 : Nat) < 0 := div_neg_of_neg_of_pos (by linarith) hp
        have h2 : 1 < Real.exp (-(2 * l / (N + 1 : Nat))) := Real.one_lt_exp_iff.2 (by linarith)
        have h3 : 1 < Real.exp (-(2 * l)) := Real.one_lt_exp_iff.2 (by linarith)
        exact div_nonneg_of_nonpos (by linarith) (by linarith)
      · have h1 : 0 < 2 * l / (N + 1 : Nat) := by positivity
        have h2 : Real.exp (-(2 * l / (N + 1 : Nat))) < 1 := by rw [Real.exp_lt_one_iff]; linarith
        have h3 : Real.exp (-(2 * l)) < 1 := by rw [Real.exp_lt_one_iff]; linarith
        exact div_nonneg (by linarith) (by linarith)
    · have h := hg i hi
      simp only [kernel, ← hN, lorentz] at h
      rw [List.getElem?_map, List.getElem?_range hi, Option.map_some, Option.some.injEq] at h
      rw [← h]
      exact lorentz_auto (N + 1) i hi l hl

/-- The kernel between two points. -/
theorem series_positive (g : Nat → ℝ) (N : Nat) (h : PosKernel g N) (x y : ℝ) (hx : |x| ≤ 1) (hy : |y| ≤ 1) :
    0 ≤ g 0 + 2 * ∑ i ∈ Finset.range N, g (i + 1) * (T ℝ ((i + 1 : Nat) : ℤ)).eval y * (T ℝ ((i + 1 : Nat) : ℤ)).eval x := by
  have hx := abs_le.1 hx
  have hy := abs_le.1 hy
  have h1 := h (Real.arccos x - Real.arccos y)
  have h2 := h (Real.arccos x + Real.arccos y)
  have h3 : ∑ i ∈ Finset.range N, g (i + 1) * (T ℝ ((i + 1 : Nat) : ℤ)).eval y * (T ℝ ((i + 1 : Nat) : ℤ)).eval x =
      (∑ i ∈ Finset.range N, g (i + 1) * Real.cos ((i + 1 : Nat) * (Real.arccos x - Real.arccos y)) +
      ∑ i ∈ Finset.range N, g (i + 1) * Real.cos ((i + 1 : Nat) * (Real.arccos x + Real.arccos y))) / 2 := by
    rw [← Finset.sum_add_distrib, Finset.sum_div]
    refine Finset.sum_congr rfl fun i _ => ?_
    have e1 := T_real_cos (Real.arccos x) ((i + 1 : Nat) : ℤ)
    have e2 := T_real_cos (Real.arccos y) ((i + 1 : Nat) : ℤ)
    rw [Real.cos_arccos hx.1 hx.2] at e1
    rw [Real.cos_arccos hy.1 hy.2] at e2
    rw [e1, e2, mul_sub, mul_add, Real.cos_sub, Real.cos_add]
    push_cast
    ring
  rw [h3]
  linarith

/-- The curve of a distribution of weights in the interval is not negative. -/
theorem curve_positive {ι : Type} (s : Finset ι) (w y : ι → ℝ) (hw : ∀ i ∈ s, 0 ≤ w i) (hy : ∀ i ∈ s, |y i| ≤ 1) (g c : Nat → ℝ) (N : Nat)
    (hg : PosKernel g N) (hc : ∀ k, c k = g k * ∑ i ∈ s, w i * (T ℝ (k : ℤ)).eval (y i)) (q : PlotP) (omega : ℝ) : 0 ≤ curve q c N omega := by
  classical
  unfold curve
  simp only
  set x := (omega + q.eg - q.b) * q.oneOverA
  split
  · exact le_rfl
  · rename_i hx
    have hx : |x| ≤ 1 := by
      rw [abs_le_one_iff_mul_self_le_one]
      have : (0 : ℝ) < 1 / 10 ^ 12 := by positivity
      nlinarith [not_le.1 hx]
    refine div_nonneg ?_ (Real.sqrt_nonneg _)
    have e : c 0 + 2 * ∑ i ∈ Finset.range N, c (i + 1) * (T ℝ ((i + 1 : Nat) : ℤ)).eval x =
        ∑ j ∈ s, w j * (g 0 + 2 * ∑ i ∈ Finset.range N, g (i + 1) * (T ℝ ((i + 1 : Nat) : ℤ)).eval (y j) * (T ℝ ((i + 1 : Nat) : ℤ)).eval x) := by
      simp only [mul_add, Finset.sum_add_distrib]
      congr 1
      · rw [hc, Finset.mul_sum]
        refine Finset.sum_congr rfl fun j _ => ?_
        simp [mul_comm]
      · simp only [hc, Finset.mul_sum, Finset.sum_mul]
        rw [Finset.sum_comm]
        refine Finset.sum_congr rfl fun j _ => Finset.sum_congr rfl fun i _ => ?_
        ring
    rw [e]
    exact Finset.sum_nonneg fun j hj => mul_nonneg (hw j hj) (series_positive g N hg x (y j) hx (hy j hj))

/-- The moments of a vector and a matrix as those of a distribution of weights. -/
theorem moment_weights {A : Matrix (Fin n) (Fin n) 𝕜} (hA : A.IsHermitian) (hl : LowerBound A (-1)) (hu : UpperBound A 1) (v : Fin n → 𝕜) :
    ∃ w y : Fin n → ℝ, (∀ i, 0 ≤ w i) ∧ (∀ i, |y i| ≤ 1) ∧ ∀ k : Nat, moment A v k = ∑ i, w i * (T ℝ (k : ℤ)).eval (y i) := by
  obtain ⟨w, hw, h⟩ := expectation_poly hA v
  exact ⟨w, hA.eigenvalues, hw, fun i => abs_le.2 (eigenvalue_bounds hA hl hu i), fun k => h _⟩

theorem momentOf_even_odd (f : Nat → ℝ) (k : Nat) : momentOf (fun i => f (2 * i)) (fun i => f (2 * i + 1)) k = f k := by
  unfold momentOf
  split
  · show f (2 * (k / 2) + 1) = f k
    rw [show 2 * (k / 2) + 1 = k by omega]
  · show f (2 * (k / 2)) = f k
    rw [show 2 * (k / 2) = k by omega]

/-- **C122** Plots with the kernels of Jackson or Lorentz of the moments of a vector and a scaled matrix have no negative values. -/
theorem plot_positive (k : Kernel) (hk : k = .jackson ∨ ∃ l, l ≠ 0 ∧ k = .lorentz l) (cutoff : Nat) (H : Matrix (Fin n) (Fin n) 𝕜)
    (hH : H.IsHermitian) (oneOverA b : ℝ) (hl : LowerBound (scaled H oneOverA b) (-1)) (hu : UpperBound (scaled H oneOverA b) 1)
    (v : Fin n → 𝕜) (la lb : List ℝ) (hlen : lb.length = la.length)
    (ha : ∀ i < la.length, la[i]? = some (moment (scaled H oneOverA b) v (2 * i)))
    (hb : ∀ i < la.length, lb[i]? = some (moment (scaled H oneOverA b) v (2 * i + 1)))
    (h6 : 6 ≤ la.length) (h6' : cutoff = 0 ∨ 6 ≤ cutoff) (q : PlotP) (hd : 0 < q.delta) (h1 : q.delta ≤ q.omega2 - q.omega1) :
    ∃ out, plot k cutoff la lb q [] = some out ∧ out.length = ⌊(q.omega2 - q.omega1) / q.delta⌋₊ ∧
      (∀ i < out.length, (out[i]?).map Prod.fst = some (q.omega1 + i * q.delta)) ∧ ∀ p ∈ out, 0 ≤ p.2 := by
  obtain ⟨N, hN⟩ : ∃ N, N + 1 = if cutoff = 0 ∨ la.length < cutoff then la.length else cutoff := by
    refine ⟨(if cutoff = 0 ∨ la.length < cutoff then la.length else cutoff) - 1, ?_⟩
    split <;> omega
  have hN5 : 5 ≤ N := by
    split at hN <;> omega
  have hkl : (kernel k cutoff la.length).length = N + 1 := by
    unfold kernel; cases k <;> simp [jackson, lorentz, hN]
  obtain ⟨g, hg⟩ : ∃ g : Nat → ℝ, ∀ i < N + 1, (kernel k cutoff la.length)[i]? = some (g i) :=
    ⟨fun i => (kernel k cutoff la.length).getD i 0, fun i hi => by
      dsimp only
      rw [List.getD_eq_getElem?_getD, List.getElem?_eq_getElem (by omega), Option.getD_some]⟩
  obtain ⟨out, e, e1, e2⟩ := plot_spec k cutoff la lb (fun i => moment (scaled H oneOverA b) v (2 * i))
    (fun i => moment (scaled H oneOverA b) v (2 * i + 1)) g N hN hN5 hlen ha hb hg q hd h1
  refine ⟨out, e, e1, fun i hi => by rw [e2 i hi]; rfl, ?_⟩
  intro p hp
  obtain ⟨i, hi, rfl⟩ := List.mem_iff_getElem.1 hp
  have := e2 i hi
  rw [List.getElem?_eq_getElem hi, Option.some.injEq] at this
  rw [this]
  obtain ⟨w, y, hw, hy, hm⟩ := moment_weights (scaled_hermitian hH oneOverA b) hl hu v
  dsimp only
  refine curve_positive Finset.univ w y (fun i _ => hw i) (fun i _ => hy i) g _ N (kernel_positive k hk cutoff la.length N hN g hg) (fun k => ?_) q _
  rw [← hm, momentOf_even_odd]

/-! ## The area and the moments of the curve -/

theorem integral_T_T (i m : Nat) : ∫ x, (T ℝ (m : ℤ)).eval x * (T ℝ (i : ℤ)).eval x ∂measureT =
    if i = m then (if m = 0 then Real.pi else Real.pi / 2) else 0 := by
  by_cases h : i = m
  · subst h
    rw [if_pos rfl]
    by_cases h0 : i = 0
    · subst h0
      simpa using integral_eval_T_real_mul_self_measureT_zero
    · rw [if_neg h0]
      exact integral_T_real_mul_self_measureT_of_ne_zero h0
  · rw [if_neg h]
    exact integral_eval_T_real_mul_eval_T_real_measureT_of_ne (fun e => h e.symm)

theorem series_moments (c : Nat → ℝ) (N m : Nat) :
    ∫ x in (-1)..1, (T ℝ (m : ℤ)).eval x * (c 0 + 2 * ∑ i ∈ Finset.range N, c (i + 1) * (T ℝ ((i + 1 : Nat) : ℤ)).eval x) * √(1 - x ^ 2)⁻¹ =
      if m < N + 1 then Real.pi * c m else 0 := by
  rw [← integral_measureT]
  have e : ∀ x : ℝ, (T ℝ (m : ℤ)).eval x * (c 0 + 2 * ∑ i ∈ Finset.range N, c (i + 1) * (T ℝ ((i + 1 : Nat) : ℤ)).eval x) =
      ∑ i ∈ Finset.range (N + 1), (if i = 0 then 1 else 2) * c i * ((T ℝ (m : ℤ)).eval x * (T ℝ (i : ℤ)).eval x) := by
    intro x
    rw [Finset.sum_range_succ', mul_add, Finset.mul_sum, Finset.mul_sum, add_comm]
    congr 1
    · refine Finset.sum_congr rfl fun i _ => ?_
      rw [if_neg (by omega)]
      ring
    · simp
      ring
  simp only [e]
  rw [MeasureTheory.integral_finset_sum _ fun i _ => integrable_measureT (by fun_prop)]
  simp only [MeasureTheory.integral_const_mul, integral_T_T]
  by_cases hm : m < N + 1
  · rw [if_pos hm, Finset.sum_eq_single m]
    · rw [if_pos rfl]
      by_cases h0 : m = 0
      · simp [h0, mul_comm]
      · simp only [h0, if_false]
        ring
    · intro i _ hi
      rw [if_neg hi, mul_zero]
    · intro h
      exact absurd (Finset.mem_range.2 hm) h
  · rw [if_neg hm]
    refine Finset.sum_eq_zero fun i hi => ?_
    have hne : i ≠ m := by have := Finset.mem_range.1 hi; omega
    rw [if_neg hne, mul_zero]

/-- **C122** The moments of the curve: those given times the coefficients of the kernel, as far as the series goes, and a factor of π;
in particular the area is the first one times π, for the three kernels. -/
theorem plot_moments (k : Kernel) (cutoff : Nat) (la lb : List ℝ) (a b g : Nat → ℝ) (N : Nat)
    (hN : N + 1 = if cutoff = 0 ∨ la.length < cutoff then la.length else cutoff) (h6 : 5 ≤ N) (hl : lb.length = la.length)
    (ha : ∀ i < la.length, la[i]? = some (a i)) (hb : ∀ i < la.length, lb[i]? = some (b i))
    (hg : ∀ i < N + 1, (kernel k cutoff la.length)[i]? = some (g i)) :
    ∃ l, ∃ F : ℝ → ℝ, plotMoments k cutoff la lb = some l ∧ (∀ x, calcF x l = some (F x)) ∧
      (∀ m : Nat, ∫ x in (-1)..1, (T ℝ (m : ℤ)).eval x * F x * √(1 - x ^ 2)⁻¹ = if m < N + 1 then Real.pi * (g m * momentOf a b m) else 0) ∧
      ((∀ l, k = .lorentz l → l ≠ 0) → ∫ x in (-1)..1, F x * √(1 - x ^ 2)⁻¹ = Real.pi * a 0) := by
  obtain ⟨l, e, hlen, hc⟩ := plotMoments_spec k cutoff la lb a b g (N + 1) hN (by omega) hl ha hb hg
  refine ⟨l, _, e, fun x => calcF_spec x l _ N hlen hc, fun m => series_moments (fun i => g i * momentOf a b i) N m, fun hk => ?_⟩
  have h := series_moments (fun i => g i * momentOf a b i) N 0
  have h0 := kernel_zero k cutoff la.length (by split at hN <;> omega) hk
  rw [hg 0 (by omega), Option.some.injEq] at h0
  rw [if_pos (by omega)] at h
  simp only [Nat.cast_zero, T_zero, eval_one, one_mul, h0] at h
  simpa [momentOf, h0] using h

/-! ## Many moments -/

theorem abs_sin_mul_le (m : Nat) (q : ℝ) : |Real.sin (m * q)| ≤ m * |Real.sin q| := by
  induction m with
  | zero => simp
  | succ m ih =>
    have e : ((m + 1 : Nat) : ℝ) * q = m * q + q := by push_cast; ring
    rw [e, Real.sin_add]
    have h1 := abs_add_le (Real.sin (m * q) * Real.cos q) (Real.cos (m * q) * Real.sin q)
    rw [abs_mul, abs_mul] at h1
    have h2 := mul_le_mul_of_nonneg_left (Real.abs_cos_le_one q) (abs_nonneg (Real.sin (m * q)))
    have h3 := mul_le_mul_of_nonneg_right (Real.abs_cos_le_one (m * q)) (abs_nonneg (Real.sin q))
    push_cast
    linarith

/-- **C122** With more and more moments each coefficient of a kernel goes to one. -/
theorem kernel_limit (k : Kernel) (hk : ∀ l, k = .lorentz l → l ≠ 0) (m : Nat) :
    Tendsto (fun N => ((kernel k 0 N)[m]?).getD 0) atTop (𝓝 1) := by
  have hinv : Tendsto (fun N : Nat => ((N + 1 : Nat) : ℝ)⁻¹) atTop (𝓝 0) :=
    tendsto_inv_atTop_zero.comp (tendsto_natCast_atTop_atTop.comp (tendsto_add_atTop_nat 1))
  cases k with
  | dirichlet =>
    refine tendsto_const_nhds.congr' ?_
    filter_upwards [eventually_gt_atTop m] with N hN
    simp [kernel, List.getElem?_replicate_of_lt hN]
  | lorentz l =>
    have hl := hk l rfl
    have hs : Real.sinh l ≠ 0 := fun h => hl (Real.sinh_injective (by rw [h, Real.sinh_zero]))
    have h1 : Tendsto (fun N : Nat => Real.sinh (l * (1 - m / N)) / Real.sinh l) atTop (𝓝 (Real.sinh (l * (1 - 0)) / Real.sinh l)) := by
      have h2 : Tendsto (fun N : Nat => l * (1 - (m : ℝ) / N)) atTop (𝓝 (l * (1 - 0))) :=
        tendsto_const_nhds.mul (tendsto_const_nhds.sub (tendsto_const_div_atTop_nhds_zero_nat _))
      exact ((Real.continuous_sinh.tendsto _).comp h2).div_const _
    rw [sub_zero, mul_one, div_self hs] at h1
    refine h1.congr' ?_
    filter_upwards [eventually_gt_atTop m] with N hN
    simp only [kernel, lorentz, true_or, if_true]
    rw [List.getElem?_map, List.getElem?_range hN]
    rfl
  | jackson =>
    have h1 : Tendsto (fun N : Nat => (1 - m * ((N + 1 : Nat) : ℝ)⁻¹) * Real.cos (Real.pi * m * ((N + 1 : Nat) : ℝ)⁻¹)) atTop
        (𝓝 ((1 - m * 0) * Real.cos (Real.pi * m * 0))) :=
      (tendsto_const_nhds.sub (tendsto_const_nhds.mul hinv)).mul ((Real.continuous_cos.tendsto _).comp (tendsto_const_nhds.mul hinv))
    have h2 : Tendsto (fun N : Nat => Real.sin (Real.pi * m / (N + 1 : Nat)) * (1 / Real.tan (Real.pi / (N + 1 : Nat))) * ((N + 1 : Nat) : ℝ)⁻¹) atTop
        (𝓝 0) := by
      refine squeeze_zero_norm (a := fun N : Nat => m * ((N + 1 : Nat) : ℝ)⁻¹) (fun N => ?_) (by simpa using hinv.const_mul (m : ℝ))
      rw [Real.norm_eq_abs, abs_mul, abs_of_pos (by positivity : (0 : ℝ) < ((N + 1 : Nat) : ℝ)⁻¹)]
      refine mul_le_mul_of_nonneg_right ?_ (by positivity)
      set q := Real.pi / (N + 1 : Nat) with hq
      rw [show Real.pi * m / (N + 1 : Nat) = m * q by rw [hq]; ring, Real.tan_eq_sin_div_cos, one_div_div, abs_mul, abs_div]
      by_cases hs : Real.sin q = 0
      · simp [hs]
      · have h3 := abs_sin_mul_le m q
        have h4 : |Real.sin (m * q)| * (|Real.cos q| / |Real.sin q|) ≤ m * |Real.sin q| * (1 / |Real.sin q|) :=
          mul_le_mul h3 (div_le_div_of_nonneg_right (Real.abs_cos_le_one q) (abs_nonneg _)) (by positivity) (by positivity)
        have h5 : |Real.sin q| ≠ 0 := abs_ne_zero.2 hs
        calc _ ≤ _ := h4
          _ = m := by field_simp
    have h3 := h1.add h2
    simp only [mul_zero, sub_zero, Real.cos_zero, mul_one, add_zero] at h3
    refine h3.congr' ?_
    filter_upwards [eventually_gt_atTop m] with N hN
    simp only [kernel, jackson, true_or, if_true]
    rw [List.getElem?_map, List.getElem?_range hN]
    simp only [Option.map_some, Option.getD_some]
    have hp : ((N + 1 : Nat) : ℝ) ≠ 0 := by positivity
    rw [show Real.pi * m * ((N + 1 : Nat) : ℝ)⁻¹ = Real.pi * m / (N + 1 : Nat) from (div_eq_mul_inv _ _).symm]
    generalize Real.cos (Real.pi * m / (N + 1 : Nat)) = u
    generalize Real.sin (Real.pi * m / (N + 1 : Nat)) * (1 / Real.tan (Real.pi / (N + 1 : Nat))) = v
    field_simp

/-- **C122** The second coefficient of Jackson: the spread around a sharp value is that of the angle `π / (N + 1)`. -/
theorem jackson_second (N : Nat) (h : 2 ≤ N) : (jackson N)[1]? = some (Real.cos (Real.pi / (N + 1 : Nat))) := by
  unfold jackson
  rw [List.getElem?_map, List.getElem?_range (by omega), Option.map_some]
  congr 1
  set q := Real.pi / (N + 1 : Nat) with hq
  have hN : ((N + 1 : Nat) : ℝ) ≠ 0 := by positivity
  have hN1 : (1 : ℝ) < (N + 1 : Nat) := by exact_mod_cast (by omega : 1 < N + 1)
  have hs : Real.sin q ≠ 0 := by
    refine (Real.sin_pos_of_pos_of_lt_pi (by rw [hq]; positivity) ?_).ne'
    rw [hq, div_lt_iff₀ (by positivity)]
    nlinarith [Real.pi_pos]
  rw [Nat.cast_one, mul_one, ← hq, Real.tan_eq_sin_div_cos, one_div_div]
  field_simp
  ring

/-! ## The kernel of Dirichlet -/

theorem chebVec_id (v : Fin n → 𝕜) : ∀ k, chebVec (1 : Matrix (Fin n) (Fin n) 𝕜) v k = v
  | 0 => chebVec_zero _ _
  | 1 => by rw [chebVec_one, one_mulVec]
  | k + 2 => by
    rw [chebVec_add_two, chebVec_id v (k + 1), chebVec_id v k, one_mulVec, two_smul, add_sub_cancel_right]

/-- **C122** (finding) With the kernel of Dirichlet, that is, the moments as they are, the plot can be negative. -/
theorem dirichlet_fails : ∃ (H : Matrix (Fin 1) (Fin 1) ℝ) (v : Fin 1 → ℝ) (la lb : List ℝ) (q : PlotP),
    H.IsHermitian ∧ LowerBound (scaled H q.oneOverA q.b) (-1) ∧ UpperBound (scaled H q.oneOverA q.b) 1 ∧
    lb.length = la.length ∧ (∀ i < la.length, la[i]? = some (moment (scaled H q.oneOverA q.b) v (2 * i))) ∧
    (∀ i < la.length, lb[i]? = some (moment (scaled H q.oneOverA q.b) v (2 * i + 1))) ∧
    ∃ out, plot .dirichlet 0 la lb q [] = some out ∧ ∃ p ∈ out, p.2 < 0 := by
  have hs : scaled (1 : Matrix (Fin 1) (Fin 1) ℝ) 1 0 = 1 := by simp [scaled]
  have hm : ∀ k, moment (1 : Matrix (Fin 1) (Fin 1) ℝ) (fun _ => 1) k = 1 := by
    intro k
    rw [moment, chebVec_id]
    simp [dotProduct]
  have hrep : ∀ i < (List.replicate 6 (1 : ℝ)).length, (List.replicate 6 (1 : ℝ))[i]? = some 1 := fun i hi =>
    List.getElem?_replicate_of_lt (by simpa using hi)
  refine ⟨1, fun _ => 1, List.replicate 6 1, List.replicate 6 1, ⟨1 / 2, 3 / 2, 1, 0, 0, 1⟩, by simp [IsHermitian], ?_, ?_, rfl, ?_, ?_, ?_⟩
  · rw [hs]
    intro x
    simp [pow_two, dotProduct]
    nlinarith [mul_self_nonneg (x 0)]
  · rw [hs]
    intro x
    simp [pow_two, dotProduct]
  · intro i hi
    rw [hs, hm, hrep i hi]
  · intro i hi
    rw [hs, hm, hrep i hi]
  · have hk : kernel .dirichlet 0 (List.replicate 6 (1 : ℝ)).length = List.replicate 6 1 := by
      simp only [kernel, true_or, if_true, List.length_replicate]
    obtain ⟨out, e, e1, e2⟩ := plot_spec .dirichlet 0 (List.replicate 6 1) (List.replicate 6 1) (fun _ => 1) (fun _ => 1) (fun _ => 1) 5 (by simp) le_rfl rfl
      hrep hrep (fun i hi => by rw [hk]; exact hrep i (by simpa using hi)) ⟨1 / 2, 3 / 2, 1, 0, 0, 1⟩ (by norm_num) (by norm_num)
    have h1 : out.length = 1 := by
      rw [e1]
      norm_num
    refine ⟨out, e, out[0], List.getElem_mem _, ?_⟩
    have h2 := e2 0 (by omega)
    rw [List.getElem?_eq_getElem (by omega), Option.some.injEq] at h2
    rw [h2]
    classical
    simp only [curve, momentOf, Finset.sum_range_succ, Finset.sum_range_zero]
    norm_num
    have t : ∀ k : ℤ, (T ℝ (k + 2)).eval (1 / 2 : ℝ) = (T ℝ (k + 1)).eval (1 / 2 : ℝ) - (T ℝ k).eval (1 / 2 : ℝ) := by
      intro k
      rw [T_add_two]
      simp
    have t2 := t 0
    have t3 := t 1
    have t4 := t 2
    have t5 := t 3
    norm_num at t2 t3 t4 t5
    rw [t5, t4, t3, t2]
    refine div_neg_of_neg_of_pos (by norm_num) (by positivity)

example : ∃ (H : Matrix (Fin 2) (Fin 2) ℝ), H.IsHermitian ∧ LowerBound (scaled H 1 0) (-1) ∧ UpperBound (scaled H 1 0) 1 ∧ H ≠ 0 := by
  refine ⟨!![0, 1; 1, 0], ?_, ?_, ?_, ?_⟩
  · ext i j; fin_cases i <;> fin_cases j <;> simp
  · intro x
    simp [scaled, dotProduct, Matrix.mulVec, Fin.sum_univ_two]
    nlinarith [sq_nonneg (x 0 + x 1)]
  · intro x
    simp [scaled, dotProduct, Matrix.mulVec, Fin.sum_univ_two]
    nlinarith [sq_nonneg (x 0 - x 1)]
  · intro h
    have := congrFun (congrFun h 0) 1
    simp at this

end Verif.Krylov
