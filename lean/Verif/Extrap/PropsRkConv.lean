import Verif.Extrap.PropsRk
import Mathlib.Analysis.Calculus.MeanValue
import Mathlib.Analysis.SpecialFunctions.ExpDeriv

/-!
# C59: Runge-Kutta converges for every equation with a Lipschitz constant, and keeps linear invariants
-/

namespace Verif.Extrap

/-- **C59** What is linear in the state and is not changed by the equation is not changed by the method either, for any step. -/
theorem conserved {V U : Type} [AddCommGroup V] [Module ℝ V] [AddCommGroup U] [Module ℝ U] (φ : V →ₗ[ℝ] U) (f : ℝ → V → V)
    (hf : ∀ t y, φ (f t y) = 0) (h t0 : ℝ) (y0 : V) (i : Nat) : φ (state f h t0 y0 i) = φ y0 := by
  induction i with
  | zero => rfl
  | succ i ih =>
    rw [state]
    unfold rkStep
    simp only [map_add, map_smul, hf, smul_zero, add_zero]
    exact ih

variable {E : Type} [NormedAddCommGroup E] [NormedSpace ℝ E]

/-- The slopes of a step are near the first one. -/
theorem slopes_near (f : ℝ → E → E) (L K M : ℝ) (hL : 0 ≤ L) (hf : ∀ t y z, ‖f t y - f t z‖ ≤ L * ‖y - z‖)
    (hK : ∀ s t y, ‖f s y - f t y‖ ≤ K * |s - t|) (h : ℝ) (hh : 0 ≤ h) (t : ℝ) (y : E) (hM : ‖f t y‖ ≤ M) (hA : 0 ≤ K + L * M) :
    ‖rkStep f h t y - (y + h • f t y)‖ ≤ (K + L * M) * h ^ 2 * (Real.exp (h * L) / 2) := by
  have near : ∀ (r c : ℝ) (k : E), 0 ≤ r → ‖k - f t y‖ ≤ c → ‖f (t + h * r) (y + r • h • k) - f t y‖ ≤ r * h * (K + L * M + L * c) := by
    intro r c k hr hc
    have e1 := hK (t + h * r) t (y + r • h • k)
    rw [show t + h * r - t = h * r by ring, abs_of_nonneg (mul_nonneg hh hr)] at e1
    have e2 := hf t (y + r • h • k) y
    have e0 : ‖r • h • k‖ = r * h * ‖k‖ := by rw [smul_smul, norm_smul, Real.norm_of_nonneg (mul_nonneg hr hh)]
    rw [add_sub_cancel_left, e0] at e2
    have e3 : ‖k‖ ≤ M + c := by
      have := norm_add_le (k - f t y) (f t y)
      rw [sub_add_cancel] at this
      linarith
    have e4 := norm_sub_le_norm_sub_add_norm_sub (f (t + h * r) (y + r • h • k)) (f t (y + r • h • k)) (f t y)
    have e5 : L * (r * h * ‖k‖) ≤ L * (r * h * (M + c)) :=
      mul_le_mul_of_nonneg_left (mul_le_mul_of_nonneg_left e3 (mul_nonneg hr hh)) hL
    calc _ ≤ K * (h * r) + L * (r * h * (M + c)) := by linarith
      _ = _ := by ring
  set A := K + L * M with hAdef
  unfold rkStep
  simp only
  have b2 := near (1 / 2) 0 (f t y) (by norm_num) (by simp)
  have b3 := near (1 / 2) _ _ (by norm_num) b2
  have b4 := near 1 _ _ (by norm_num) b3
  rw [one_smul, mul_one] at b4
  generalize hk1 : f t y = k1 at *
  generalize hk2 : f (t + h * (1 / 2)) (y + (1 / 2 : ℝ) • h • k1) = k2 at *
  generalize hk3 : f (t + h * (1 / 2)) (y + (1 / 2 : ℝ) • h • k2) = k3 at *
  generalize hk4 : f (t + h) (y + h • k3) = k4 at *
  have hdec : (y + (1 / 6 : ℝ) • ((1 : ℝ) • h • k1 + (2 : ℝ) • h • k2 + (2 : ℝ) • h • k3 + (1 : ℝ) • h • k4)) - (y + h • k1) =
      h • ((1 / 3 : ℝ) • (k2 - k1) + ((1 / 3 : ℝ) • (k3 - k1) + (1 / 6 : ℝ) • (k4 - k1))) := by
    module
  rw [hdec, norm_smul, Real.norm_of_nonneg hh]
  have n1 := norm_add_le ((1 / 3 : ℝ) • (k2 - k1)) ((1 / 3 : ℝ) • (k3 - k1) + (1 / 6 : ℝ) • (k4 - k1))
  have n2 := norm_add_le ((1 / 3 : ℝ) • (k3 - k1)) ((1 / 6 : ℝ) • (k4 - k1))
  have s1 : ‖(1 / 3 : ℝ) • (k2 - k1)‖ = 1 / 3 * ‖k2 - k1‖ := by rw [norm_smul, Real.norm_of_nonneg (by norm_num)]
  have s2 : ‖(1 / 3 : ℝ) • (k3 - k1)‖ = 1 / 3 * ‖k3 - k1‖ := by rw [norm_smul, Real.norm_of_nonneg (by norm_num)]
  have s3 : ‖(1 / 6 : ℝ) • (k4 - k1)‖ = 1 / 6 * ‖k4 - k1‖ := by rw [norm_smul, Real.norm_of_nonneg (by norm_num)]
  have hx : 0 ≤ h * L := mul_nonneg hh hL
  have hexp : 1 + h * L + (h * L) ^ 2 / 2 ≤ Real.exp (h * L) := Real.quadratic_le_exp_of_nonneg hx
  have hAh : 0 ≤ A * h ^ 2 := mul_nonneg hA (sq_nonneg h)
  have hfin : A * h ^ 2 * ((1 + h * L / 3 + (h * L) ^ 2 / 12) / 2) ≤ A * h ^ 2 * (Real.exp (h * L) / 2) := by
    apply mul_le_mul_of_nonneg_left _ hAh
    nlinarith [sq_nonneg (h * L)]
  have hsum : ‖(1 / 3 : ℝ) • (k2 - k1) + ((1 / 3 : ℝ) • (k3 - k1) + (1 / 6 : ℝ) • (k4 - k1))‖ ≤
      A * h * ((1 + h * L / 3 + (h * L) ^ 2 / 12) / 2) := by
    refine n1.trans ?_
    have : 1 / 3 * (1 / 2 * h * (A + L * 0)) + (1 / 3 * (1 / 2 * h * (A + L * (1 / 2 * h * (A + L * 0)))) +
        1 / 6 * (1 * h * (A + L * (1 / 2 * h * (A + L * (1 / 2 * h * (A + L * 0))))))) =
        A * h * ((1 + h * L / 3 + (h * L) ^ 2 / 12) / 2) := by ring
    linarith
  calc h * _ ≤ h * (A * h * ((1 + h * L / 3 + (h * L) ^ 2 / 12) / 2)) := mul_le_mul_of_nonneg_left hsum hh
    _ = A * h ^ 2 * ((1 + h * L / 3 + (h * L) ^ 2 / 12) / 2) := by ring
    _ ≤ _ := hfin

/-- **C59** For an equation with Lipschitz constants `L` for the state and `K` for the time, the states are at most
`3/2 (K + L M) h T e^(L T)` away from the solution after the time `T = i h`, where `M` bounds the slope of the solution: with smaller
steps the method converges. -/
theorem converges (f : ℝ → E → E) (L K M : ℝ) (hL : 0 ≤ L) (hK0 : 0 ≤ K) (hf : ∀ t y z, ‖f t y - f t z‖ ≤ L * ‖y - z‖)
    (hK : ∀ s t y, ‖f s y - f t y‖ ≤ K * |s - t|) (y : ℝ → E) (t0 : ℝ) (hy : ∀ t, t0 ≤ t → HasDerivAt y (f t (y t)) t)
    (hM : ∀ t, t0 ≤ t → ‖f t (y t)‖ ≤ M) (h : ℝ) (hh : 0 ≤ h) (i : Nat) :
    ‖state f h t0 (y t0) i - y (t0 + i * h)‖ ≤ 3 / 2 * (K + L * M) * h * (i * h) * Real.exp (L * (i * h)) := by
  have hM0 : 0 ≤ M := (norm_nonneg _).trans (hM t0 le_rfl)
  have hA : 0 ≤ K + L * M := add_nonneg hK0 (mul_nonneg hL hM0)
  have hAh : 0 ≤ (K + L * M) * h ^ 2 := mul_nonneg hA (sq_nonneg h)
  have hE1 : 1 ≤ Real.exp (h * L) := Real.one_le_exp (mul_nonneg hh hL)
  -- the solution over a step
  have hsol : ∀ t, t0 ≤ t → ‖y (t + h) - (y t + h • f t (y t))‖ ≤ (K + L * M) * h ^ 2 := by
    intro t ht
    have hlip : ∀ s ∈ Set.Icc t (t + h), ‖y s - y t‖ ≤ M * (s - t) := by
      intro s hs
      exact norm_image_sub_le_of_norm_deriv_le_segment' (f := y) (f' := fun s => f s (y s)) (C := M) (a := t) (b := t + h)
        (fun x hx => (hy x (ht.trans hx.1)).hasDerivWithinAt) (fun x hx => hM x (ht.trans hx.1)) s hs
    have hder : ∀ s ∈ Set.Icc t (t + h), HasDerivWithinAt (fun s => y s - s • f t (y t)) (f s (y s) - f t (y t)) (Set.Icc t (t + h)) s := by
      intro s hs
      have h1 := (hy s (ht.trans hs.1)).hasDerivWithinAt (s := Set.Icc t (t + h))
      have h2 : HasDerivWithinAt (fun s : ℝ => s • f t (y t)) ((1 : ℝ) • f t (y t)) (Set.Icc t (t + h)) s :=
        (hasDerivWithinAt_id s _).smul_const _
      rw [one_smul] at h2
      exact h1.sub h2
    have hb : ∀ s ∈ Set.Ico t (t + h), ‖f s (y s) - f t (y t)‖ ≤ (K + L * M) * h := by
      intro s hs
      have e1 := hK s t (y s)
      rw [abs_of_nonneg (by linarith [hs.1])] at e1
      have e2 := hf t (y s) (y t)
      have e3 := hlip s ⟨hs.1, hs.2.le⟩
      have e4 := norm_sub_le_norm_sub_add_norm_sub (f s (y s)) (f t (y s)) (f t (y t))
      have e5 := mul_le_mul_of_nonneg_left e3 hL
      have hst : s - t ≤ h := by linarith [hs.2]
      have e6 := mul_le_mul_of_nonneg_left hst hA
      nlinarith [e1, e2, e4, e5, e6]
    have := norm_image_sub_le_of_norm_deriv_le_segment' hder hb (t + h) ⟨by linarith, le_rfl⟩
    rw [show y (t + h) - (t + h) • f t (y t) - (y t - t • f t (y t)) = y (t + h) - (y t + h • f t (y t)) by module] at this
    calc _ ≤ _ := this
      _ = (K + L * M) * h ^ 2 := by ring
  have hloc : ∀ t, t0 ≤ t → ‖rkStep f h t (y t) - y (t + h)‖ ≤ 3 / 2 * ((K + L * M) * h ^ 2) * Real.exp (h * L) := by
    intro t ht
    have e1 := slopes_near f L K M hL hf hK h hh t (y t) (hM t ht) hA
    have e2 := hsol t ht
    have e3 := norm_sub_le_norm_sub_add_norm_sub (rkStep f h t (y t)) (y t + h • f t (y t)) (y (t + h))
    rw [norm_sub_rev (y t + h • f t (y t))] at e3
    have e4 := mul_le_mul_of_nonneg_left hE1 hAh
    linarith
  have key : ‖state f h t0 (y t0) i - y (t0 + i * h)‖ ≤ i * (3 / 2 * ((K + L * M) * h ^ 2)) * Real.exp (i * (h * L)) := by
    induction i with
    | zero => simp [state]
    | succ i ih =>
      have ht : t0 ≤ t0 + i * h := by have := mul_nonneg (Nat.cast_nonneg (α := ℝ) i) hh; linarith
      have e1 := stable f L hL hf h hh (t0 + i * h) (state f h t0 (y t0) i) (y (t0 + i * h)) 1
      simp only [state, Nat.cast_zero, zero_mul, add_zero, Nat.cast_one, one_mul] at e1
      have e2 := hloc _ ht
      rw [show t0 + i * h + h = t0 + ((i + 1 : Nat) : ℝ) * h by push_cast; ring] at e2
      have e3 := norm_sub_le_norm_sub_add_norm_sub (rkStep f h (t0 + i * h) (state f h t0 (y t0) i)) (rkStep f h (t0 + i * h) (y (t0 + i * h)))
        (y (t0 + ((i + 1 : Nat) : ℝ) * h))
      have e4 := mul_le_mul_of_nonneg_left ih (Real.exp_pos (h * L)).le
      have e5 : Real.exp (h * L) ≤ Real.exp (((i + 1 : Nat) : ℝ) * (h * L)) := by
        apply Real.exp_le_exp.2
        push_cast
        nlinarith [mul_nonneg (Nat.cast_nonneg (α := ℝ) i) (mul_nonneg hh hL)]
      have e6 : Real.exp (((i + 1 : Nat) : ℝ) * (h * L)) = Real.exp (h * L) * Real.exp (i * (h * L)) := by
        rw [← Real.exp_add]; congr 1; push_cast; ring
      have e7 := mul_le_mul_of_nonneg_left e5 (show 0 ≤ 3 / 2 * ((K + L * M) * h ^ 2) by linarith)
      rw [state]
      refine e3.trans ?_
      have e8 : Real.exp (h * L) * (i * (3 / 2 * ((K + L * M) * h ^ 2)) * Real.exp (i * (h * L))) =
          i * (3 / 2 * ((K + L * M) * h ^ 2)) * Real.exp (((i + 1 : Nat) : ℝ) * (h * L)) := by rw [e6]; ring
      have e9 : (((i + 1 : Nat) : ℝ)) * (3 / 2 * ((K + L * M) * h ^ 2)) * Real.exp (((i + 1 : Nat) : ℝ) * (h * L)) =
          i * (3 / 2 * ((K + L * M) * h ^ 2)) * Real.exp (((i + 1 : Nat) : ℝ) * (h * L)) +
            3 / 2 * ((K + L * M) * h ^ 2) * Real.exp (((i + 1 : Nat) : ℝ) * (h * L)) := by push_cast; ring
      rw [e9]
      linarith
  calc _ ≤ _ := key
    _ = 3 / 2 * (K + L * M) * h * (i * h) * Real.exp (L * (i * h)) := by
      rw [show (i : ℝ) * (h * L) = L * (i * h) by ring]; ring

/-- The equation `y' = - y + t` with the solution `e^(-t) + t - 1`. -/
example (h : ℝ) (hh : 0 ≤ h) (i : Nat) :
    ‖state (fun t (y : ℝ) => t - y) h 0 (Real.exp (-0) + 0 - 1) i - (Real.exp (-(0 + i * h)) + (0 + i * h) - 1)‖ ≤
      3 / 2 * (1 + 1 * 1) * h * (i * h) * Real.exp (1 * (i * h)) := by
  refine converges (fun t (y : ℝ) => t - y) 1 1 1 (by norm_num) (by norm_num) (fun t y z => ?_) (fun s t y => ?_)
    (fun t => Real.exp (-t) + t - 1) 0 (fun t _ => ?_) (fun t ht => ?_) h hh i
  · rw [show t - y - (t - z) = -(y - z) by ring, norm_neg, one_mul]
  · rw [show s - y - (t - y) = s - t by ring, one_mul, Real.norm_eq_abs]
  · have h1 : HasDerivAt (fun t : ℝ => Real.exp (-t)) (Real.exp (-t) * -1) t := (hasDerivAt_neg t).exp
    have h2 := (h1.add (hasDerivAt_id t)).sub_const 1
    have h3 : t - (Real.exp (-t) + t - 1) = Real.exp (-t) * -1 + 1 := by ring
    show HasDerivAt (fun t => Real.exp (-t) + t - 1) (t - (Real.exp (-t) + t - 1)) t
    rw [h3]
    exact h2
  · rw [show t - (Real.exp (-t) + t - 1) = 1 - Real.exp (-t) by ring, Real.norm_eq_abs, abs_of_nonneg]
    · have := Real.exp_pos (-t); linarith
    · have : Real.exp (-t) ≤ 1 := Real.exp_le_one_iff.2 (by linarith)
      linarith

/-- The sum of two components which exchange something. -/
example (h t0 a b : ℝ) (i : Nat) :
    (LinearMap.fst ℝ ℝ ℝ + LinearMap.snd ℝ ℝ ℝ) (state (fun t (y : ℝ × ℝ) => (t * y.1 * y.2, -(t * y.1 * y.2))) h t0 (a, b) i) = a + b := by
  rw [conserved]
  · simp
  · intro t y
    simp

end Verif.Extrap
