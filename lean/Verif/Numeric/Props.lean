import Verif.Numeric.Model
import Mathlib.RingTheory.Polynomial.Chebyshev
import Mathlib.Analysis.SpecialFunctions.ExpDeriv
import Mathlib.Analysis.Calculus.Deriv.Inv
import Mathlib.Topology.Order.IntermediateValue
import Mathlib.Topology.MetricSpace.Lipschitz
import Mathlib.Analysis.SpecificLimits.Basic
import Mathlib.Tactic.LinearCombination
import Mathlib.Tactic.FieldSimp

/-!
# Chebyshev polynomials, Fermi function, bisection (C44, C45, C42)
-/

namespace Verif.Numeric

open Verif.Loop

/-! ## C44 -/

section
open Polynomial Polynomial.Chebyshev
variable {R : Type} [CommRing R]

theorem T_double (x : R) (k : ℤ) : (T R (2 * k)).eval x = 2 * (T R k).eval x * (T R k).eval x - 1 := by
  have := congrArg (eval x) (T_mul_T R k k)
  simp only [sub_self, T_zero, eval_mul, eval_add, eval_one, eval_ofNat] at this
  rw [two_mul]
  linear_combination -this

theorem T_double_succ (x : R) (k : ℤ) :
    (T R (2 * k + 1)).eval x = 2 * (T R k).eval x * (T R (k + 1)).eval x - x := by
  have := congrArg (eval x) (T_mul_T R (k + 1) k)
  simp only [add_sub_cancel_left, T_one, eval_mul, eval_add, eval_X, eval_ofNat] at this
  rw [show 2 * k + 1 = k + 1 + k by ring]
  linear_combination -this

/-- **C44** `ChebyshevFunction` is the Chebyshev polynomial of the first kind. -/
theorem cheb_eq (x : R) (m : Nat) : cheb x m = (T R m).eval x := by
  induction m using Nat.strong_induction_on with
  | _ m ih =>
    rw [cheb]
    split
    · rename_i h; subst h; simp
    split
    · rename_i h; subst h; simp
    split
    · rename_i h0 h1 h
      rw [ih _ (by omega), ih _ (by omega)]
      have := T_double_succ x (((m - 1) / 2 : Nat) : ℤ)
      rw [show (2 * (((m - 1) / 2 : Nat) : ℤ) + 1) = (m : ℤ) by omega] at this
      rw [this]
      push_cast
      rfl
    · rename_i h0 h1 h
      rw [ih _ (by omega)]
      have := T_double x ((m / 2 : Nat) : ℤ)
      rw [show (2 * ((m / 2 : Nat) : ℤ)) = (m : ℤ) by omega] at this
      rw [this]

theorem T_small (x : R) : (T R 2).eval x = 2 * (x * x) - 1 ∧ (T R 3).eval x = 4 * (x * x) * x - 3 * x ∧
    (T R 4).eval x = 8 * (x * x) * (x * x) - 8 * (x * x) + 1 ∧
    (T R 5).eval x = 16 * (x * x) * (x * x) * x - 20 * (x * x) * x + 5 * x ∧
    (T R 6).eval x = 32 * (x * x * (x * x)) * (x * x) - 48 * (x * x * (x * x)) + 18 * (x * x) - 1 ∧
    (T R 7).eval x = 64 * (x * x * (x * x)) * (x * x) * x - 112 * (x * x * (x * x)) * x + 56 * (x * x) * x - 7 * x := by
  have h2 : (T R 2).eval x = 2 * (x * x) - 1 := by
    have := T_double x 1
    norm_num at this
    rw [this]; ring
  have h3 : (T R 3).eval x = 4 * (x * x) * x - 3 * x := by
    have := T_double_succ x 1
    norm_num at this
    rw [this, h2]; ring
  have h4 : (T R 4).eval x = 8 * (x * x) * (x * x) - 8 * (x * x) + 1 := by
    have := T_double x 2
    norm_num at this
    rw [this, h2]; ring
  have h5 : (T R 5).eval x = 16 * (x * x) * (x * x) * x - 20 * (x * x) * x + 5 * x := by
    have := T_double_succ x 2
    norm_num at this
    rw [this, h2, h3]; ring
  have h6 := T_double x 3
  have h7 := T_double_succ x 3
  norm_num at h6 h7
  refine ⟨h2, h3, h4, h5, ?_, ?_⟩
  · rw [h6, h3]; ring
  · rw [h7, h3, h4]; ring

/-- **C44** So is `ChebyshevFunctionExplicit`. -/
theorem chebExplicit_eq (x : R) (m : Nat) : chebExplicit x m = (T R m).eval x := by
  obtain ⟨h2, h3, h4, h5, h6, h7⟩ := T_small x
  induction m using Nat.strong_induction_on with
  | _ m ih =>
    rw [chebExplicit]
    split
    · rename_i h; subst h; simp
    split
    · rename_i h; subst h; simp
    simp only
    split
    · rename_i h; subst h; exact h2.symm
    split
    · rename_i h; subst h; exact h3.symm
    split
    · rename_i h; subst h; exact h4.symm
    split
    · rename_i h; subst h; exact h5.symm
    split
    · rename_i h; subst h; exact h6.symm
    split
    · rename_i h; subst h; exact h7.symm
    split
    · rw [ih _ (by omega), ih _ (by omega)]
      have := T_double_succ x (((m - 1) / 2 : Nat) : ℤ)
      rw [show (2 * (((m - 1) / 2 : Nat) : ℤ) + 1) = (m : ℤ) by omega] at this
      rw [this]
      push_cast
      rfl
    · rw [ih _ (by omega)]
      have := T_double x ((m / 2 : Nat) : ℤ)
      rw [show (2 * ((m / 2 : Nat) : ℤ)) = (m : ℤ) by omega] at this
      rw [this]

/-- **C44** The two agree for every degree and argument. -/
theorem cheb_agree (x : R) (m : Nat) : cheb x m = chebExplicit x m := by rw [cheb_eq, chebExplicit_eq]

example : cheb (2 : ℤ) 3 = 26 ∧ chebExplicit (2 : ℤ) 9 = 70226 := by
  constructor <;> simp [cheb, chebExplicit]

end

/-! ## C45 -/

/-- The Fermi function. -/
noncomputable def fermiExact (x : ℝ) : ℝ := 1 / (1 + Real.exp x)

theorem fermi_mid (x : ℝ) (h1 : -50 ≤ x) (h2 : x ≤ 50) : fermi x = fermiExact x := by
  unfold fermi fermiExact
  rw [if_neg (by linarith), if_neg (by linarith)]
  split
  · rfl
  · have hp : 0 < Real.exp x := Real.exp_pos x
    rw [Real.exp_neg]
    field_simp
    ring

theorem fermiExact_bounds (x : ℝ) : 0 < fermiExact x ∧ fermiExact x < 1 := by
  have hp : 0 < Real.exp x := Real.exp_pos x
  unfold fermiExact
  constructor
  · positivity
  · rw [div_lt_one (by positivity)]; linarith

theorem fermiExact_symm (x : ℝ) : fermiExact x + fermiExact (-x) = 1 := by
  have hp : 0 < Real.exp x := Real.exp_pos x
  unfold fermiExact
  rw [Real.exp_neg]
  field_simp
  ring

theorem fermi_cases (x : ℝ) : (x > 50 ∧ fermi x = 0) ∨ (x < -50 ∧ fermi x = 1) ∨
    (-50 ≤ x ∧ x ≤ 50 ∧ fermi x = fermiExact x) := by
  by_cases h1 : x > 50
  · left; exact ⟨h1, by unfold fermi; rw [if_pos h1]⟩
  · by_cases h2 : x < -50
    · right; left; exact ⟨h2, by unfold fermi; rw [if_neg h1, if_pos h2]⟩
    · right; right
      push Not at h1 h2
      exact ⟨h2, h1, fermi_mid x h2 h1⟩

/-- **C45** `fermi` is between 0 and 1. -/
theorem fermi_unit (x : ℝ) : 0 ≤ fermi x ∧ fermi x ≤ 1 := by
  rcases fermi_cases x with ⟨_, h⟩ | ⟨_, h⟩ | ⟨_, _, h⟩ <;> rw [h]
  · norm_num
  · norm_num
  · exact ⟨(fermiExact_bounds x).1.le, (fermiExact_bounds x).2.le⟩

/-- **C45** `fermi(x) + fermi(-x) = 1`. -/
theorem fermi_symm (x : ℝ) : fermi x + fermi (-x) = 1 := by
  rcases fermi_cases x with ⟨h, e⟩ | ⟨h, e⟩ | ⟨h1, h2, e⟩
  · rcases fermi_cases (-x) with ⟨h', e'⟩ | ⟨h', e'⟩ | ⟨h1', h2', e'⟩
    · linarith
    · rw [e, e']; norm_num
    · linarith
  · rcases fermi_cases (-x) with ⟨h', e'⟩ | ⟨h', e'⟩ | ⟨h1', h2', e'⟩
    · rw [e, e']; norm_num
    · linarith
    · linarith
  · rw [e, fermi_mid (-x) (by linarith) (by linarith)]
    exact fermiExact_symm x

theorem fermiExact_antitone {x y : ℝ} (h : x ≤ y) : fermiExact y ≤ fermiExact x := by
  unfold fermiExact
  have hp : 0 < Real.exp x := Real.exp_pos x
  apply one_div_le_one_div_of_le (by positivity)
  have := Real.exp_le_exp.2 h
  linarith

/-- **C45** `fermi` never increases. -/
theorem fermi_antitone {x y : ℝ} (h : x ≤ y) : fermi y ≤ fermi x := by
  rcases fermi_cases x with ⟨hx, e⟩ | ⟨hx, e⟩ | ⟨h1, h2, e⟩
  · rcases fermi_cases y with ⟨h', e'⟩ | ⟨h', e'⟩ | ⟨h1', h2', e'⟩
    · rw [e, e']
    · linarith
    · linarith
  · rw [e]; exact (fermi_unit y).2
  · rcases fermi_cases y with ⟨h', e'⟩ | ⟨h', e'⟩ | ⟨h1', h2', e'⟩
    · rw [e']; exact (fermi_unit x).1
    · linarith
    · rw [e, e']; exact fermiExact_antitone h

/-- **C45** `fermi` is the Fermi function up to `exp(-50)`, and is equal to it between -50 and 50. -/
theorem fermi_accuracy (x : ℝ) :
    |fermi x - fermiExact x| ≤ Real.exp (-50) ∧ (-50 ≤ x → x ≤ 50 → fermi x = fermiExact x) := by
  refine ⟨?_, fermi_mid x⟩
  have tail : ∀ y : ℝ, y > 50 → fermiExact y ≤ Real.exp (-50) := by
    intro y hy
    unfold fermiExact
    have hp : 0 < Real.exp y := Real.exp_pos y
    calc 1 / (1 + Real.exp y) ≤ 1 / Real.exp y := one_div_le_one_div_of_le hp (by linarith)
      _ = Real.exp (-y) := by rw [Real.exp_neg, one_div]
      _ ≤ Real.exp (-50) := Real.exp_le_exp.2 (by linarith)
  rcases fermi_cases x with ⟨h, e⟩ | ⟨h, e⟩ | ⟨_, _, e⟩
  · rw [e, zero_sub, abs_neg, abs_of_pos (fermiExact_bounds x).1]
    exact tail x h
  · have := fermiExact_symm x
    rw [e, show 1 - fermiExact x = fermiExact (-x) by linarith, abs_of_pos (fermiExact_bounds _).1]
    exact tail (-x) (by linarith)
  · rw [e, sub_self, abs_zero]; exact (Real.exp_pos _).le

theorem fermiExact_deriv (x : ℝ) : HasDerivAt fermiExact (-fermiExact x * fermiExact (-x)) x := by
  have hp : 0 < Real.exp x := Real.exp_pos x
  have h1 : HasDerivAt (fun y : ℝ => 1 + Real.exp y) (Real.exp x) x := (Real.hasDerivAt_exp x).const_add 1
  have h2 := h1.inv (by positivity)
  have h3 : HasDerivAt fermiExact (-Real.exp x / (1 + Real.exp x) ^ 2) x := by
    have e : fermiExact = (fun y : ℝ => (1 + Real.exp y)⁻¹) := by
      funext y; unfold fermiExact; rw [one_div]
    rw [e]; exact h2
  convert h3 using 1
  unfold fermiExact
  rw [Real.exp_neg]
  field_simp
  ring

/-- **C45** `fermiPrime` is the derivative of `fermi`, except at the two cutoffs. -/
theorem fermiPrime_deriv (x : ℝ) (h1 : x ≠ 50) (h2 : x ≠ -50) : HasDerivAt fermi (fermiPrime x) x := by
  unfold fermiPrime
  rcases fermi_cases x with ⟨h, e⟩ | ⟨h, e⟩ | ⟨ha, hb, e⟩
  · rw [e, neg_zero, zero_mul]
    apply (hasDerivAt_const x (0 : ℝ)).congr_of_eventuallyEq
    filter_upwards [lt_mem_nhds h] with y hy
    unfold fermi
    rw [if_pos hy]
  · have e' : fermi (-x) = 0 := by have := fermi_symm x; rw [e] at this; linarith
    rw [e', mul_zero]
    apply (hasDerivAt_const x (1 : ℝ)).congr_of_eventuallyEq
    filter_upwards [gt_mem_nhds h] with y hy
    unfold fermi
    rw [if_neg (by linarith), if_pos hy]
  · rw [e, fermi_mid (-x) (by linarith) (by linarith)]
    apply (fermiExact_deriv x).congr_of_eventuallyEq
    have ha' : -50 < x := lt_of_le_of_ne ha (Ne.symm h2)
    have hb' : x < 50 := lt_of_le_of_ne hb h1
    filter_upwards [lt_mem_nhds ha', gt_mem_nhds hb'] with y hy1 hy2
    exact fermi_mid y hy1.le hy2.le

/-- **C45** At the cutoff there is a jump: `fermi` is not continuous at 50. -/
theorem fermi_jump_fails : ¬ ContinuousAt fermi 50 := by
  intro h
  have h1 : Filter.Tendsto fermi (nhdsWithin 50 (Set.Ioi 50)) (nhds (fermi 50)) := h.mono_left nhdsWithin_le_nhds
  have h2 : Filter.Tendsto fermi (nhdsWithin 50 (Set.Ioi 50)) (nhds 0) := by
    apply tendsto_const_nhds.congr'
    filter_upwards [self_mem_nhdsWithin] with y hy
    have : y > 50 := hy
    unfold fermi
    rw [if_pos this]
  have := tendsto_nhds_unique h1 h2
  rw [fermi_mid 50 (by norm_num) (by norm_num)] at this
  exact (fermiExact_bounds 50).1.ne' this

/-- **C45** `logfermi` is the logarithm of the Fermi function up to `exp(-20)`. -/
theorem logfermi_accuracy (x : ℝ) : |logfermi x - Real.log (fermiExact x)| ≤ Real.exp (-20) := by
  have hp : 0 < Real.exp x := Real.exp_pos x
  have hl : Real.log (fermiExact x) = -Real.log (1 + Real.exp x) := by
    unfold fermiExact; rw [one_div, Real.log_inv]
  have small : ∀ t : ℝ, 0 < t → 0 ≤ Real.log (1 + t) ∧ Real.log (1 + t) ≤ t := fun t ht =>
    ⟨Real.log_nonneg (by linarith), by have := Real.log_le_sub_one_of_pos (x := 1 + t) (by linarith); linarith⟩
  rw [hl]
  unfold logfermi
  by_cases h1 : x > 20
  · rw [if_pos h1]
    have e : Real.log (1 + Real.exp x) = x + Real.log (1 + Real.exp (-x)) := by
      rw [← Real.log_exp x, ← Real.log_mul (by positivity) (by have := Real.exp_pos (-x); positivity), Real.log_exp,
        mul_add, mul_one, ← Real.exp_add]
      simp [add_comm]
    rw [e]
    have := small (Real.exp (-x)) (Real.exp_pos _)
    rw [show -x - -(x + Real.log (1 + Real.exp (-x))) = Real.log (1 + Real.exp (-x)) by ring, abs_of_nonneg this.1]
    exact this.2.trans (Real.exp_le_exp.2 (by linarith))
  · rw [if_neg h1]
    by_cases h2 : x < -20
    · rw [if_pos h2, zero_sub, neg_neg]
      have := small (Real.exp x) hp
      rw [abs_of_nonneg this.1]
      exact this.2.trans (Real.exp_le_exp.2 (by linarith))
    · rw [if_neg h2, sub_self, abs_zero]
      exact (Real.exp_pos _).le

example : fermi 60 = 0 ∧ fermi (-60) = 1 ∧ fermi 0 = 1 / 2 := by
  refine ⟨?_, ?_, ?_⟩
  · norm_num [fermi]
  · norm_num [fermi]
  · norm_num [fermi]

/-! ## C42 -/

section
variable {K : Type} [Field K] [LinearOrder K] [IsStrictOrderedRing K]

theorem bisectLoop_sound (f : K → K) (tol : K) (n : Nat) (a b fa c : K) (h : a ≤ b)
    (hc : bisectLoop f tol n a b fa = some c) : a ≤ c ∧ c ≤ b ∧ |f c| < tol := by
  induction n generalizing a b fa with
  | zero => simp [bisectLoop] at hc
  | succ n ih =>
    have h1 : a ≤ (a + b) / 2 := by linarith
    have h2 : (a + b) / 2 ≤ b := by linarith
    rw [bisectLoop] at hc
    split at hc
    · rename_i ht
      rw [Option.some.injEq] at hc
      subst hc
      exact ⟨h1, h2, ht⟩
    split at hc
    · obtain ⟨p, q, r⟩ := ih _ _ _ h2 hc
      exact ⟨h1.trans p, q, r⟩
    · obtain ⟨p, q, r⟩ := ih _ _ _ h1 hc
      exact ⟨p, q.trans h2, r⟩

/-- **C42** What is returned is a point of the bracket where the function is below the tolerance. -/
theorem bisect_sound (f : K → K) (a b : K) (maxIter : Nat) (tol c : K) (h : a ≤ b)
    (hc : bisect f a b maxIter tol = some c) : a ≤ c ∧ c ≤ b ∧ |f c| < tol := by
  unfold bisect at hc
  cases hk : bisectCtor f a b with
  | none => rw [hk] at hc; simp at hc
  | some _ =>
    rw [hk] at hc
    exact bisectLoop_sound f tol maxIter a b (f a) c h hc

/-- **C42** Without a sign change between the ends there is no result. -/
theorem bisect_refuses (f : K → K) (a b : K) (maxIter : Nat) (tol : K) (h : 0 ≤ f a * f b) :
    bisect f a b maxIter tol = none := by
  unfold bisect bisectCtor
  rw [if_pos h]
  rfl

theorem sign_eq_iff {x y : K} (hx : x ≠ 0) (hy : y ≠ 0) : sign x = sign y ↔ 0 < x * y := by
  unfold sign
  rcases lt_or_gt_of_ne hx with hx | hx <;> rcases lt_or_gt_of_ne hy with hy | hy
  · simp [hx, hy, not_le.2 hx, not_le.2 hy, mul_pos_of_neg_of_neg hx hy]
  · simp [not_le.2 hx, hy.le, (mul_neg_of_neg_of_pos hx hy).le, not_lt]
  · simp [not_le.2 hy, hx.le, (mul_neg_of_pos_of_neg hx hy).le, not_lt]
  · simp [hx.le, hy.le, mul_pos hx hy]

end

theorem root_between {f : ℝ → ℝ} {a b : ℝ} (hab : a ≤ b) (hf : ContinuousOn f (Set.Icc a b)) (h : f a * f b < 0) :
    ∃ r ∈ Set.Icc a b, f r = 0 := by
  rcases lt_or_ge (f a) 0 with ha | ha
  · have hb : 0 < f b := by
      by_contra hb
      push Not at hb
      have := mul_nonneg_of_nonpos_of_nonpos ha.le hb
      linarith
    obtain ⟨r, h1, h2⟩ := intermediate_value_Icc hab hf ⟨ha.le, hb.le⟩
    exact ⟨r, h1, h2⟩
  · have hb : f b < 0 := by
      by_contra hb
      push Not at hb
      have := mul_nonneg ha hb
      linarith
    obtain ⟨r, h1, h2⟩ := intermediate_value_Icc' hab hf ⟨hb.le, ha⟩
    exact ⟨r, h1, h2⟩

theorem bisectLoop_succeeds (f : ℝ → ℝ) (tol δ : ℝ) (htol : 0 < tol) (n : Nat) (a b : ℝ) (hab : a ≤ b)
    (hf : ContinuousOn f (Set.Icc a b)) (hs : f a * f b < 0)
    (hm : ∀ x ∈ Set.Icc a b, ∀ y ∈ Set.Icc a b, |x - y| ≤ δ → |f x - f y| < tol) (hw : b - a ≤ δ * 2 ^ (n + 1)) :
    ∃ c, bisectLoop f tol (n + 1) a b (f a) = some c := by
  induction n generalizing a b with
  | zero =>
    rw [bisectLoop]
    obtain ⟨r, hr, hr0⟩ := root_between hab hf hs
    have hc : (a + b) / 2 ∈ Set.Icc a b := ⟨by linarith, by linarith⟩
    have := hm _ hc r hr (by
      rw [abs_le]
      obtain ⟨h1, h2⟩ := hr
      norm_num at hw
      constructor <;> linarith)
    rw [hr0, sub_zero] at this
    exact ⟨_, if_pos this⟩
  | succ n ih =>
    rw [bisectLoop]
    by_cases ht : |f ((a + b) / 2)| < tol
    · exact ⟨_, if_pos ht⟩
    · rw [if_neg ht]
      have h1 : a ≤ (a + b) / 2 := by linarith
      have h2 : (a + b) / 2 ≤ b := by linarith
      have hc0 : f ((a + b) / 2) ≠ 0 := by
        intro h0; rw [h0, abs_zero] at ht; exact ht htol
      have ha0 : f a ≠ 0 := by intro h0; rw [h0, zero_mul] at hs; exact lt_irrefl _ hs
      have hw' : (b - a) / 2 ≤ δ * 2 ^ (n + 1) := by
        have : δ * 2 ^ (n + 1 + 1) = δ * 2 ^ (n + 1) * 2 := by ring
        linarith
      by_cases hsg : sign (f ((a + b) / 2)) = sign (f a)
      · rw [if_pos hsg]
        have sub : Set.Icc ((a + b) / 2) b ⊆ Set.Icc a b := Set.Icc_subset_Icc_left h1
        refine ih _ _ h2 (hf.mono sub) ?_ (fun x hx y hy => hm x (sub hx) y (sub hy)) (by linarith)
        have hp := (sign_eq_iff hc0 ha0).1 hsg
        by_contra hn
        push Not at hn
        have h3 : 0 ≤ (f ((a + b) / 2) * f a) * (f ((a + b) / 2) * f b) := mul_nonneg hp.le hn
        have h4 : (f ((a + b) / 2) * f a) * (f ((a + b) / 2) * f b) =
            (f ((a + b) / 2) * f ((a + b) / 2)) * (f a * f b) := by ring
        rw [h4] at h3
        have h5 : 0 < f ((a + b) / 2) * f ((a + b) / 2) := mul_self_pos.2 hc0
        have := mul_neg_of_pos_of_neg h5 hs
        linarith
      · rw [if_neg hsg]
        have sub : Set.Icc a ((a + b) / 2) ⊆ Set.Icc a b := Set.Icc_subset_Icc_right h2
        refine ih _ _ h1 (hf.mono sub) ?_ (fun x hx y hy => hm x (sub hx) y (sub hy)) (by linarith)
        have hn : ¬ 0 < f ((a + b) / 2) * f a := fun h => hsg ((sign_eq_iff hc0 ha0).2 h)
        push Not at hn
        rw [mul_comm]
        exact lt_of_le_of_ne hn (mul_ne_zero hc0 ha0)

/-- **C42** For every continuous function with a sign change there is a limit on the rounds from which on a
result is found. -/
theorem bisect_complete (f : ℝ → ℝ) (a b tol : ℝ) (hab : a ≤ b) (htol : 0 < tol) (hf : ContinuousOn f (Set.Icc a b))
    (hs : f a * f b < 0) : ∃ N, ∀ maxIter ≥ N, ∃ c, bisect f a b maxIter tol = some c := by
  have hu := isCompact_Icc.uniformContinuousOn_of_continuous hf
  rw [Metric.uniformContinuousOn_iff] at hu
  obtain ⟨δ, hδ, hm⟩ := hu tol htol
  obtain ⟨N, hN⟩ := pow_unbounded_of_one_lt ((b - a) / (δ / 2)) (by norm_num : (1 : ℝ) < 2)
  refine ⟨N + 1, fun maxIter hge => ?_⟩
  obtain ⟨m, rfl⟩ : ∃ m, maxIter = m + 1 := ⟨maxIter - 1, by omega⟩
  have hbig : (2 : ℝ) ^ N ≤ 2 ^ (m + 1) := pow_le_pow_right₀ (by norm_num) (by omega)
  obtain ⟨c, hc⟩ := bisectLoop_succeeds f tol (δ / 2) htol m a b hab hf hs
    (fun x hx y hy hxy => by
      have := hm x hx y hy (by rw [Real.dist_eq]; linarith)
      rwa [Real.dist_eq] at this)
    (by
      rw [div_lt_iff₀ (by linarith)] at hN
      have := mul_le_mul_of_nonneg_left hbig (by linarith : (0 : ℝ) ≤ δ / 2)
      linarith)
  refine ⟨c, ?_⟩
  unfold bisect bisectCtor
  rw [if_neg (by push Not; exact hs)]
  exact hc

/-- **C42** How many rounds are enough: with Lipschitz constant `L`, those with `L (b - a) < tol 2^rounds`. -/
theorem bisect_rounds (f : ℝ → ℝ) (L : NNReal) (a b tol : ℝ) (maxIter : Nat) (hab : a ≤ b) (htol : 0 < tol)
    (hf : LipschitzOnWith L f (Set.Icc a b)) (hs : f a * f b < 0) (hpos : 0 < maxIter)
    (hw : L * (b - a) < tol * 2 ^ maxIter) : ∃ c, bisect f a b maxIter tol = some c := by
  obtain ⟨m, rfl⟩ : ∃ m, maxIter = m + 1 := ⟨maxIter - 1, by omega⟩
  have hp : (0 : ℝ) < 2 ^ (m + 1) := by positivity
  obtain ⟨c, hc⟩ := bisectLoop_succeeds f tol ((b - a) / 2 ^ (m + 1)) htol m a b hab hf.continuousOn hs
    (fun x hx y hy hxy => by
      have h1 := hf.dist_le_mul x hx y hy
      rw [Real.dist_eq, Real.dist_eq] at h1
      have h2 : (L : ℝ) * |x - y| ≤ L * ((b - a) / 2 ^ (m + 1)) := mul_le_mul_of_nonneg_left hxy L.2
      have h3 : (L : ℝ) * ((b - a) / 2 ^ (m + 1)) < tol := by
        rw [← mul_div_assoc, div_lt_iff₀ hp]; exact hw
      linarith)
    (by rw [div_mul_cancel₀ _ hp.ne'])
  refine ⟨c, ?_⟩
  unfold bisect bisectCtor
  rw [if_neg (by push Not; exact hs)]
  exact hc

/-- **C42** A tolerance of zero is never met: even when a round lands on a root exactly there is no result. -/
theorem zero_tolerance (f : ℝ → ℝ) (a b : ℝ) (maxIter : Nat) : bisect f a b maxIter 0 = none := by
  have key : ∀ n (a b fa : ℝ), bisectLoop f 0 n a b fa = none := by
    intro n
    induction n with
    | zero => intros; rfl
    | succ n ih =>
      intro a b fa
      rw [bisectLoop]
      rw [if_neg (by push Not; exact abs_nonneg _)]
      split <;> exact ih _ _ _
  unfold bisect
  cases bisectCtor f a b with
  | none => rfl
  | some _ => exact key _ _ _ _

example : ∃ c, bisect (fun x : ℝ => x - 1) 0 4 12 (1 / 1000) = some c ∧ 0 ≤ c ∧ c ≤ 4 ∧ |c - 1| < 1 / 1000 := by
  obtain ⟨c, hc⟩ := bisect_rounds (fun x : ℝ => x - 1) 1 0 4 (1 / 1000) 12 (by norm_num) (by norm_num)
    (LipschitzOnWith.of_dist_le_mul (fun x _ y _ => by simp [Real.dist_eq])) (by norm_num) (by norm_num) (by norm_num)
  obtain ⟨h1, h2, h3⟩ := bisect_sound (fun x : ℝ => x - 1) 0 4 12 (1 / 1000) c (by norm_num) hc
  exact ⟨c, hc, h1, h2, h3⟩

example : bisect (fun x : ℚ => x * x - 2) 0 4 7 (1 / 10) = some (23 / 16) := by decide +kernel

/-! ## Concrete cases of the hypotheses. -/

example := bisect_complete (fun x => x) (-1) 2 (1 / 100) (by norm_num) (by norm_num) continuousOn_id (by norm_num)
example := bisect_refuses (fun x : ℚ => x) 1 2 10 (1 / 100) (by norm_num)
example := fermiPrime_deriv 3 (by norm_num) (by norm_num)
example := fermi_antitone (x := 1) (y := 2) (by norm_num)

end Verif.Numeric
