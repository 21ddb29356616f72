import Verif.Extrap.Model
import Mathlib.Tactic.Module
import Mathlib.Tactic.Ring
import Mathlib.Tactic.Linarith
import Mathlib.Tactic.NormNum
import Mathlib.Tactic.Positivity
import Mathlib.Analysis.Complex.Exponential
import Mathlib.Algebra.Module.LinearMap.End
import Mathlib.Algebra.Polynomial.Derivative
import Mathlib.Algebra.Polynomial.Eval.Defs
import Mathlib.Analysis.Complex.Basic
import Mathlib.Algebra.Order.Floor.Semiring

/-!
# C59: Runge-Kutta
-/

namespace Verif.Extrap

variable {V W : Type} [AddCommGroup V] [Module ℝ V]

/-- The state after `i` steps. -/
noncomputable def state (f : ℝ → V → V) (h t0 : ℝ) (y0 : V) : Nat → V
  | 0 => y0
  | i + 1 => rkStep f h (t0 + i * h) (state f h t0 y0 i)

theorem rkLoop_eq (f : ℝ → V → V) (h t0 : ℝ) (y0 : V) (view : V → W) (n k : Nat) (result : List W) :
    rkLoop f h view n (t0 + k * h) (state f h t0 y0 k) result =
      result ++ (List.range n).map fun i => view (state f h t0 y0 (k + i)) := by
  induction n generalizing k result with
  | zero => simp [rkLoop]
  | succ n ih =>
    rw [rkLoop]
    have e1 : t0 + k * h + h = t0 + ((k + 1 : Nat) : ℝ) * h := by push_cast; ring
    have e2 : rkStep f h (t0 + k * h) (state f h t0 y0 k) = state f h t0 y0 (k + 1) := rfl
    rw [e1, e2, ih, List.append_assoc, List.range_succ_eq_map, List.map_cons, List.map_map]
    simp only [Nat.add_zero, List.singleton_append]
    congr 3
    funext i
    simp only [Function.comp]
    congr 2; omega

/-- **C59** `solve` appends `N` states, the first one being the initial one, the next ones what the steps give. -/
theorem solve_spec (f : ℝ → V → V) (h t0 : ℝ) (y0 : V) (view : V → W) (result : List W) (n : Nat) :
    ∃ new, solve f h view result t0 n y0 = result ++ new ∧ new.length = n ∧ (0 < n → new[0]? = some (view y0)) ∧
      ∃ y : Nat → V, y 0 = y0 ∧ (∀ i, y (i + 1) = rkStep f h (t0 + i * h) (y i)) ∧ ∀ i < n, new[i]? = some (view (y i)) := by
  refine ⟨(List.range n).map fun i => view (state f h t0 y0 i), ?_, by simp, ?_, state f h t0 y0, rfl, fun i => rfl, ?_⟩
  · have := rkLoop_eq f h t0 y0 view n 0 result
    simpa [solve, state] using this
  · intro hn
    rw [List.getElem?_map, List.getElem?_range hn]; rfl
  · intro i hi
    rw [List.getElem?_map, List.getElem?_range hi]; rfl

/-- **C59** The number of states of `solveEx`: the times before `t` or `t` itself, one less if it is on the grid. -/
theorem solveEx_spec (f : ℝ → V → V) (h t0 t : ℝ) (hh : 0 < h) (ht : t0 ≤ t) (y0 : V) (view : V → W) (result : List W) :
    ∃ n : Nat, solveEx f h view result t0 t y0 = some (solve f h view result t0 n y0) ∧
      t0 + n * h ≤ t ∧ t < t0 + (n + 1) * h := by
  have h0 : 0 ≤ (t - t0) / h := div_nonneg (by linarith) hh.le
  refine ⟨⌊(t - t0) / h⌋₊, ?_, ?_, ?_⟩
  · unfold solveEx; rw [if_pos (by linarith)]
  · have := Nat.floor_le h0
    rw [le_div_iff₀ hh] at this
    linarith
  · have := Nat.lt_floor_add_one ((t - t0) / h)
    rw [div_lt_iff₀ hh] at this
    linarith

/-- **C59** `y' = c0 + c1 t + c2 t^2 + c3 t^3` is integrated exactly, in any vector space. -/
theorem cubic_exact (c0 c1 c2 c3 : V) (h t0 : ℝ) (y0 : V) (i : Nat) :
    let F : ℝ → V := fun t => t • c0 + (t ^ 2 / 2) • c1 + (t ^ 3 / 3) • c2 + (t ^ 4 / 4) • c3
    state (fun t _ => c0 + t • c1 + t ^ 2 • c2 + t ^ 3 • c3) h t0 y0 i = y0 + (F (t0 + i * h) - F t0) := by
  intro F
  induction i with
  | zero => simp [state]
  | succ i ih =>
    rw [state, ih]
    simp only [rkStep, F]
    push_cast
    module

/-- **C59** For `y' = A y` a step is the Taylor polynomial of degree four of the exponential. -/
theorem linear_step (A : Module.End ℝ V) (h t : ℝ) (y : V) :
    rkStep (fun _ y => A y) h t y = ∑ k ∈ Finset.range 5, (h ^ k / (k.factorial : ℝ)) • (A ^ k) y := by
  simp only [rkStep, Finset.sum_range_succ, Finset.sum_range_zero, pow_succ, pow_zero, Module.End.mul_apply, Module.End.one_apply,
    map_add, map_smul, Nat.factorial]
  push_cast
  module

/-- Degree four is not integrated exactly. -/
theorem quartic_fails : state (fun t (_ : ℝ) => t ^ 4) 1 0 (0 : ℝ) 1 ≠ 1 / 5 := by
  simp only [state, rkStep, smul_eq_mul]
  norm_num

/-! ## The error for `y' = a y` -/

theorem pow_diff (P E : ℂ) (M : ℝ) (hM : 1 ≤ M) (hP : ‖P‖ ≤ M) (hE : ‖E‖ ≤ M) (i : Nat) :
    ‖P ^ i - E ^ i‖ ≤ i * M ^ i * ‖P - E‖ := by
  induction i with
  | zero => simp
  | succ i ih =>
    have e : P ^ (i + 1) - E ^ (i + 1) = P * (P ^ i - E ^ i) + (P - E) * E ^ i := by ring
    have h1 : ‖P * (P ^ i - E ^ i)‖ ≤ M * (i * M ^ i * ‖P - E‖) := by
      rw [norm_mul]; exact mul_le_mul hP ih (norm_nonneg _) (by linarith)
    have h2 : ‖(P - E) * E ^ i‖ ≤ ‖P - E‖ * M ^ i := by
      rw [norm_mul, norm_pow]
      exact mul_le_mul_of_nonneg_left (pow_le_pow_left₀ (norm_nonneg _) hE i) (norm_nonneg _)
    have h3 : ‖P - E‖ * M ^ i ≤ ‖P - E‖ * M ^ (i + 1) :=
      mul_le_mul_of_nonneg_left (pow_le_pow_right₀ hM (by omega)) (norm_nonneg _)
    rw [e]
    refine (norm_add_le _ _).trans ?_
    have : ((i + 1 : Nat) : ℝ) * M ^ (i + 1) * ‖P - E‖ = M * (i * M ^ i * ‖P - E‖) + ‖P - E‖ * M ^ (i + 1) := by
      push_cast; ring
    rw [this]; linarith

/-- **C59** Fourth order: for `y' = a y` the error after `i` steps of length `h` is at most `|y0| i e^(i|ah|) |ah|^5 / 100`, which
for a fixed time `i h` goes as `h^4`. -/
theorem linear_error (a : ℂ) (h t0 : ℝ) (y0 : ℂ) (hh : ‖a * h‖ ≤ 1) (i : Nat) :
    ‖state (fun _ (y : ℂ) => a * y) h t0 y0 i - y0 * Complex.exp (a * (i * h))‖ ≤
      ‖y0‖ * (i * Real.exp (i * ‖a * h‖) * (‖a * h‖ ^ 5 / 100)) := by
  set x : ℂ := a * h with hx
  set P : ℂ := ∑ m ∈ Finset.range 5, x ^ m / (m.factorial : ℂ) with hP
  have hstep : ∀ t y, rkStep (fun _ (y : ℂ) => a * y) h t y = P * y := by
    intro t y
    simp only [rkStep, hP, Finset.sum_range_succ, Finset.sum_range_zero, Nat.factorial, hx, Complex.real_smul]
    push_cast
    ring
  have hstate : state (fun _ (y : ℂ) => a * y) h t0 y0 i = y0 * P ^ i := by
    induction i with
    | zero => simp [state]
    | succ i ih => rw [state, hstep, ih]; ring
  have hexp : Complex.exp (a * (i * h)) = Complex.exp x ^ i := by
    rw [← Complex.exp_nat_mul, hx]; congr 1; ring
  have hb : ‖Complex.exp x - P‖ ≤ ‖x‖ ^ 5 / 100 := by
    have := Complex.exp_bound hh (n := 5) (by norm_num)
    refine this.trans (le_of_eq ?_)
    norm_num [Nat.factorial]
    ring
  have hM : 1 ≤ Real.exp ‖x‖ := Real.one_le_exp (norm_nonneg _)
  have hE : ‖Complex.exp x‖ ≤ Real.exp ‖x‖ := Complex.norm_exp_le_exp_norm x
  have hPn : ‖P‖ ≤ Real.exp ‖x‖ := by
    have h1 : ‖P‖ ≤ ∑ m ∈ Finset.range 5, ‖x‖ ^ m / (m.factorial : ℝ) := by
      refine (norm_sum_le _ _).trans (Finset.sum_le_sum fun m _ => ?_)
      rw [norm_div, norm_pow]; simp
    exact h1.trans (Real.sum_le_exp_of_nonneg (norm_nonneg _) 5)
  have hpd := pow_diff P (Complex.exp x) (Real.exp ‖x‖) hM hPn hE i
  rw [hstate, hexp, ← mul_sub, norm_mul]
  refine mul_le_mul_of_nonneg_left ?_ (norm_nonneg _)
  refine hpd.trans ?_
  rw [← Real.exp_nat_mul]
  refine mul_le_mul_of_nonneg_left ?_ (by positivity)
  rw [norm_sub_rev]; exact hb

/-! ## Stability -/

/-- **C59** Two solutions of an equation with a Lipschitz constant `L` separate at most as `e^(L t)`. -/
theorem stable {E : Type} [NormedAddCommGroup E] [NormedSpace ℝ E] (f : ℝ → E → E) (L : ℝ) (hL : 0 ≤ L)
    (hf : ∀ t y z, ‖f t y - f t z‖ ≤ L * ‖y - z‖) (h : ℝ) (hh : 0 ≤ h) (t0 : ℝ) (y0 z0 : E) (i : Nat) :
    ‖state f h t0 y0 i - state f h t0 z0 i‖ ≤ Real.exp (i * (h * L)) * ‖y0 - z0‖ := by
  have hx : 0 ≤ h * L := mul_nonneg hh hL
  have hpoly : 1 + h * L + (h * L) ^ 2 / 2 + (h * L) ^ 3 / 6 + (h * L) ^ 4 / 24 ≤ Real.exp (h * L) := by
    have := Real.sum_le_exp_of_nonneg hx 5
    simp only [Finset.sum_range_succ, Finset.sum_range_zero, Nat.factorial] at this
    push_cast at this
    norm_num at this
    linarith
  have hstep : ∀ t (y z : E), ‖rkStep f h t y - rkStep f h t z‖ ≤ Real.exp (h * L) * ‖y - z‖ := by
    intro t y z
    set x := h * L with hxd
    set e := ‖y - z‖ with he
    have he0 : 0 ≤ e := norm_nonneg _
    have hk : ∀ s (p q : E) (c : ℝ), ‖p - q‖ ≤ c → ‖h • f s p - h • f s q‖ ≤ x * c := by
      intro s p q c hc
      rw [← smul_sub, norm_smul, Real.norm_of_nonneg hh]
      calc h * ‖f s p - f s q‖ ≤ h * (L * ‖p - q‖) := mul_le_mul_of_nonneg_left (hf s p q) hh
        _ = x * ‖p - q‖ := by rw [hxd]; ring
        _ ≤ x * c := mul_le_mul_of_nonneg_left hc hx
    have hadd : ∀ (p q : E) (c r : ℝ), 0 ≤ r → ‖p - q‖ ≤ c → ‖(y + r • p) - (z + r • q)‖ ≤ e + r * c := by
      intro p q c r hr hc
      have : (y + r • p) - (z + r • q) = (y - z) + r • (p - q) := by module
      rw [this]
      refine (norm_add_le _ _).trans ?_
      rw [norm_smul, Real.norm_of_nonneg hr]
      have := mul_le_mul_of_nonneg_left hc hr
      linarith
    unfold rkStep
    simp only
    have b1 := hk t y z e le_rfl
    have b2 := hk (t + h * (1 / 2)) _ _ _ (hadd _ _ _ (1 / 2) (by norm_num) b1)
    have b3 := hk (t + h * (1 / 2)) _ _ _ (hadd _ _ _ (1 / 2) (by norm_num) b2)
    have b4 := hk (t + h) (y + h • f (t + h * (1 / 2)) (y + (1 / 2 : ℝ) • h • f (t + h * (1 / 2)) (y + (1 / 2 : ℝ) • h • f t y)))
      (z + h • f (t + h * (1 / 2)) (z + (1 / 2 : ℝ) • h • f (t + h * (1 / 2)) (z + (1 / 2 : ℝ) • h • f t z))) _
      (by have := hadd _ _ _ 1 (by norm_num) b3; simpa using this)
    generalize h • f t y = k1 at *
    generalize h • f t z = l1 at *
    generalize h • f (t + h * (1 / 2)) (y + (1 / 2 : ℝ) • k1) = k2 at *
    generalize h • f (t + h * (1 / 2)) (z + (1 / 2 : ℝ) • l1) = l2 at *
    generalize h • f (t + h * (1 / 2)) (y + (1 / 2 : ℝ) • k2) = k3 at *
    generalize h • f (t + h * (1 / 2)) (z + (1 / 2 : ℝ) • l2) = l3 at *
    generalize h • f (t + h) (y + k3) = k4 at *
    generalize h • f (t + h) (z + l3) = l4 at *
    have hdec : (y + (1 / 6 : ℝ) • ((1 : ℝ) • k1 + (2 : ℝ) • k2 + (2 : ℝ) • k3 + (1 : ℝ) • k4)) -
        (z + (1 / 6 : ℝ) • ((1 : ℝ) • l1 + (2 : ℝ) • l2 + (2 : ℝ) • l3 + (1 : ℝ) • l4)) =
        (y - z) + ((1 / 6 : ℝ) • (k1 - l1) + ((1 / 3 : ℝ) • (k2 - l2) + ((1 / 3 : ℝ) • (k3 - l3) + (1 / 6 : ℝ) • (k4 - l4)))) := by
      module
    rw [hdec]
    have n1 := norm_add_le (y - z) ((1 / 6 : ℝ) • (k1 - l1) + ((1 / 3 : ℝ) • (k2 - l2) + ((1 / 3 : ℝ) • (k3 - l3) + (1 / 6 : ℝ) • (k4 - l4))))
    have n2 := norm_add_le ((1 / 6 : ℝ) • (k1 - l1)) ((1 / 3 : ℝ) • (k2 - l2) + ((1 / 3 : ℝ) • (k3 - l3) + (1 / 6 : ℝ) • (k4 - l4)))
    have n3 := norm_add_le ((1 / 3 : ℝ) • (k2 - l2)) ((1 / 3 : ℝ) • (k3 - l3) + (1 / 6 : ℝ) • (k4 - l4))
    have n4 := norm_add_le ((1 / 3 : ℝ) • (k3 - l3)) ((1 / 6 : ℝ) • (k4 - l4))
    have s1 : ‖(1 / 6 : ℝ) • (k1 - l1)‖ = 1 / 6 * ‖k1 - l1‖ := by rw [norm_smul, Real.norm_of_nonneg (by norm_num)]
    have s2 : ‖(1 / 3 : ℝ) • (k2 - l2)‖ = 1 / 3 * ‖k2 - l2‖ := by rw [norm_smul, Real.norm_of_nonneg (by norm_num)]
    have s3 : ‖(1 / 3 : ℝ) • (k3 - l3)‖ = 1 / 3 * ‖k3 - l3‖ := by rw [norm_smul, Real.norm_of_nonneg (by norm_num)]
    have s4 : ‖(1 / 6 : ℝ) • (k4 - l4)‖ = 1 / 6 * ‖k4 - l4‖ := by rw [norm_smul, Real.norm_of_nonneg (by norm_num)]
    have hfin : e * (1 + x + x ^ 2 / 2 + x ^ 3 / 6 + x ^ 4 / 24) ≤ e * Real.exp x := mul_le_mul_of_nonneg_left hpoly he0
    have hb : e + (1 / 6 * (x * e) + (1 / 3 * (x * (e + 1 / 2 * (x * e))) + (1 / 3 * (x * (e + 1 / 2 * (x * (e + 1 / 2 * (x * e))))) +
        1 / 6 * (x * (e + x * (e + 1 / 2 * (x * (e + 1 / 2 * (x * e))))))))) = e * (1 + x + x ^ 2 / 2 + x ^ 3 / 6 + x ^ 4 / 24) := by
      ring
    linarith
  induction i with
  | zero => simp [state]
  | succ i ih =>
    rw [state, state]
    refine (hstep _ _ _).trans ?_
    have : Real.exp (((i + 1 : Nat) : ℝ) * (h * L)) = Real.exp (h * L) * Real.exp (i * (h * L)) := by
      rw [← Real.exp_add]; congr 1; push_cast; ring
    rw [this, mul_assoc]
    exact mul_le_mul_of_nonneg_left ih (Real.exp_pos _).le

example : solve (fun _ y => y) (1 : ℝ) id [] 0 2 (1 : ℝ) = [1, 1 + 1 / 6 * (1 + 2 * (3 / 2) + 2 * (7 / 4) + 11 / 4)] := by
  simp [solve, rkLoop, rkStep]; norm_num

example : ‖(Complex.I * (1 / 2 : ℝ) : ℂ)‖ ≤ 1 := by simp; norm_num

/-- **C59** (finding) A final time a step or more before the initial time is not refused: a number below zero is converted to an
unsigned one. -/
theorem solveEx_backwards_fails (f : ℝ → V → V) (h t0 t : ℝ) (hh : 0 < h) (y0 : V) (view : V → W) (result : List W) :
    solveEx f h view result t0 t y0 = none ↔ t ≤ t0 - h := by
  unfold solveEx
  have : -1 < (t - t0) / h ↔ ¬ t ≤ t0 - h := by
    rw [lt_div_iff₀ hh, not_le]
    constructor <;> intro h <;> linarith
  by_cases hc : -1 < (t - t0) / h
  · rw [if_pos hc]
    simp [this.1 hc]
  · rw [if_neg hc]
    simp only [true_iff]
    exact not_not.1 fun hn => hc (this.2 hn)

/-! ## Concrete cases of the hypotheses. -/

example := linear_error 2 (1 / 4) 0 1 (by norm_num) 100
example := solveEx_backwards_fails (fun _ (y : ℝ) => -y) (1 / 4) 0 10 (by norm_num) 1 id []
example := solveEx_spec (fun _ (y : ℝ) => -y) (1 / 4) 0 10 (by norm_num) (by norm_num) 1 id []
example := stable (fun _ (y : ℝ) => -y) 1 zero_le_one (fun _ y z => by
  rw [one_mul, ← norm_neg (y - z)]; exact le_of_eq (congrArg _ (by ring))) (1 / 4) (by norm_num) 0 1 2 100

end Verif.Extrap
