import Verif.Numeric.ModelCurve
import Mathlib.Analysis.Calculus.Deriv.Inv
import Mathlib.Analysis.Calculus.Deriv.Pow
import Mathlib.Analysis.Calculus.Deriv.Add
import Mathlib.Tactic.FieldSimp
import Mathlib.Tactic.Linarith
import Mathlib.Tactic.Ring

/-!
# C117: fits of a curve
-/

namespace Verif.Numeric

open Verif.Loop

/-! ## Specification -/

/-- The curve: a particle and a hole with a gap `delta` and a width `gamma`. -/
noncomputable def curve (e a omega delta gamma : ℝ) : ℝ :=
  2 * a / Real.pi * ((omega + e) * (gamma * omega)) / ((omega ^ 2 - (e ^ 2 + gamma ^ 2 + delta ^ 2)) ^ 2 + 4 * (gamma * omega) ^ 2)

/-- The curve is not at a pole. -/
def NoPole (e omega delta gamma : ℝ) : Prop := (omega ^ 2 - (e ^ 2 + gamma ^ 2 + delta ^ 2)) ^ 2 + 4 * (gamma * omega) ^ 2 ≠ 0

/-- The sum of the squares of the differences. -/
noncomputable def squares (e a : ℝ) (points : List (ℝ × ℝ)) (delta gamma : ℝ) : ℝ :=
  (points.map fun p => (p.2 - curve e a p.1 delta gamma) ^ 2).sum

/-! ## Properties -/

theorem value_eq (c : Curve) (omega delta gamma : ℝ) : c.value omega delta gamma = curve c.ekf c.anorm omega delta gamma := by
  unfold Curve.value curve
  simp only
  congr 1 <;> ring

theorem den_delta (e omega delta gamma : ℝ) :
    HasDerivAt (fun d : ℝ => (omega ^ 2 - (e ^ 2 + gamma ^ 2 + d ^ 2)) ^ 2 + 4 * (gamma * omega) ^ 2)
      (4 * delta * (e ^ 2 + gamma ^ 2 + delta ^ 2 - omega ^ 2)) delta := by
  have h1 : HasDerivAt (fun d : ℝ => omega ^ 2 - (e ^ 2 + gamma ^ 2 + d ^ 2)) (-(2 * delta)) delta := by
    have := ((hasDerivAt_pow 2 delta).const_add (e ^ 2 + gamma ^ 2)).const_sub (omega ^ 2)
    simpa using this
  have h2 := (h1.pow 2).add_const (4 * (gamma * omega) ^ 2)
  refine h2.congr_deriv ?_
  ring

theorem den_gamma (e omega delta gamma : ℝ) :
    HasDerivAt (fun g : ℝ => (omega ^ 2 - (e ^ 2 + g ^ 2 + delta ^ 2)) ^ 2 + 4 * (g * omega) ^ 2)
      (4 * gamma * (e ^ 2 + gamma ^ 2 + delta ^ 2 - omega ^ 2) + 8 * gamma * omega ^ 2) gamma := by
  have h1 : HasDerivAt (fun g : ℝ => omega ^ 2 - (e ^ 2 + g ^ 2 + delta ^ 2)) (-(2 * gamma)) gamma := by
    have := (((hasDerivAt_pow 2 gamma).const_add (e ^ 2)).add_const (delta ^ 2)).const_sub (omega ^ 2)
    simpa using this
  have h3 : HasDerivAt (fun g : ℝ => 4 * (g * omega) ^ 2) (8 * gamma * omega ^ 2) gamma := by
    have := (((hasDerivAt_id gamma).mul_const omega).pow 2).const_mul 4
    refine this.congr_deriv ?_
    simp
    ring
  refine ((h1.pow 2).add h3).congr_deriv ?_
  ring

/-- **C117** `df` for the gap is the derivative of the curve. -/
theorem delta_spec (c : Curve) (omega delta gamma : ℝ) (h : NoPole c.ekf omega delta gamma) :
    HasDerivAt (fun d => curve c.ekf c.anorm omega d gamma) (c.dDelta omega delta gamma) delta := by
  have := (hasDerivAt_const delta (2 * c.anorm / Real.pi * ((omega + c.ekf) * (gamma * omega)))).div (den_delta c.ekf omega delta gamma) h
  refine this.congr_deriv ?_
  unfold Curve.dDelta
  simp only
  congr 1 <;> ring

/-- The derivative for the width. -/
theorem gamma_deriv (e a omega delta gamma : ℝ) (h : NoPole e omega delta gamma) :
    HasDerivAt (fun g => curve e a omega delta g) (2 * a / Real.pi * ((omega + e) * omega) /
        ((omega ^ 2 - (e ^ 2 + gamma ^ 2 + delta ^ 2)) ^ 2 + 4 * (gamma * omega) ^ 2) -
      2 * a / Real.pi * ((omega + e) * (gamma * omega)) * (4 * gamma * (e ^ 2 + gamma ^ 2 + delta ^ 2 - omega ^ 2) + 8 * gamma * omega ^ 2) /
        ((omega ^ 2 - (e ^ 2 + gamma ^ 2 + delta ^ 2)) ^ 2 + 4 * (gamma * omega) ^ 2) ^ 2) gamma := by
  have hn : HasDerivAt (fun g : ℝ => 2 * a / Real.pi * ((omega + e) * (g * omega))) (2 * a / Real.pi * ((omega + e) * omega)) gamma := by
    have := (((hasDerivAt_id gamma).mul_const omega).const_mul (omega + e)).const_mul (2 * a / Real.pi)
    simpa using this
  refine (hn.div (den_gamma e omega delta gamma) h).congr_deriv ?_
  have h' : (omega ^ 2 - (e ^ 2 + gamma ^ 2 + delta ^ 2)) ^ 2 + 4 * (gamma * omega) ^ 2 ≠ 0 := h
  generalize (omega ^ 2 - (e ^ 2 + gamma ^ 2 + delta ^ 2)) ^ 2 + 4 * (gamma * omega) ^ 2 = D at h' ⊢
  field_simp

/-- **C117** (finding) `df` for the width has the wrong sign in its second term: it is the derivative of the curve only where this term
is zero. -/
theorem gamma_fails (c : Curve) (omega delta gamma : ℝ) (h : NoPole c.ekf omega delta gamma) (ha : c.anorm ≠ 0) :
    HasDerivAt (fun g => curve c.ekf c.anorm omega delta g) (c.dGamma omega delta gamma) gamma ↔
      omega + c.ekf = 0 ∨ gamma = 0 ∨ omega = 0 ∨ c.ekf ^ 2 + gamma ^ 2 + delta ^ 2 + omega ^ 2 = 0 := by
  have h1 := gamma_deriv c.ekf c.anorm omega delta gamma h
  have h' : (omega ^ 2 - (c.ekf ^ 2 + gamma ^ 2 + delta ^ 2)) ^ 2 + 4 * (gamma * omega) ^ 2 ≠ 0 := h
  have e : c.dGamma omega delta gamma = 2 * c.anorm / Real.pi * ((omega + c.ekf) * omega) /
        ((omega ^ 2 - (c.ekf ^ 2 + gamma ^ 2 + delta ^ 2)) ^ 2 + 4 * (gamma * omega) ^ 2) +
      2 * c.anorm / Real.pi * ((omega + c.ekf) * (gamma * omega)) * (4 * gamma * (c.ekf ^ 2 + gamma ^ 2 + delta ^ 2 - omega ^ 2) + 8 * gamma * omega ^ 2) /
        ((omega ^ 2 - (c.ekf ^ 2 + gamma ^ 2 + delta ^ 2)) ^ 2 + 4 * (gamma * omega) ^ 2) ^ 2 := by
    unfold Curve.dGamma
    simp only
    rw [show omega * omega - (c.ekf * c.ekf + gamma * gamma + delta * delta) = omega ^ 2 - (c.ekf ^ 2 + gamma ^ 2 + delta ^ 2) by ring,
      show (omega ^ 2 - (c.ekf ^ 2 + gamma ^ 2 + delta ^ 2)) * (omega ^ 2 - (c.ekf ^ 2 + gamma ^ 2 + delta ^ 2)) +
        4 * (gamma * omega) * (gamma * omega) =
        (omega ^ 2 - (c.ekf ^ 2 + gamma ^ 2 + delta ^ 2)) ^ 2 + 4 * (gamma * omega) ^ 2 by ring]
    generalize (omega ^ 2 - (c.ekf ^ 2 + gamma ^ 2 + delta ^ 2)) ^ 2 + 4 * (gamma * omega) ^ 2 = D at h' ⊢
    have := Real.pi_ne_zero
    field_simp
    ring
  have key : HasDerivAt (fun g => curve c.ekf c.anorm omega delta g) (c.dGamma omega delta gamma) gamma ↔
      2 * c.anorm / Real.pi * ((omega + c.ekf) * (gamma * omega)) * (4 * gamma * (c.ekf ^ 2 + gamma ^ 2 + delta ^ 2 - omega ^ 2) + 8 * gamma * omega ^ 2) = 0 := by
    rw [e]
    generalize (omega ^ 2 - (c.ekf ^ 2 + gamma ^ 2 + delta ^ 2)) ^ 2 + 4 * (gamma * omega) ^ 2 = D at h' h1 ⊢
    constructor
    · intro h2
      have := h2.unique h1
      have h3 : 2 * c.anorm / Real.pi * ((omega + c.ekf) * (gamma * omega)) * (4 * gamma * (c.ekf ^ 2 + gamma ^ 2 + delta ^ 2 - omega ^ 2) + 8 * gamma * omega ^ 2) / D ^ 2 = 0 := by
        linarith
      rcases div_eq_zero_iff.1 h3 with h3 | h3
      · exact h3
      · exact absurd h3 (pow_ne_zero 2 h')
    · intro h2
      refine h1.congr_deriv ?_
      rw [h2]
      simp
  rw [key]
  rw [show 4 * gamma * (c.ekf ^ 2 + gamma ^ 2 + delta ^ 2 - omega ^ 2) + 8 * gamma * omega ^ 2 =
    4 * gamma * (c.ekf ^ 2 + gamma ^ 2 + delta ^ 2 + omega ^ 2) by ring]
  have hpi := Real.pi_ne_zero
  constructor
  · intro h2
    simp only [mul_eq_zero, div_eq_zero_iff, OfNat.ofNat_ne_zero, false_or, ha, hpi, or_false] at h2
    tauto
  · rintro (h2 | h2 | h2 | h2) <;> rw [h2] <;> simp

theorem sum_take_succ (l : List (ℝ × ℝ)) (f : ℝ × ℝ → ℝ) (i : Nat) (p : ℝ × ℝ) (hp : l[i]? = some p) :
    ((l.take (i + 1)).map f).sum = ((l.take i).map f).sum + f p := by
  rw [List.take_succ, hp]
  simp

theorem points_get (points : List (ℝ × ℝ)) (i : Nat) (hi : i < points.length) : ∃ p, points[i]? = some p ∧
    (points.map (·.1))[i]? = some p.1 ∧ (points.map (·.2))[i]? = some p.2 :=
  ⟨points[i], List.getElem?_eq_getElem hi, by simp [hi], by simp [hi]⟩

/-- **C117** The function that is minimized is the sum of the squares. -/
theorem cost_spec (e a : ℝ) (points : List (ℝ × ℝ)) (delta gamma : ℝ) :
    Curve.cost ⟨points.map (·.1), e, a⟩ (points.map (·.2)) delta gamma = some (squares e a points delta gamma) := by
  unfold Curve.cost
  obtain ⟨s, h1, h2⟩ := loopN_inv (fun i (s : ℝ) => s = ((points.take i).map fun p => (p.2 - curve e a p.1 delta gamma) ^ 2).sum)
    (points.map (·.1)).length (fun i sum => do
      let w ← (points.map (·.1))[i]?
      let y ← (points.map (·.2))[i]?
      let x := |y - Curve.value ⟨points.map (·.1), e, a⟩ w delta gamma|
      return sum + x * x) 0 (by simp) (by
      intro i s hi hs
      obtain ⟨p, p1, p2, p3⟩ := points_get points i (by simpa using hi)
      rw [p2, p3]
      refine ⟨_, rfl, ?_⟩
      rw [sum_take_succ _ _ _ p p1, hs, value_eq, abs_mul_abs_self]
      ring)
  refine h1.trans ?_
  rw [h2, List.take_of_length_le (by simp)]
  rfl

theorem costDeriv_eq (e a : ℝ) (points : List (ℝ × ℝ)) (delta gamma : ℝ) (d : ℝ → ℝ → ℝ → ℝ) :
    Curve.costDeriv ⟨points.map (·.1), e, a⟩ (points.map (·.2)) delta gamma d =
      some ((points.map fun p => (curve e a p.1 delta gamma - p.2) * d p.1 delta gamma).sum * 2) := by
  unfold Curve.costDeriv
  obtain ⟨s, h1, h2⟩ := loopN_inv (fun i (s : ℝ) => s = ((points.take i).map fun p => (curve e a p.1 delta gamma - p.2) * d p.1 delta gamma).sum)
    (points.map (·.1)).length (fun i sum => do
      let w ← (points.map (·.1))[i]?
      let y ← (points.map (·.2))[i]?
      return sum + (Curve.value ⟨points.map (·.1), e, a⟩ w delta gamma - y) * d w delta gamma) 0 (by simp) (by
      intro i s hi hs
      obtain ⟨p, p1, p2, p3⟩ := points_get points i (by simpa using hi)
      rw [p2, p3]
      refine ⟨_, rfl, ?_⟩
      rw [sum_take_succ _ _ _ p p1, hs, value_eq])
  simp only at h1 ⊢
  rw [h1]
  simp only [bind, Option.bind_some, h2]
  rw [List.take_of_length_le (by simp)]
  rfl

/-- The derivative of a sum of squares. -/
theorem squares_deriv (points : List (ℝ × ℝ)) (F : ℝ → ℝ → ℝ) (F' : ℝ → ℝ) (x : ℝ) (h : ∀ p ∈ points, HasDerivAt (F p.1) (F' p.1) x) :
    HasDerivAt (fun d => (points.map fun p => (p.2 - F p.1 d) ^ 2).sum) ((points.map fun p => (F p.1 x - p.2) * F' p.1).sum * 2) x := by
  induction points with
  | nil => simpa using hasDerivAt_const x (0 : ℝ)
  | cons p points ih =>
    simp only [List.map_cons, List.sum_cons]
    have h1 := (((h p List.mem_cons_self).const_sub p.2).pow 2).add (ih fun q hq => h q (List.mem_cons_of_mem _ hq))
    refine h1.congr_deriv ?_
    simp
    ring

/-- **C117** The first component of the gradient is the derivative of the sum of squares. -/
theorem grad_spec (e a : ℝ) (points : List (ℝ × ℝ)) (delta gamma : ℝ) (h : ∀ p ∈ points, NoPole e p.1 delta gamma) :
    ∃ x y, Curve.grad ⟨points.map (·.1), e, a⟩ (points.map (·.2)) delta gamma = some (x, y) ∧
      HasDerivAt (fun d => squares e a points d gamma) x delta := by
  unfold Curve.grad
  rw [costDeriv_eq, costDeriv_eq]
  refine ⟨_, _, rfl, ?_⟩
  exact squares_deriv points (fun w d => curve e a w d gamma) (fun w => Curve.dDelta ⟨points.map (·.1), e, a⟩ w delta gamma) delta
    fun p hp => delta_spec ⟨points.map (·.1), e, a⟩ p.1 delta gamma (h p hp)

/-- **C117** (finding) The second is not, already with one point. -/
theorem grad_fails : ∃ (e a : ℝ) (points : List (ℝ × ℝ)) (delta gamma : ℝ), (∀ p ∈ points, NoPole e p.1 delta gamma) ∧
    ∃ x y, Curve.grad ⟨points.map (·.1), e, a⟩ (points.map (·.2)) delta gamma = some (x, y) ∧
      ¬ HasDerivAt (fun g => squares e a points delta g) y gamma := by
  refine ⟨0, Real.pi, [(1, 1)], 0, 1, ?_, ?_⟩
  · intro p hp
    simp only [List.mem_singleton] at hp
    subst hp
    unfold NoPole
    norm_num
  · unfold Curve.grad
    rw [costDeriv_eq, costDeriv_eq]
    refine ⟨_, _, rfl, ?_⟩
    intro hd
    have h1 := squares_deriv [((1 : ℝ), (1 : ℝ))] (fun w g => curve 0 Real.pi w 0 g) (fun w => 2 * Real.pi / Real.pi * ((w + 0) * w) /
        ((w ^ 2 - (0 ^ 2 + 1 ^ 2 + 0 ^ 2)) ^ 2 + 4 * (1 * w) ^ 2) -
      2 * Real.pi / Real.pi * ((w + 0) * (1 * w)) * (4 * 1 * (0 ^ 2 + 1 ^ 2 + 0 ^ 2 - w ^ 2) + 8 * 1 * w ^ 2) /
        ((w ^ 2 - (0 ^ 2 + 1 ^ 2 + 0 ^ 2)) ^ 2 + 4 * (1 * w) ^ 2) ^ 2) 1 (by
      intro p hp
      simp only [List.mem_singleton] at hp
      subst hp
      exact gamma_deriv 0 Real.pi 1 0 1 (by unfold NoPole; norm_num))
    have h2 := hd.unique h1
    have hpi := Real.pi_ne_zero
    simp only [List.map_cons, List.map_nil, List.sum_cons, List.sum_nil, Curve.dGamma, curve] at h2
    field_simp at h2
    norm_num at h2

/-! ## Examples -/

theorem pole_free : NoPole 2 1 0 1 := by
  unfold NoPole
  norm_num

/-- A curve with energy 2 at frequency 1, with `delta` 0 and `gamma` 1. -/
example : HasDerivAt (fun d => curve 2 3 1 d 1) (Curve.dDelta ⟨[1], 2, 3⟩ 1 0 1) 0 := delta_spec ⟨[1], 2, 3⟩ 1 0 1 pole_free

/-- There the derivative by `gamma` is wrong. -/
example : ¬ HasDerivAt (fun g => curve 2 3 1 0 g) (Curve.dGamma ⟨[1], 2, 3⟩ 1 0 1) 1 := by
  have h := gamma_fails ⟨[1], 2, 3⟩ 1 0 1 pole_free (by norm_num)
  rw [h]
  norm_num

example : ∃ x y, Curve.grad ⟨[1], 2, 3⟩ [5] 0 1 = some (x, y) ∧ HasDerivAt (fun d => squares 2 3 [(1, 5)] d 1) x 0 :=
  grad_spec 2 3 [(1, 5)] 0 1 (by intro p hp; simp at hp; subst hp; exact pole_free)

end Verif.Numeric
