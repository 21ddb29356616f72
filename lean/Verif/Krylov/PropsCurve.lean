import Verif.Krylov.ModelCurve
import Verif.Krylov.PropsCheb
import Verif.Krylov.PropsSolver
import Mathlib.Analysis.Matrix.Spectrum
import Mathlib.Analysis.SpecialFunctions.Trigonometric.Chebyshev.RootsExtrema
import Mathlib.Tactic.Linarith
import Mathlib.Tactic.FieldSimp
import Mathlib.Tactic.IntervalCases

/-!
# C110: the scale and the curve of the Chebyshev expansion
-/

namespace Verif.Krylov

open Matrix Polynomial Polynomial.Chebyshev

variable {𝕜 : Type} [RCLike 𝕜] {n : Nat}

/-- **C110** (finding) A `ChebyshevSolver` cannot be constructed, whatever the matrix and the parameters: the parameters with
which it looks for the bounds of the spectrum are refused. -/
theorem chebCtor_fails (tiny : ℝ) (found : ℝ × ℝ) (reortho : Bool) (p : SolverP.Params ℝ) :
    chebCtor tiny found reortho p = throwOut := by
  unfold chebCtor
  by_cases h : reortho = true ∧ p.lotaMemory = false
  · rw [if_pos h]; rfl
  · rw [if_neg h]
    cases hp : p.lotaMemory <;> simp [vectorsCtor, computeAandB, defaultParams, throwOut, bind, Except.bind, pure, Except.pure]

/-- No expectation value is larger. -/
def UpperBound (H : Matrix (Fin n) (Fin n) 𝕜) (μ : ℝ) : Prop :=
  ∀ x : Fin n → 𝕜, RCLike.re (star x ⬝ᵥ (H *ᵥ x)) ≤ μ * ∑ i, ‖x i‖ ^ 2

/-- A polynomial of a Hermitian matrix, in the basis of eigenvectors. -/
theorem poly_spectral {A : Matrix (Fin n) (Fin n) 𝕜} (hA : A.IsHermitian) : ∃ W : Matrix (Fin n) (Fin n) 𝕜, Wᴴ * W = 1 ∧ W * Wᴴ = 1 ∧
    A = W * diagonal (fun i => (hA.eigenvalues i : 𝕜)) * Wᴴ ∧
    ∀ p : ℝ[X], aeval A p = W * diagonal (fun i => ((p.eval (hA.eigenvalues i) : ℝ) : 𝕜)) * Wᴴ := by
  classical
  set W : Matrix (Fin n) (Fin n) 𝕜 := (hA.eigenvectorUnitary : Matrix (Fin n) (Fin n) 𝕜) with hW
  have hWW : Wᴴ * W = 1 := Unitary.coe_star_mul_self hA.eigenvectorUnitary
  have hWW' : W * Wᴴ = 1 := Unitary.coe_mul_star_self hA.eigenvectorUnitary
  have hs : A = W * diagonal (fun i => (hA.eigenvalues i : 𝕜)) * Wᴴ := hA.spectral_theorem
  refine ⟨W, hWW, hWW', hs, fun p => ?_⟩
  induction p using Polynomial.induction_on' with
  | add p q hp hq =>
    rw [map_add, hp, hq, ← Matrix.add_mul, ← Matrix.mul_add, diagonal_add]
    simp
  | monomial k a =>
    have hpow : ∀ k : Nat, A ^ k = W * diagonal (fun i => ((hA.eigenvalues i ^ k : ℝ) : 𝕜)) * Wᴴ := by
      intro k
      induction k with
      | zero => simp [hWW']
      | succ k ih =>
        rw [pow_succ, ih]
        refine (congrArg (fun M => W * diagonal (fun i => ((hA.eigenvalues i ^ k : ℝ) : 𝕜)) * Wᴴ * M) hs).trans ?_
        have : W * diagonal (fun i => ((hA.eigenvalues i ^ k : ℝ) : 𝕜)) * Wᴴ * (W * diagonal (fun i => (hA.eigenvalues i : 𝕜)) * Wᴴ) =
            W * diagonal (fun i => ((hA.eigenvalues i ^ k : ℝ) : 𝕜)) * (Wᴴ * W) * diagonal (fun i => (hA.eigenvalues i : 𝕜)) * Wᴴ := by
          simp only [Matrix.mul_assoc]
        rw [this, hWW, Matrix.mul_one, Matrix.mul_assoc W, diagonal_mul_diagonal]
        simp [pow_succ]
    rw [aeval_monomial, hpow, Algebra.algebraMap_eq_smul_one, smul_mul_assoc, one_mul]
    have hd : diagonal (fun i => (((monomial k a).eval (hA.eigenvalues i) : ℝ) : 𝕜)) =
        a • diagonal (fun i => ((hA.eigenvalues i ^ k : ℝ) : 𝕜)) := by
      ext i j
      by_cases hij : i = j
      · subst hij
        simp [RCLike.real_smul_eq_coe_mul]
      · simp [hij]
    rw [hd, Matrix.mul_smul, Matrix.smul_mul]

/-- The expectation value of a polynomial, for a basis of eigenvectors. -/
theorem expectation_diag {W : Matrix (Fin n) (Fin n) 𝕜} (f : Fin n → ℝ) (v : Fin n → 𝕜) :
    RCLike.re (star v ⬝ᵥ ((W * diagonal (fun i => (f i : 𝕜)) * Wᴴ) *ᵥ v)) = ∑ i, ‖(Wᴴ *ᵥ v) i‖ ^ 2 * f i := by
  rw [← mulVec_mulVec, ← mulVec_mulVec]
  have h1 : star v ⬝ᵥ (W *ᵥ (diagonal (fun i => (f i : 𝕜)) *ᵥ (Wᴴ *ᵥ v))) =
      star (Wᴴ *ᵥ v) ⬝ᵥ (diagonal (fun i => (f i : 𝕜)) *ᵥ (Wᴴ *ᵥ v)) := by
    rw [dotProduct_mulVec, star_mulVec, conjTranspose_conjTranspose]
  rw [h1]
  simp only [dotProduct, mulVec_diagonal, Pi.star_apply, map_sum]
  refine Finset.sum_congr rfl fun i _ => ?_
  have : star ((Wᴴ *ᵥ v) i) * ((f i : 𝕜) * (Wᴴ *ᵥ v) i) = (f i : 𝕜) * (star ((Wᴴ *ᵥ v) i) * (Wᴴ *ᵥ v) i) := by ring
  rw [this, RCLike.star_def, RCLike.conj_mul, ← RCLike.ofReal_pow, ← RCLike.ofReal_mul, RCLike.ofReal_re, mul_comm]

/-- A polynomial of a Hermitian matrix, in terms of the eigenvalues. -/
theorem expectation_poly {A : Matrix (Fin n) (Fin n) 𝕜} (hA : A.IsHermitian) (v : Fin n → 𝕜) :
    ∃ c : Fin n → ℝ, (∀ i, 0 ≤ c i) ∧ ∀ p : ℝ[X],
      RCLike.re (star v ⬝ᵥ (aeval A p *ᵥ v)) = ∑ i, c i * p.eval (hA.eigenvalues i) := by
  obtain ⟨W, -, -, -, key⟩ := poly_spectral hA
  exact ⟨fun i => ‖(Wᴴ *ᵥ v) i‖ ^ 2, fun i => by positivity, fun p => by rw [key, expectation_diag]⟩

theorem dot_norms (v : Fin n → 𝕜) : RCLike.re (star v ⬝ᵥ v) = ∑ i, ‖v i‖ ^ 2 := by
  rw [dot_self, reDot_self, RCLike.ofReal_re]

/-- An eigenvalue is between the bounds. -/
theorem eigenvalue_bounds {A : Matrix (Fin n) (Fin n) 𝕜} (hA : A.IsHermitian) {lo hi : ℝ} (hl : LowerBound A lo)
    (hu : UpperBound A hi) (i : Fin n) : lo ≤ hA.eigenvalues i ∧ hA.eigenvalues i ≤ hi := by
  classical
  set e : Fin n → 𝕜 := ⇑(hA.eigenvectorBasis i) with he
  have h1 : A *ᵥ e = hA.eigenvalues i • e := hA.mulVec_eigenvectorBasis i
  have h2 : RCLike.re (star e ⬝ᵥ e) = 1 := by
    rw [dot_norms]
    have := hA.eigenvectorBasis.orthonormal.1 i
    rw [EuclideanSpace.norm_eq, Real.sqrt_eq_one] at this
    exact this
  have h3 : RCLike.re (star e ⬝ᵥ (A *ᵥ e)) = hA.eigenvalues i := by
    rw [h1, dotProduct_smul, RCLike.smul_re, h2, mul_one]
  have h4 := hl e
  have h5 := hu e
  rw [← dot_norms, h2, h3, mul_one] at h4 h5
  exact ⟨h4, h5⟩

/-- If the spectrum of a Hermitian matrix is between -1 and 1 no moment is larger than the norm of the vector. -/
theorem moment_le {A : Matrix (Fin n) (Fin n) 𝕜} (hA : A.IsHermitian) (hl : LowerBound A (-1)) (hu : UpperBound A 1)
    (v : Fin n → 𝕜) (k : Nat) : |moment A v k| ≤ ∑ i, ‖v i‖ ^ 2 := by
  obtain ⟨c, hc, h⟩ := expectation_poly hA v
  have h0 := h 1
  simp only [map_one, one_mulVec, eval_one, mul_one] at h0
  rw [dot_norms] at h0
  rw [moment, chebVec, h, h0]
  refine (Finset.abs_sum_le_sum_abs _ _).trans (Finset.sum_le_sum fun i _ => ?_)
  rw [abs_mul, abs_of_nonneg (hc i)]
  have h1 := eigenvalue_bounds hA hl hu i
  have h2 := abs_eval_T_real_le_one k (abs_le.2 h1)
  calc c i * |(T ℝ k).eval (hA.eigenvalues i)| ≤ c i * 1 := mul_le_mul_of_nonneg_left h2 (hc i)
    _ = c i := mul_one _

theorem scaled_expectation (H : Matrix (Fin n) (Fin n) 𝕜) (s b : ℝ) (x : Fin n → 𝕜) :
    RCLike.re (star x ⬝ᵥ (scaled H s b *ᵥ x)) = s * (RCLike.re (star x ⬝ᵥ (H *ᵥ x)) - b * ∑ i, ‖x i‖ ^ 2) := by
  unfold scaled
  rw [smul_mulVec, sub_mulVec, smul_mulVec, one_mulVec, dotProduct_smul, dotProduct_sub, dotProduct_smul, smul_eq_mul, smul_eq_mul,
    RCLike.re_ofReal_mul, map_sub, RCLike.re_ofReal_mul, dot_norms]

/-- **C110** Where a Chebyshev expansion makes sense: if the spectrum is between three times the lowest energy and three times
the highest energy found, the scaled matrix has its spectrum between -1 and 1, and so no moment is larger than the norm. -/
theorem scale_spec (H : Matrix (Fin n) (Fin n) 𝕜) (hH : H.IsHermitian) {eMax eMin : ℝ} (hl : LowerBound H (3 * eMin))
    (hu : UpperBound H (-(3 * eMax))) {s b : ℝ} (h : aAndB eMax eMin = .ok (s, b)) :
    LowerBound (scaled H s b) (-1) ∧ UpperBound (scaled H s b) 1 ∧
      ∀ (v : Fin n → 𝕜) (k : Nat), |moment (scaled H s b) v k| ≤ ∑ i, ‖v i‖ ^ 2 := by
  unfold aAndB at h
  simp only at h
  split at h
  case isFalse => exact absurd h (by simp [ubOut])
  case isTrue hgap =>
    simp only [Except.ok.injEq, Prod.mk.injEq] at h
    obtain ⟨hs, hb⟩ := h
    have hpos : 0 < -eMax * 3 - eMin * 3 := by linarith
    set N : (Fin n → 𝕜) → ℝ := fun x => ∑ i, ‖x i‖ ^ 2 with hN
    have h1 : LowerBound (scaled H s b) (-1) := by
      intro x
      rw [scaled_expectation, ← hs, ← hb]
      have := hl x
      rw [div_mul_eq_mul_div, le_div_iff₀ hpos]
      nlinarith
    have h2 : UpperBound (scaled H s b) 1 := by
      intro x
      rw [scaled_expectation, ← hs, ← hb]
      have := hu x
      rw [div_mul_eq_mul_div, div_le_iff₀ hpos]
      nlinarith
    exact ⟨h1, h2, moment_le (scaled_hermitian hH s b) h1 h2⟩

/-- **C110** In particular if the exact bounds of the spectrum are found, and the spectrum has zero in between. -/
theorem scale_exact (H : Matrix (Fin n) (Fin n) 𝕜) (hH : H.IsHermitian) {eMax eMin : ℝ} (hl : LowerBound H eMin)
    (hu : UpperBound H (-eMax)) (h0 : eMin ≤ 0) (h0' : 0 ≤ -eMax) {s b : ℝ} (h : aAndB eMax eMin = .ok (s, b)) (v : Fin n → 𝕜) (k : Nat) :
    |moment (scaled H s b) v k| ≤ ∑ i, ‖v i‖ ^ 2 := by
  refine (scale_spec H hH ?_ ?_ h).2.2 v k
  · intro x
    have := hl x
    have h2 : 0 ≤ ∑ i, ‖x i‖ ^ 2 := Finset.sum_nonneg fun i _ => by positivity
    nlinarith
  · intro x
    have := hu x
    have h2 : 0 ≤ ∑ i, ‖x i‖ ^ 2 := Finset.sum_nonneg fun i _ => by positivity
    nlinarith

theorem aeval_eigen {A : Matrix (Fin n) (Fin n) 𝕜} {v : Fin n → 𝕜} {x : ℝ} (h : A *ᵥ v = (x : 𝕜) • v) (p : ℝ[X]) :
    aeval A p *ᵥ v = ((p.eval x : ℝ) : 𝕜) • v := by
  induction p using Polynomial.induction_on' with
  | add p q hp hq => rw [map_add, add_mulVec, hp, hq, eval_add, RCLike.ofReal_add, add_smul]
  | monomial k a =>
    have hpow : ∀ k : Nat, (A ^ k) *ᵥ v = ((x ^ k : ℝ) : 𝕜) • v := by
      intro k
      induction k with
      | zero => simp
      | succ k ih => rw [pow_succ, ← mulVec_mulVec, h, mulVec_smul, ih, smul_smul, pow_succ]; push_cast; rw [mul_comm]
    rw [aeval_monomial, Algebra.algebraMap_eq_smul_one, smul_mul_assoc, one_mul, smul_mulVec, hpow, eval_monomial]
    rw [RCLike.real_smul_eq_coe_smul (K := 𝕜), smul_smul]
    push_cast
    rfl

/-- **C110** (finding) If all energies are positive, the exact bounds give a scaled matrix with an eigenvalue below -1: all
moments of the state with the lowest energy, besides the zeroth, are larger than its norm. -/
theorem scale_positive_fails (H : Matrix (Fin n) (Fin n) 𝕜) {eMax eMin : ℝ} (hpos : 0 < eMin) (v : Fin n → 𝕜) (hv : v ≠ 0)
    (he : H *ᵥ v = (eMin : 𝕜) • v) {s b : ℝ} (h : aAndB eMax eMin = .ok (s, b)) (k : Nat) (hk : 0 < k) :
    ∑ i, ‖v i‖ ^ 2 < |moment (scaled H s b) v k| := by
  unfold aAndB at h
  simp only at h
  split at h
  case isFalse => exact absurd h (by simp [ubOut])
  case isTrue hgap =>
    simp only [Except.ok.injEq, Prod.mk.injEq] at h
    obtain ⟨hs, hb⟩ := h
    have hg : 0 < -eMax * 3 - eMin * 3 := by linarith
    have h1 : scaled H s b *ᵥ v = ((s * (eMin - b) : ℝ) : 𝕜) • v := by
      unfold scaled
      rw [smul_mulVec, sub_mulVec, smul_mulVec, one_mulVec, he, ← sub_smul, smul_smul]
      push_cast
      rfl
    have h2 : s * (eMin - b) < -1 := by
      rw [← hs, ← hb, div_mul_eq_mul_div, div_lt_iff₀ hg]
      linarith
    have h3 : 0 < ∑ i, ‖v i‖ ^ 2 := by
      obtain ⟨i, hi⟩ := Function.ne_iff.1 hv
      refine Finset.sum_pos' (fun i _ => by positivity) ⟨i, Finset.mem_univ i, ?_⟩
      have : 0 < ‖v i‖ := norm_pos_iff.2 hi
      positivity
    rw [moment, chebVec, aeval_eigen h1, dotProduct_smul, smul_eq_mul, RCLike.re_ofReal_mul, dot_norms, abs_mul, abs_of_pos h3]
    have h4 : 1 < |(T ℝ k).eval (s * (eMin - b))| :=
      one_lt_abs_eval_T_real (by exact_mod_cast hk.ne') (by rw [abs_of_neg (by linarith)]; linarith)
    nlinarith

/-! ## The curve -/

/-- The value of the curve, from the numbers `c` (kernel times moments). -/
noncomputable def curve (q : PlotP) (c : Nat → ℝ) (N : Nat) (omega : ℝ) : ℝ :=
  open Classical in
  let x := (omega + q.eg - q.b) * q.oneOverA
  if 1 - x ^ 2 ≤ 1 / 10 ^ 12 then 0
  else (c 0 + 2 * ∑ i ∈ Finset.range N, c (i + 1) * (T ℝ ((i + 1 : Nat) : ℤ)).eval x) / Real.sqrt (1 - x ^ 2)

theorem plotLoop_spec (q : PlotP) (l : List ℝ) (f : ℝ → ℝ) (hf : ∀ w, plotAt q l w = some (f w)) :
    ∀ (result : List (ℝ × ℝ)) (omega : ℝ), result ≠ [] →
    ∃ out, plotLoop q l result omega = some out ∧ out.length = result.length ∧
      ∀ i < result.length, ((∀ j ≤ i, omega + j * q.delta < q.omega2) →
          out[i]? = some (omega + i * q.delta, f (omega + i * q.delta))) ∧
        ((∃ j ≤ i, q.omega2 ≤ omega + j * q.delta) → out[i]? = result[i]?) := by
  intro result
  induction result with
  | nil => intro _ h; exact absurd rfl h
  | cons p rest ih =>
    intro omega _
    rw [plotLoop]
    by_cases ho : omega < q.omega2
    · rw [if_pos ho, hf]
      simp only
      by_cases hr : rest = []
      · subst hr
        rw [if_pos rfl]
        refine ⟨_, rfl, rfl, fun i hi => ?_⟩
        simp only [List.length_cons, List.length_nil, zero_add, Nat.lt_one_iff] at hi
        subst hi
        refine ⟨fun _ => by simp, ?_⟩
        rintro ⟨j, hj, h⟩
        obtain rfl : j = 0 := by omega
        simp at h
        linarith
      · rw [if_neg hr]
        obtain ⟨out, e, h1, h2⟩ := ih (omega + q.delta) hr
        rw [e]
        refine ⟨_, rfl, by simp [h1], fun i hi => ?_⟩
        cases i with
        | zero =>
          refine ⟨fun _ => by simp, ?_⟩
          rintro ⟨j, hj, h⟩
          obtain rfl : j = 0 := by omega
          simp at h
          linarith
        | succ i =>
          have hi' : i < rest.length := by simpa using hi
          have hc : ∀ j : Nat, omega + q.delta + j * q.delta = omega + (j + 1 : Nat) * q.delta := by
            intro j; push_cast; ring
          obtain ⟨a1, a2⟩ := h2 i hi'
          rw [hc] at a1
          simp only [List.getElem?_cons_succ]
          refine ⟨fun h => a1 fun j hj => by rw [hc]; exact h (j + 1) (by omega), ?_⟩
          rintro ⟨j, hj, h⟩
          cases j with
          | zero => simp at h; linarith
          | succ j => exact a2 ⟨j, by omega, by rw [hc]; exact h⟩
    · rw [if_neg ho]
      refine ⟨_, rfl, rfl, fun i hi => ⟨fun h => ?_, fun _ => rfl⟩⟩
      have := h 0 (by omega)
      simp at this
      exact absurd this ho

/-- **C110** The curve: for an empty result and a positive step the points are at `omega1`, `omega1 + delta` and so on, as many
as there are whole steps, and the values are those of the series. -/
theorem plot_spec (k : Kernel) (cutoff : Nat) (la lb : List ℝ) (a b g : Nat → ℝ) (N : Nat)
    (hN : N + 1 = if cutoff = 0 ∨ la.length < cutoff then la.length else cutoff) (h6 : 5 ≤ N) (hl : lb.length = la.length)
    (ha : ∀ i < la.length, la[i]? = some (a i)) (hb : ∀ i < la.length, lb[i]? = some (b i))
    (hg : ∀ i < N + 1, (kernel k cutoff la.length)[i]? = some (g i)) (q : PlotP) (hd : 0 < q.delta)
    (h1 : q.delta ≤ q.omega2 - q.omega1) :
    ∃ out, plot k cutoff la lb q [] = some out ∧ out.length = ⌊(q.omega2 - q.omega1) / q.delta⌋₊ ∧
      ∀ i < out.length, out[i]? = some (q.omega1 + i * q.delta, curve q (fun i => g i * momentOf a b i) N (q.omega1 + i * q.delta)) := by
  obtain ⟨l, e, hlen, hc⟩ := plotMoments_spec k cutoff la lb a b g (N + 1) hN (by omega) hl ha hb hg
  have hf : ∀ w, plotAt q l w = some (curve q (fun i => g i * momentOf a b i) N w) := fun w => plotAt_spec q l _ N hlen hc w
  set m := ⌊(q.omega2 - q.omega1) / q.delta⌋₊ with hm
  have hm1 : 1 ≤ m := by
    rw [hm, Nat.one_le_floor_iff, le_div_iff₀ hd, one_mul]
    exact h1
  have hrep : List.replicate m ((0 : ℝ), (0 : ℝ)) ≠ [] := by
    intro h; rw [List.replicate_eq_nil_iff] at h; omega
  obtain ⟨out, e2, h2, h3⟩ := plotLoop_spec q l _ hf (List.replicate m (0, 0)) q.omega1 hrep
  rw [List.length_replicate] at h2 h3
  have hx : (-1 : ℝ) < (q.omega2 - q.omega1) / q.delta := by
    have : 0 ≤ (q.omega2 - q.omega1) / q.delta := div_nonneg (by linarith) hd.le
    linarith
  refine ⟨out, ?_, h2, fun i hi => ?_⟩
  · unfold plot
    simp only [e, bind, Option.bind_some]
    rw [if_neg hd.ne', toSize, if_pos hx]
    simp only [Option.bind_some, if_true]
    exact e2
  · rw [h2] at hi
    refine (h3 i hi).1 fun j hj => ?_
    have hfl : (m : ℝ) ≤ (q.omega2 - q.omega1) / q.delta := Nat.floor_le (div_nonneg (by linarith) hd.le)
    rw [le_div_iff₀ hd] at hfl
    have hj1 : ((j : ℝ) + 1) ≤ m := by exact_mod_cast (by omega : j + 1 ≤ m)
    nlinarith

/-- **C110** With a result that has been sized before: every point before `omega2` is written, and the others are left. -/
theorem plot_sized (k : Kernel) (cutoff : Nat) (la lb : List ℝ) (a b g : Nat → ℝ) (N : Nat)
    (hN : N + 1 = if cutoff = 0 ∨ la.length < cutoff then la.length else cutoff) (h6 : 5 ≤ N) (hl : lb.length = la.length)
    (ha : ∀ i < la.length, la[i]? = some (a i)) (hb : ∀ i < la.length, lb[i]? = some (b i))
    (hg : ∀ i < N + 1, (kernel k cutoff la.length)[i]? = some (g i)) (q : PlotP) (hd : 0 < q.delta)
    (h1 : q.omega1 ≤ q.omega2) (result : List (ℝ × ℝ)) (hr : result ≠ []) :
    ∃ out, plot k cutoff la lb q result = some out ∧ out.length = result.length ∧
      ∀ i < out.length, out[i]? = if q.omega1 + i * q.delta < q.omega2
        then some (q.omega1 + i * q.delta, curve q (fun i => g i * momentOf a b i) N (q.omega1 + i * q.delta)) else result[i]? := by
  obtain ⟨l, e, hlen, hc⟩ := plotMoments_spec k cutoff la lb a b g (N + 1) hN (by omega) hl ha hb hg
  have hf : ∀ w, plotAt q l w = some (curve q (fun i => g i * momentOf a b i) N w) := fun w => plotAt_spec q l _ N hlen hc w
  obtain ⟨out, e2, h2, h3⟩ := plotLoop_spec q l _ hf result q.omega1 hr
  have hx : (-1 : ℝ) < (q.omega2 - q.omega1) / q.delta := by
    have : 0 ≤ (q.omega2 - q.omega1) / q.delta := div_nonneg (by linarith) hd.le
    linarith
  refine ⟨out, ?_, h2, fun i hi => ?_⟩
  · unfold plot
    simp only [e, bind, Option.bind_some]
    rw [if_neg hd.ne', toSize, if_pos hx]
    simp only [Option.bind_some, if_neg hr]
    exact e2
  · rw [h2] at hi
    by_cases hw : q.omega1 + i * q.delta < q.omega2
    · rw [if_pos hw]
      refine (h3 i hi).1 fun j hj => ?_
      have : (j : ℝ) ≤ i := by exact_mod_cast hj
      nlinarith
    · rw [if_neg hw]
      exact (h3 i hi).2 ⟨i, le_rfl, not_lt.1 hw⟩

/-- **C110** (finding) If the step is larger than the interval an empty result is written past its end. -/
theorem plot_step_fails (k : Kernel) (cutoff : Nat) (la lb : List ℝ) (q : PlotP) (h1 : q.omega1 < q.omega2)
    (h2 : q.omega2 - q.omega1 < q.delta) : plot k cutoff la lb q [] = none := by
  have hd : 0 < q.delta := by linarith
  have h0 : 0 ≤ (q.omega2 - q.omega1) / q.delta := div_nonneg (by linarith) hd.le
  have hfl : ⌊(q.omega2 - q.omega1) / q.delta⌋₊ = 0 := by
    rw [Nat.floor_eq_zero, div_lt_one hd]; exact h2
  unfold plot
  cases plotMoments k cutoff la lb with
  | none => rfl
  | some l =>
    simp only [bind, Option.bind_some]
    rw [if_neg hd.ne', toSize, if_pos (by linarith : (-1 : ℝ) < _), hfl]
    simp only [Option.bind_some, List.replicate_zero, if_true, plotLoop, if_pos h1]

/-! ## Examples -/

/-- The hypotheses of `scale_exact`: the energies -1 and 1. -/
example : let H : Matrix (Fin 2) (Fin 2) ℝ := diagonal ![-1, 1]
    H.IsHermitian ∧ LowerBound H (-1) ∧ UpperBound H (-(-1)) ∧ ∃ s b, aAndB (-1) (-1) = .ok (s, b) := by
  refine ⟨by simp [Matrix.IsHermitian], fun x => ?_, fun x => ?_, 1 / 3, 0, ?_⟩
  · simp [dotProduct, mulVec_diagonal, Fin.sum_univ_two]
    nlinarith [mul_self_nonneg (x 0), mul_self_nonneg (x 1)]
  · simp [dotProduct, mulVec_diagonal, Fin.sum_univ_two]
    nlinarith [mul_self_nonneg (x 0), mul_self_nonneg (x 1)]
  · unfold aAndB
    norm_num

/-- The hypotheses of `scale_positive_fails`: the energies 1 and 2. -/
example : let H : Matrix (Fin 2) (Fin 2) ℝ := diagonal ![1, 2]
    H *ᵥ ![1, 0] = ((1 : ℝ) : ℝ) • ![1, 0] ∧ ∃ s b, aAndB (-2) 1 = .ok (s, b) := by
  refine ⟨?_, 2 / 3, 9 / 2, ?_⟩
  · ext i; fin_cases i <;> simp [mulVec_diagonal]
  · unfold aAndB
    norm_num

/-- A curve of eight moments with the step 1/2 on the interval from 0 to 2 has four points. -/
example : ∃ out, plot .dirichlet 0 (List.replicate 8 1) (List.replicate 8 1) ⟨0, 2, 1 / 2, 0, 0, 1 / 4⟩ [] = some out ∧
    out.length = 4 := by
  obtain ⟨out, h1, h2, _⟩ := plot_spec .dirichlet 0 (List.replicate 8 1) (List.replicate 8 1) (fun _ => 1) (fun _ => 1) (fun _ => 1) 7
    (by simp) (by omega) (by simp) (fun i hi => by rw [List.length_replicate] at hi; interval_cases i <;> rfl)
    (fun i hi => by rw [List.length_replicate] at hi; interval_cases i <;> rfl)
    (fun i hi => by interval_cases i <;> rfl) ⟨0, 2, 1 / 2, 0, 0, 1 / 4⟩ (by norm_num) (by norm_num)
  refine ⟨out, h1, h2.trans ?_⟩
  norm_num

end Verif.Krylov
