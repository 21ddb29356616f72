import Verif.Krylov.PropsSolver
import Mathlib.Analysis.Matrix.Spectrum
import Mathlib.Analysis.Matrix.Order
import Mathlib.Data.Fin.Tuple.Sort
import Mathlib.Tactic.Linarith
import Mathlib.Tactic.FinCases
import Mathlib.Tactic.NormNum
import Mathlib.Tactic.IntervalCases

/-!
# C75: energies and states of the Lanczos solver
-/

namespace Verif.Krylov

open Verif.Loop Verif.Dense Matrix

variable {𝕜 : Type} [RCLike 𝕜] {n : Nat}

/-- There is such a `diag`. -/
theorem diagonalizes_exists : ∃ diag : Mat 𝕜 → List ℝ × Mat 𝕜, Diagonalizes diag := by
  classical
  have key : ∀ m : Mat 𝕜, ∃ x : List ℝ × Mat 𝕜, ∀ (k : Nat) (T : Matrix (Fin k) (Fin k) 𝕜), Represents m k k T → T.IsHermitian →
      ∃ (w : Fin k → ℝ) (U : Matrix (Fin k) (Fin k) 𝕜), x.1 = List.ofFn w ∧ Represents x.2 k k U ∧
      Uᴴ * U = 1 ∧ T * U = U * diagonal (fun i => (w i : 𝕜)) ∧ Monotone w := by
    intro m
    by_cases h : ∃ (k : Nat) (T : Matrix (Fin k) (Fin k) 𝕜), Represents m k k T ∧ T.IsHermitian
    · obtain ⟨k, T, h1, h2⟩ := h
      set σ := Tuple.sort h2.eigenvalues with hσ
      set W : Matrix (Fin k) (Fin k) 𝕜 := (h2.eigenvectorUnitary : Matrix (Fin k) (Fin k) 𝕜) with hW
      set U : Matrix (Fin k) (Fin k) 𝕜 := W.submatrix id σ with hU
      have hWW : Wᴴ * W = 1 := by
        have := Unitary.coe_star_mul_self h2.eigenvectorUnitary
        exact this
      have hTW : T * W = W * diagonal (fun i => (h2.eigenvalues i : 𝕜)) := by
        have h3 := h2.spectral_theorem
        have h4 : T = W * diagonal (fun i => (h2.eigenvalues i : 𝕜)) * Wᴴ := h3
        conv_lhs => rw [h4]
        rw [Matrix.mul_assoc, hWW, Matrix.mul_one]
      refine ⟨(List.ofFn fun i => h2.eigenvalues (σ i), ⟨k, k, List.ofFn fun x : Fin (k * k) =>
        U ⟨x.1 % k, Nat.mod_lt _ (Nat.pos_of_ne_zero (by rintro rfl; exact absurd x.2 (by simp)))⟩
          ⟨x.1 / k, Nat.div_lt_of_lt_mul x.2⟩⟩), ?_⟩
      intro k' T' h1' _
      obtain rfl : k = k' := h1.nrow.symm.trans h1'.nrow
      obtain rfl : T = T' := by
        ext i j
        have e1 := h1.entry i j
        rw [h1'.entry i j] at e1
        exact (Option.some.inj e1).symm
      refine ⟨fun i => h2.eigenvalues (σ i), U, rfl, ?_, ?_, ?_, Tuple.monotone_sort h2.eigenvalues⟩
      · refine Represents.of_data ⟨rfl, rfl, by simp⟩ ?_
        intro i j
        have hlt : i.1 + j.1 * k < k * k := idx_lt i.2 j.2
        rw [List.getElem?_eq_getElem (by simpa using hlt), List.getElem_ofFn]
        congr 2
        · apply Fin.ext
          simp only
          rw [Nat.add_mul_mod_self_right, Nat.mod_eq_of_lt i.2]
        · apply Fin.ext
          simp only
          rw [Nat.add_mul_div_right _ _ (by have := i.2; omega), Nat.div_eq_of_lt i.2, Nat.zero_add]
      · rw [hU, conjTranspose_submatrix, submatrix_mul _ _ _ _ _ Function.bijective_id |>.symm, hWW]
        ext i j
        simp [one_apply]
      · ext i j
        have := congrFun (congrFun hTW i) (σ j)
        rw [mul_diagonal] at this
        rw [mul_diagonal, hU]
        exact this
    · exact ⟨([], ⟨0, 0, []⟩), fun k T h1 h2 => absurd ⟨k, T, h1, h2⟩ h⟩
  choose f hf using key
  exact ⟨f, fun k m T => hf m k T⟩

/-- What `computeOneState` does, in terms of the run. -/
theorem oneState_run (p : SolverP 𝕜 n) (steps : Nat) (init z0 : Fin n → 𝕜) (excited : Nat) {r : Result 𝕜 n}
    (hr : decompositionD p steps init excited = some r) (hl : r.data.length = r.steps) {v : Nat → Fin n → 𝕜}
    (hv : ∀ i < r.steps, r.data[i]? = some (v i)) {ritz : Mat 𝕜}
    (hb : buildDense (fun x : ℝ => (x : 𝕜)) r.a r.b ⟨0, 0, []⟩ 0 = some ritz) {w : Fin r.steps → ℝ} {U : Matrix (Fin r.steps) (Fin r.steps) 𝕜}
    (hw : (p.diag ritz).1 = List.ofFn w) (hU : Represents (p.diag ritz).2 r.steps r.steps U) :
    (r.steps ≤ excited → computeOneState p steps z0 init excited = ubOut) ∧
    ∀ he : excited < r.steps, computeOneState p steps z0 init excited =
      (open Classical in if Real.sqrt (reDot (z0 + cols v r.steps *ᵥ fun j => U j ⟨excited, he⟩)
        (z0 + cols v r.steps *ᵥ fun j => U j ⟨excited, he⟩)) < 1 / 1000000 then throwOut
      else .ok (w ⟨excited, he⟩, z0 + cols v r.steps *ᵥ fun j => U j ⟨excited, he⟩, r.steps)) := by
  constructor
  · intro he
    unfold computeOneState
    have : (p.diag ritz).1[excited]? = none := by
      rw [hw]
      exact List.getElem?_eq_none (by simpa using he)
    simp [hr, hb, this]
  · intro he
    have h1 : (p.diag ritz).1[excited]? = some (w ⟨excited, he⟩) := by
      rw [hw, List.getElem?_eq_getElem (by simpa using he)]
      simp
    have h2 : column (p.diag ritz).2 excited = some fun j => ((p.diag ritz).2.get j excited).getD 0 := by
      unfold column
      rw [if_pos (by rw [hU.ncol]; exact he)]
    have h3 := excitedVector_spec r.data v (fun i hi => hv i (by omega)) (fun j => ((p.diag ritz).2.get j excited).getD 0) z0
    have h4 : (cols v r.data.length *ᵥ fun j => ((p.diag ritz).2.get j excited).getD 0) =
        cols v r.steps *ᵥ fun j => U j ⟨excited, he⟩ := by
      have e : ∀ (k : Nat) (hk : k = r.steps), (cols v k *ᵥ fun j => ((p.diag ritz).2.get j.1 excited).getD 0) =
          cols v r.steps *ᵥ fun j => U j ⟨excited, he⟩ := by
        rintro k rfl
        congr 1
        funext j
        rw [hU.entry j ⟨excited, he⟩]
        rfl
      exact e _ hl
    rw [h4] at h3
    unfold computeOneState
    simp [hr, hb, h1, h2, h3]

theorem Independent.le {H : Matrix (Fin n) (Fin n) 𝕜} {init : Fin n → 𝕜} {m k : Nat} (h : Independent H init m) (hk : k ≤ m) :
    Independent H init k := LinearIndependent.comp h (Fin.castLE hk) (Fin.castLE_injective hk)

/-- The same, where only as many powers as there are steps have to be independent. -/
theorem oneState_steps (p : SolverP 𝕜 n) (H : Matrix (Fin n) (Fin n) 𝕜) (hp : p.mul = (H *ᵥ ·)) (hH : H.IsHermitian) (hs : SameSize p)
    (hd : Diagonalizes p.diag) (steps : Nat) (init : Fin n → 𝕜) (h2 : 2 ≤ min steps n) (hmin : n ≤ 4 ∨ p.minSteps < min steps n)
    (h0 : init ≠ 0) (excited : Nat)
    (hi : ∀ k, 2 ≤ k → k ≤ min steps n → (excited = 0 → 0 < p.tolerance → k = if n ≤ 4 then 2 else max p.minSteps 1 + 1) → Independent H init k) :
    (∃ k ≤ excited, 2 ≤ k ∧ k ≤ min steps n ∧ computeOneState p steps 0 init excited = ubOut) ∨
    ∃ (E : ℝ) (z : Fin n → 𝕜) (k : Nat), computeOneState p steps 0 init excited = .ok (E, z, k) ∧
      excited < k ∧ 2 ≤ k ∧ k ≤ min steps n ∧
      (excited = 0 → 0 < p.tolerance → k = if n ≤ 4 then 2 else max p.minSteps 1 + 1) ∧ Ritz H (Powers H init k) E z ∧
      (∀ μ, LowerBound H μ → μ ≤ E) ∧
      (excited = 0 → ∀ x ∈ Powers H init k, E * ∑ i, ‖x i‖ ^ 2 ≤ RCLike.re (star x ⬝ᵥ (H *ᵥ x))) ∧
      (k = n → H *ᵥ z = (E : 𝕜) • z) := by
  obtain ⟨r, hr, g1, g2, g3, hl, v, a, b, ritz, w, U, hv, hv0, hb, hw, hU, u1, u2, u3, hmain⟩ :=
    run_spec p H hp hH hs hd steps init h0 h2 hmin excited
  obtain ⟨m1, m2, m3⟩ := hmain _ (le_refl _) (hi _ g1 g2 g3)
  obtain ⟨q1, q2⟩ := oneState_run p steps init 0 excited hr hl hv hb hw hU
  by_cases he : excited < r.steps
  · right
    have hR := ritz_column H (cols v r.steps) _ U w m1 m2 u1 u2 _ m3 ⟨excited, he⟩
    refine ⟨w ⟨excited, he⟩, cols v r.steps *ᵥ fun j => U j ⟨excited, he⟩, r.steps, ?_, he, g1, g2, g3, hR,
      fun μ hμ => hR.bound hμ, ?_, ?_⟩
    · rw [q2 he, zero_add, if_neg]
      have : reDot (cols v r.steps *ᵥ fun j => U j ⟨excited, he⟩) (cols v r.steps *ᵥ fun j => U j ⟨excited, he⟩) = 1 := by
        have := hR.unit
        rw [dot_self] at this
        exact_mod_cast this
      rw [this, Real.sqrt_one]
      norm_num
    · intro hz q hq
      -- expand the vector in the eigenvectors of the tridiagonal matrix
      obtain ⟨y, hy⟩ := (m3 q).2 hq
      have hUU : U * Uᴴ = 1 := mul_eq_one_comm.1 u1
      obtain ⟨x, hyx⟩ : ∃ x, y = U *ᵥ x := ⟨Uᴴ *ᵥ y, by rw [mulVec_mulVec, hUU, one_mulVec]⟩
      have hst : ∀ t : Fin r.steps → 𝕜, star (cols v r.steps *ᵥ t) = star t ᵥ* (cols v r.steps)ᴴ := fun t => star_mulVec _ _
      have hsu : ∀ t : Fin r.steps → 𝕜, star (U *ᵥ t) = star t ᵥ* Uᴴ := fun t => star_mulVec _ _
      have hnorm : ((∑ i, ‖q i‖ ^ 2 : ℝ) : 𝕜) = ((∑ i, ‖x i‖ ^ 2 : ℝ) : 𝕜) := by
        rw [← reDot_self, ← reDot_self, ← dot_self, ← dot_self, hy, hst, dotProduct_mulVec, vecMul_vecMul, m1, vecMul_one, hyx, hsu,
          dotProduct_mulVec, vecMul_vecMul, u1, vecMul_one]
      have hen : star q ⬝ᵥ (H *ᵥ q) = ((∑ i, w i * ‖x i‖ ^ 2 : ℝ) : 𝕜) := by
        rw [hy, hst, mulVec_mulVec, dotProduct_mulVec, vecMul_vecMul, ← Matrix.mul_assoc, m2, ← dotProduct_mulVec, hyx, mulVec_mulVec, u2,
          hsu, dotProduct_mulVec, vecMul_vecMul, ← Matrix.mul_assoc, u1, Matrix.one_mul, ← dotProduct_mulVec]
        simp only [dotProduct, mulVec_diagonal, Pi.star_apply]
        rw [RCLike.ofReal_sum]
        refine Finset.sum_congr rfl fun i _ => ?_
        rw [RCLike.ofReal_mul, RCLike.ofReal_pow, ← RCLike.conj_mul, RCLike.star_def]
        ring
      have hn' : ∑ i, ‖q i‖ ^ 2 = ∑ i, ‖x i‖ ^ 2 := by exact_mod_cast hnorm
      rw [hen, RCLike.ofReal_re, hn', Finset.mul_sum]
      refine Finset.sum_le_sum fun i _ => mul_le_mul_of_nonneg_right (u3 ?_) (by positivity)
      subst hz
      exact Fin.mk_le_of_le_val (Nat.zero_le _)
    · intro hk
      have hcol : tri (fun i => (a i : 𝕜)) (fun i => (b i : 𝕜)) r.steps *ᵥ (fun j => U j ⟨excited, he⟩) =
          (w ⟨excited, he⟩ : 𝕜) • fun j => U j ⟨excited, he⟩ := by
        funext i
        have := congrFun (congrFun u2 i) ⟨excited, he⟩
        rw [mul_diagonal] at this
        rw [Pi.smul_apply, smul_eq_mul, mul_comm, ← this]
        rfl
      exact (ritz_spec H r.steps (cols v r.steps) _ m1 m2 _ _ hcol).2 hk
  · exact .inl ⟨r.steps, by omega, g1, g2, q1 (by omega)⟩

/-- No vector of the space of the powers is an eigenvector, if one more power is independent. -/
theorem no_eigenvector {H : Matrix (Fin n) (Fin n) 𝕜} {init : Fin n → 𝕜} {k : Nat} (hi : Independent H init (k + 1)) {z : Fin n → 𝕜}
    (hz : z ∈ Powers H init k) (h0 : z ≠ 0) {E : 𝕜} (he : H *ᵥ z = E • z) : False := by
  obtain ⟨g, rfl⟩ := (Submodule.mem_span_range_iff_exists_fun 𝕜).1 hz
  let c : Nat → 𝕜 := fun i => if h : i < k then g ⟨i, h⟩ else 0
  have hc : ∀ i : Fin k, c i.1 = g i := fun i => by simp [c]
  have e1 : ∑ i : Fin (k + 1), ((if i.1 = 0 then 0 else c (i.1 - 1)) - E * c i.1) • (H ^ i.1 *ᵥ init) = 0 := by
    have a1 : ∑ i : Fin (k + 1), (if i.1 = 0 then 0 else c (i.1 - 1)) • (H ^ i.1 *ᵥ init) = H *ᵥ ∑ i : Fin k, g i • (H ^ i.1 *ᵥ init) := by
      rw [Fin.sum_univ_succ, mulVec_sum]
      simp only [Fin.val_zero, if_true, zero_smul, zero_add, Fin.val_succ, Nat.succ_ne_zero, if_false, Nat.add_sub_cancel]
      refine Finset.sum_congr rfl fun i _ => ?_
      rw [hc, mulVec_smul, mulVec_mulVec, ← pow_succ']
    have a2 : ∑ i : Fin (k + 1), (E * c i.1) • (H ^ i.1 *ᵥ init) = E • ∑ i : Fin k, g i • (H ^ i.1 *ᵥ init) := by
      rw [Fin.sum_univ_castSucc, Finset.smul_sum]
      have : c k = 0 := by simp [c]
      simp only [Fin.val_last, this, mul_zero, zero_smul, add_zero, Fin.val_castSucc]
      refine Finset.sum_congr rfl fun i _ => ?_
      rw [hc, smul_smul]
    simp only [sub_smul, Finset.sum_sub_distrib]
    rw [a1, a2, he, sub_self]
  have e2 := Fintype.linearIndependent_iff.1 hi _ e1
  have e3 : ∀ d i, i + d = k → c i = 0 := by
    intro d
    induction d with
    | zero => intro i h; simp [c, show ¬ i < k by omega]
    | succ d ih =>
      intro i h
      have := e2 ⟨i + 1, by omega⟩
      simpa [ih (i + 1) (by omega)] using this
  refine h0 (Finset.sum_eq_zero fun i _ => ?_)
  rw [← hc, e3 (k - i.1) i.1 (by omega), zero_smul]

open scoped ComplexOrder in
/-- A vector whose expectation value is the lowest one is an eigenvector. -/
theorem lowest_eigen {H : Matrix (Fin n) (Fin n) 𝕜} (hH : H.IsHermitian) {μ : ℝ} (hμ : LowerBound H μ) {z : Fin n → 𝕜} (h1 : star z ⬝ᵥ z = 1)
    (h2 : star z ⬝ᵥ (H *ᵥ z) = (μ : 𝕜)) : H *ᵥ z = (μ : 𝕜) • z := by
  have hpos : (H - (μ : 𝕜) • (1 : Matrix (Fin n) (Fin n) 𝕜)).PosSemidef := by
    refine Matrix.PosSemidef.of_dotProduct_mulVec_nonneg ?_ fun x => ?_
    · refine hH.sub ?_
      unfold Matrix.IsHermitian
      rw [conjTranspose_smul, conjTranspose_one, RCLike.star_def, RCLike.conj_ofReal]
    · have hh := (hH.sub (show ((μ : 𝕜) • (1 : Matrix (Fin n) (Fin n) 𝕜)).IsHermitian by
        unfold Matrix.IsHermitian
        rw [conjTranspose_smul, conjTranspose_one, RCLike.star_def, RCLike.conj_ofReal])).im_star_dotProduct_mulVec_self x
      rw [RCLike.nonneg_iff]
      refine ⟨?_, hh⟩
      rw [sub_mulVec, dotProduct_sub, smul_mulVec, one_mulVec, dotProduct_smul, map_sub, dot_self, smul_eq_mul, ← RCLike.ofReal_mul,
        RCLike.ofReal_re, reDot_self]
      linarith [hμ x]
  have := (hpos.dotProduct_mulVec_zero_iff z).1 (by
    rw [sub_mulVec, dotProduct_sub, h2, smul_mulVec, one_mulVec, dotProduct_smul, h1, smul_eq_mul, mul_one, sub_self])
  rw [sub_mulVec, smul_mulVec, one_mulVec, sub_eq_zero] at this
  exact this

/-- **C75** `computeOneState` with a vector of zeros, for a Hermitian matrix and a start vector whose powers are independent:
it returns a normalized vector whose expectation value is the energy returned, in the space of the powers of the matrix
applied to the start vector; what is left of `H z - E z` is orthogonal to that space.  The energy is not below any lower
bound of the matrix, for the ground state it is the lowest expectation value of that space, and with as many
steps as rows energy and vector are exact. -/
theorem oneState_spec (p : SolverP 𝕜 n) (H : Matrix (Fin n) (Fin n) 𝕜) (hp : p.mul = (H *ᵥ ·)) (hH : H.IsHermitian) (hs : SameSize p)
    (hd : Diagonalizes p.diag) (steps : Nat) (init : Fin n → 𝕜) (h2 : 2 ≤ min steps n) (hmin : n ≤ 4 ∨ p.minSteps < min steps n)
    (hi : Independent H init (min steps n)) (excited : Nat) :
    (∃ k ≤ excited, 2 ≤ k ∧ k ≤ min steps n ∧ computeOneState p steps 0 init excited = ubOut) ∨
    ∃ (E : ℝ) (z : Fin n → 𝕜) (k : Nat), computeOneState p steps 0 init excited = .ok (E, z, k) ∧
      excited < k ∧ 2 ≤ k ∧ k ≤ min steps n ∧
      (excited = 0 → 0 < p.tolerance → 4 < n → k = max p.minSteps 1 + 1) ∧ Ritz H (Powers H init k) E z ∧
      (∀ μ, LowerBound H μ → μ ≤ E) ∧
      (excited = 0 → ∀ x ∈ Powers H init k, E * ∑ i, ‖x i‖ ^ 2 ≤ RCLike.re (star x ⬝ᵥ (H *ᵥ x))) ∧
      (k = n → H *ᵥ z = (E : 𝕜) • z) := by
  have h0 : init ≠ 0 := by
    rintro rfl
    have := hi.ne_zero (⟨0, by omega⟩ : Fin (min steps n))
    simp at this
  rcases oneState_steps p H hp hH hs hd steps init h2 hmin h0 excited (fun k _ h _ => hi.le h) with h | ⟨E, z, k, h, q1, q2, q3, q4, q5⟩
  · exact .inl h
  · refine .inr ⟨E, z, k, h, q1, q2, q3, fun he ht hn => ?_, q5⟩
    have := q4 he ht
    rwa [if_neg (by omega)] at this

/-- **C75** The ground state, with a tolerance above zero: two steps for a matrix of at most four rows, else one more than `minSteps`.  If that
many powers are independent, the energy is the lowest expectation value of their space.  If one more is independent too, it is above the
lowest eigenvalue: the ground state is never exact. -/
theorem ground_inexact_fails (p : SolverP 𝕜 n) (H : Matrix (Fin n) (Fin n) 𝕜) (hp : p.mul = (H *ᵥ ·)) (hH : H.IsHermitian) (hs : SameSize p)
    (hd : Diagonalizes p.diag) (steps : Nat) (init : Fin n → 𝕜) (h2 : 2 ≤ min steps n) (hmin : n ≤ 4 ∨ p.minSteps < min steps n)
    (ht : 0 < p.tolerance) (k : Nat) (hk : k = if n ≤ 4 then 2 else max p.minSteps 1 + 1) (hi : Independent H init k) :
    ∃ (E : ℝ) (z : Fin n → 𝕜), computeOneState p steps 0 init 0 = .ok (E, z, k) ∧ Ritz H (Powers H init k) E z ∧
      (∀ μ, LowerBound H μ → μ ≤ E) ∧ (∀ x ∈ Powers H init k, E * ∑ i, ‖x i‖ ^ 2 ≤ RCLike.re (star x ⬝ᵥ (H *ᵥ x))) ∧
      (k = n → H *ᵥ z = (E : 𝕜) • z) ∧ (Independent H init (k + 1) → ∀ μ, LowerBound H μ → μ < E) := by
  have hk0 : 0 < k := by rw [hk]; split <;> omega
  have h0 : init ≠ 0 := by
    rintro rfl
    have := hi.ne_zero (⟨0, hk0⟩ : Fin k)
    simp at this
  rcases oneState_steps p H hp hH hs hd steps init h2 hmin h0 0 (fun j _ _ h => by rw [h rfl ht, ← hk]; exact hi) with
    ⟨j, h1, h3, -⟩ | ⟨E, z, j, e, -, q1, q2, q3, hR, hl, hE, hz⟩
  · omega
  obtain rfl : j = k := by rw [q3 rfl ht, hk]
  refine ⟨E, z, e, hR, hl, hE rfl, hz, fun hi' μ hμ => lt_of_le_of_ne (hl μ hμ) ?_⟩
  rintro rfl
  exact no_eigenvector hi' hR.space (fun h => by have := hR.unit; rw [h] at this; simp at this) (lowest_eigen hH hμ hR.unit hR.energy)

/-- **C75** A state beyond the number of steps is out of range: there is no check. -/
theorem oneState_range_fails (p : SolverP 𝕜 n) (H : Matrix (Fin n) (Fin n) 𝕜) (hp : p.mul = (H *ᵥ ·)) (hH : H.IsHermitian)
    (hs : SameSize p) (hd : Diagonalizes p.diag) (steps : Nat) (init z : Fin n → 𝕜) (h0 : init ≠ 0) (h2 : 2 ≤ min steps n)
    (hmin : n ≤ 4 ∨ p.minSteps < min steps n) (excited : Nat) (he : min steps n ≤ excited) :
    computeOneState p steps z init excited = ubOut := by
  obtain ⟨r, hr, g1, g2, -, hl, v, a, b, ritz, w, U, hv, hv0, hb, hw, hU, u1, u2, u3, hmain⟩ :=
    run_spec p H hp hH hs hd steps init h0 h2 hmin excited
  exact (oneState_run p steps init z excited hr hl hv hb hw hU).1 (by omega)

/-- **C75** For the ground state no eigenvalue is looked at: with any tolerance above zero, and any matrix with more than
four rows, there are `minSteps + 1` steps. -/
theorem ground_steps_fails (p : SolverP 𝕜 n) (H : Matrix (Fin n) (Fin n) 𝕜) (hp : p.mul = (H *ᵥ ·)) (hH : H.IsHermitian)
    (hs : SameSize p) (hd : Diagonalizes p.diag) (steps : Nat) (init : Fin n → 𝕜) (h0 : init ≠ 0) (hn : 4 < n) (h2 : 2 ≤ steps)
    (hmin : p.minSteps < min steps n) (ht : 0 < p.tolerance) :
    ∃ r, decompositionD p steps init 0 = some r ∧ r.steps = max p.minSteps 1 + 1 := by
  obtain ⟨r, hr, g1, g2, g3, -⟩ := run_spec p H hp hH hs hd steps init h0 (by omega) (.inr hmin) 0
  have := g3 rfl ht
  rw [if_neg (by omega)] at this
  exact ⟨r, hr, this⟩

/-- **C75** The vector given is not cleared: what it held is added to the state. -/
theorem oneState_adds (p : SolverP 𝕜 n) (H : Matrix (Fin n) (Fin n) 𝕜) (hp : p.mul = (H *ᵥ ·)) (hH : H.IsHermitian)
    (hs : SameSize p) (hd : Diagonalizes p.diag) (steps : Nat) (init : Fin n → 𝕜) (h2 : 2 ≤ min steps n)
    (hmin : n ≤ 4 ∨ p.minSteps < min steps n) (hi : Independent H init (min steps n)) (excited : Nat) (E : ℝ) (z : Fin n → 𝕜) (k : Nat)
    (h : computeOneState p steps 0 init excited = .ok (E, z, k)) (z0 : Fin n → 𝕜)
    (hz : 1 / 1000000 ≤ Real.sqrt (∑ i, ‖z0 i + z i‖ ^ 2)) :
    computeOneState p steps z0 init excited = .ok (E, z0 + z, k) := by
  have h0 : init ≠ 0 := by
    rintro rfl
    have := hi.ne_zero (⟨0, by omega⟩ : Fin (min steps n))
    simp at this
  obtain ⟨r, hr, g1, g2, -, hl, v, a, b, ritz, w, U, hv, hv0, hb, hw, hU, u1, u2, u3, hmain⟩ :=
    run_spec p H hp hH hs hd steps init h0 h2 hmin excited
  obtain ⟨q1, q2⟩ := oneState_run p steps init 0 excited hr hl hv hb hw hU
  obtain ⟨s1, s2⟩ := oneState_run p steps init z0 excited hr hl hv hb hw hU
  by_cases he : excited < r.steps
  · rw [q2 he, zero_add] at h
    split at h
    · cases h
    · simp only [Except.ok.injEq, Prod.mk.injEq] at h
      obtain ⟨rfl, rfl, rfl⟩ := h
      rw [s2 he, if_neg]
      rw [reDot_self]
      exact not_lt.2 hz
  · rw [q1 (by omega)] at h
    cases h

/-- The vectors of `computeAllStatesBelow`. -/
theorem allVectors_spec (data : List (Fin n → 𝕜)) (v : Nat → Fin n → 𝕜) (hv : ∀ i < data.length, data[i]? = some (v i)) (ritz : Mat 𝕜)
    (U : Matrix (Fin data.length) (Fin data.length) 𝕜) (hU : Represents ritz data.length data.length U) (zs : List (Fin n → 𝕜)) (m : Nat)
    (hm : m ≤ zs.length) :
    (data.length < m → allVectors data ritz m zs = none) ∧
    (m ≤ data.length → ∃ zs', allVectors data ritz m zs = some zs' ∧ zs'.length = zs.length ∧
      (∀ i, m ≤ i → zs'[i]? = zs[i]?) ∧
      ∀ i (hi : i < data.length), i < m → zs'[i]? = zs[i]?.map (· + cols v data.length *ᵥ fun j => U j ⟨i, hi⟩)) := by
  have step : ∀ k, k ≤ m → k ≤ data.length → ∃ zs', allVectors data ritz k zs = some zs' ∧ zs'.length = zs.length ∧
      (∀ i, k ≤ i → zs'[i]? = zs[i]?) ∧
      ∀ i (hi : i < data.length), i < k → zs'[i]? = zs[i]?.map (· + cols v data.length *ᵥ fun j => U j ⟨i, hi⟩) := by
    intro k
    induction k with
    | zero => exact fun _ _ => ⟨zs, rfl, rfl, fun _ _ => rfl, fun _ _ h => absurd h (by omega)⟩
    | succ k ih =>
      intro h1 h2
      obtain ⟨zs1, e1, e2, e3, e4⟩ := ih (by omega) (by omega)
      obtain ⟨z, hz⟩ : ∃ z, zs[k]? = some z := ⟨_, List.getElem?_eq_getElem (by omega)⟩
      have hcol : column ritz k = some fun j => (ritz.get j k).getD 0 := by
        unfold column
        rw [if_pos (by rw [hU.ncol]; omega)]
      have hx := excitedVector_spec data v hv (fun j => (ritz.get j k).getD 0) z
      have hy : (fun j : Fin data.length => (ritz.get j k).getD 0) = fun j => U j ⟨k, by omega⟩ := by
        funext j
        rw [hU.entry j ⟨k, by omega⟩]
        rfl
      rw [hy] at hx
      have hset := setAt_some (l := zs1) (i := k) (a := z + cols v data.length *ᵥ fun j => U j ⟨k, by omega⟩) (by omega)
      refine ⟨zs1.set k (z + cols v data.length *ᵥ fun j => U j ⟨k, by omega⟩), ?_, by simpa using e2, ?_, ?_⟩
      · unfold allVectors at e1 ⊢
        rw [loopN, e1]
        simp only [bind, Option.bind_some, e3 k (le_refl _), hz, hcol, hx, hset]
      · intro i hi
        rw [List.getElem?_set_ne (by omega), e3 i (by omega)]
      · intro i hi hik
        by_cases h : i = k
        · subst h
          rw [List.getElem?_set_self (by omega), hz]
          rfl
        · rw [List.getElem?_set_ne (by omega), e4 i hi (by omega)]
  constructor
  · intro hlt
    obtain ⟨zs1, e1, e2, e3, -⟩ := step data.length (by omega) (le_refl _)
    have hcol : column ritz data.length = none := by
      unfold column
      rw [if_neg (by rw [hU.ncol]; omega)]
    obtain ⟨d, rfl⟩ : ∃ d, m = data.length + 1 + d := ⟨m - (data.length + 1), by omega⟩
    have hz : ∃ z, zs[data.length]? = some z := ⟨_, List.getElem?_eq_getElem (by omega)⟩
    obtain ⟨z, hz⟩ := hz
    clear hlt hm step
    unfold allVectors at e1 ⊢
    induction d with
    | zero =>
      rw [Nat.add_zero, loopN, e1]
      simp [e3 _ (le_refl _), hz, hcol]
    | succ d ih =>
      rw [← Nat.add_assoc, loopN, ih]
      rfl
  · intro h
    exact step m (le_refl _) h

/-- **C75** `computeAllStatesBelow` with vectors of zeros: the first `min (excited + 1) (number of vectors)` vectors are
the states of the lowest eigenvalues, in order; the eigenvalues returned are all those of the run, in increasing order. -/
theorem allStates_spec (p : SolverP 𝕜 n) (H : Matrix (Fin n) (Fin n) 𝕜) (hp : p.mul = (H *ᵥ ·)) (hH : H.IsHermitian) (hs : SameSize p)
    (hd : Diagonalizes p.diag) (steps : Nat) (init : Fin n → 𝕜) (h2 : 2 ≤ min steps n) (hmin : n ≤ 4 ∨ p.minSteps < min steps n)
    (hi : Independent H init (min steps n)) (excited L : Nat) :
    ∃ k, 2 ≤ k ∧ k ≤ min steps n ∧
    (k < excited → computeAllStatesBelow p steps (List.replicate L 0) init excited = throwOut) ∧
    (excited = k → k < L → computeAllStatesBelow p steps (List.replicate L 0) init excited = ubOut) ∧
    ((excited < k ∨ excited = k ∧ L ≤ k) → ∃ (w : Fin k → ℝ) (zs : List (Fin n → 𝕜)),
      computeAllStatesBelow p steps (List.replicate L 0) init excited = .ok (List.ofFn w, zs, k) ∧
      Monotone w ∧ zs.length = L ∧
      (∀ i, i < L → excited < i → zs[i]? = some 0) ∧
      (∀ i (hi : i < k), i < L → i ≤ excited → ∃ z, zs[i]? = some z ∧ Ritz H (Powers H init k) (w ⟨i, hi⟩) z ∧ (k = n → H *ᵥ z = (w ⟨i, hi⟩ : 𝕜) • z)) ∧
      (∀ i j, i < j → j < L → j ≤ excited → ∀ z z', zs[i]? = some z → zs[j]? = some z' → star z ⬝ᵥ z' = 0)) := by
  have h0 : init ≠ 0 := by
    rintro rfl
    have := hi.ne_zero (⟨0, by omega⟩ : Fin (min steps n))
    simp at this
  obtain ⟨⟨k, data, ra, rb⟩, hr, g1, g2, -, hl, v, a, b, ritz, w, U, hv, hv0, hb, hw, hU, u1, u2, u3, hmain⟩ :=
    run_spec p H hp hH hs hd steps init h0 h2 hmin excited
  obtain ⟨m1, m2, m3⟩ := hmain _ g2 hi
  simp only at g1 g2 hl hv hb w U hw hU u1 u2 u3 m1 m2
  subst hl
  refine ⟨data.length, g1, g2, ?_, ?_, ?_⟩
  · intro h
    unfold computeAllStatesBelow
    rw [hr]
    simp [h]
  · intro h hL
    have hall := (allVectors_spec data v hv _ U hU (List.replicate L 0) (if L > excited + 1 then excited + 1 else L)
      (by split <;> simp <;> omega)).1 (by split <;> omega)
    unfold computeAllStatesBelow
    rw [hr]
    simp only
    rw [if_neg (by omega)]
    simp only [bind, hb, Option.bind_some, List.length_replicate, hall, Option.bind_none]
  · intro h
    obtain ⟨zs', hall, l1, l2, l3⟩ := (allVectors_spec data v hv _ U hU (List.replicate L 0) (if L > excited + 1 then excited + 1 else L)
      (by split <;> simp <;> omega)).2 (by split <;> omega)
    have hz : ∀ i (hi : i < data.length), i < L → i ≤ excited → zs'[i]? = some (cols v data.length *ᵥ fun j => U j ⟨i, hi⟩) := by
      intro i hi hiL hie
      rw [l3 i hi (by split <;> omega), List.getElem?_replicate, if_pos hiL]
      simp
    refine ⟨w, zs', ?_, u3, by simpa using l1, ?_, ?_, ?_⟩
    · unfold computeAllStatesBelow
      rw [hr]
      simp only
      rw [if_neg (by omega)]
      simp only [bind, hb, Option.bind_some, List.length_replicate, hall, hw, pure]
    · intro i hiL hie
      rw [l2 i (by split <;> omega), List.getElem?_replicate, if_pos hiL]
    · intro i hi hiL hie
      refine ⟨_, hz i hi hiL hie, ritz_column H (cols v data.length) _ U w m1 m2 u1 u2 _ m3 ⟨i, hi⟩, ?_⟩
      intro hk
      have hcol : tri (fun i => (a i : 𝕜)) (fun i => (b i : 𝕜)) data.length *ᵥ (fun j => U j ⟨i, hi⟩) =
          (w ⟨i, hi⟩ : 𝕜) • fun j => U j ⟨i, hi⟩ := by
        funext l
        have := congrFun (congrFun u2 l) ⟨i, hi⟩
        rw [mul_diagonal] at this
        rw [Pi.smul_apply, smul_eq_mul, mul_comm, ← this]
        rfl
      exact (ritz_spec H data.length (cols v data.length) _ m1 m2 _ _ hcol).2 hk
    · intro i j hij hjL hje z z' ez ez'
      have hj : j < data.length := by omega
      have hi' : i < data.length := by omega
      rw [hz i hi' (by omega) (by omega)] at ez
      rw [hz j hj hjL hje] at ez'
      cases ez
      cases ez'
      rw [star_mulVec, dotProduct_mulVec, vecMul_vecMul, m1, vecMul_one]
      have := congrFun (congrFun u1 ⟨i, hi'⟩) ⟨j, hj⟩
      rw [one_apply_ne (by simp; omega)] at this
      exact this

/-- **C75** The number of steps of a run limits the later runs of the same solver: after the ground state of a matrix with more
than four rows, with `minSteps` at most one, no state above the second can be asked for, whatever the start vector. -/
theorem reuse_fails (p : SolverP 𝕜 n) (H : Matrix (Fin n) (Fin n) 𝕜) (hp : p.mul = (H *ᵥ ·)) (hH : H.IsHermitian) (hs : SameSize p)
    (hd : Diagonalizes p.diag) (steps : Nat) (init : Fin n → 𝕜) (h2 : 2 ≤ steps) (hn : 4 < n) (hmin : p.minSteps ≤ 1)
    (ht : 0 < p.tolerance) (hi : Independent H init (min steps n)) :
    ∃ E z, computeOneState p steps 0 init 0 = .ok (E, z, 2) ∧
      ∀ excited, 2 ≤ excited → ∀ init' z', init' ≠ 0 → computeOneState p 2 z' init' excited = ubOut := by
  rcases oneState_spec p H hp hH hs hd steps init (by omega) (.inr (by omega)) hi 0 with ⟨k, g1, g2, -⟩ | ⟨E, z, k, g1, -, -, -, g2, -⟩
  · omega
  · obtain rfl : k = 2 := by have := g2 rfl ht hn; omega
    exact ⟨E, z, g1, fun excited he init' z' h0 => oneState_range_fails p H hp hH hs hd 2 init' z' h0 (by omega) (.inr (by omega)) excited (by omega)⟩

/-! ## Examples -/

/-- Five sites in a row, and the first site. -/
def path5 : Matrix (Fin 5) (Fin 5) ℝ := fun i j => if i.1 + 1 = j.1 ∨ j.1 + 1 = i.1 then 1 else 0

theorem path5_powers : (path5 ^ 0) *ᵥ ![1, 0, 0, 0, 0] = ![1, 0, 0, 0, 0] ∧ (path5 ^ 1) *ᵥ ![1, 0, 0, 0, 0] = ![0, 1, 0, 0, 0] ∧
    (path5 ^ 2) *ᵥ ![1, 0, 0, 0, 0] = ![1, 0, 1, 0, 0] ∧ (path5 ^ 3) *ᵥ ![1, 0, 0, 0, 0] = ![0, 2, 0, 1, 0] ∧
    (path5 ^ 4) *ᵥ ![1, 0, 0, 0, 0] = ![2, 0, 3, 0, 1] := by
  have h0 : (path5 ^ 0) *ᵥ ![1, 0, 0, 0, 0] = ![1, 0, 0, 0, 0] := by simp
  have hs : ∀ i v, (path5 ^ i) *ᵥ ![1, 0, 0, 0, 0] = v → (path5 ^ (i + 1)) *ᵥ ![1, 0, 0, 0, 0] = path5 *ᵥ v := by
    intro i v h
    rw [pow_succ', ← mulVec_mulVec, h]
  have hm : ∀ a b c d e : ℝ, path5 *ᵥ ![a, b, c, d, e] = ![b, a + c, b + d, c + e, d] := by
    intro a b c d e
    ext i
    fin_cases i <;> simp [path5, Matrix.mulVec, dotProduct, Fin.sum_univ_five]
  have h1 := hs 0 _ h0
  rw [hm] at h1
  have h2 := hs 1 _ h1
  rw [hm] at h2
  have h3 := hs 2 _ h2
  rw [hm] at h3
  have h4 := hs 3 _ h3
  rw [hm] at h4
  refine ⟨h0, ?_, ?_, ?_, ?_⟩
  · rw [h1]; norm_num
  · rw [h2]; norm_num
  · rw [h3]; norm_num
  · rw [h4]; norm_num

/-- The hypothesis about the powers is met. -/
theorem path5_independent : Independent path5 ![1, 0, 0, 0, 0] 5 := by
  obtain ⟨h0, h1, h2, h3, h4⟩ := path5_powers
  refine Fintype.linearIndependent_iff.2 ?_
  intro g hg
  rw [Fin.sum_univ_five] at hg
  simp only [Fin.isValue, Fin.val_zero, Fin.val_one, Fin.val_two, show ((3 : Fin 5) : Nat) = 3 from rfl, show ((4 : Fin 5) : Nat) = 4 from rfl,
    h0, h1, h2, h3, h4] at hg
  have e0 := congrFun hg 0
  have e1 := congrFun hg 1
  have e2 := congrFun hg 2
  have e3 := congrFun hg 3
  have e4 := congrFun hg 4
  simp at e0 e1 e2 e3 e4
  intro i
  fin_cases i <;> simp <;> linarith

theorem path5_hermitian : path5.IsHermitian := by
  ext i j
  simp only [conjTranspose_apply, path5, star_trivial]
  congr 1
  exact propext or_comm

/-- **C75** The ground state of five sites in a row, from the first site, with the steps limited only by the size of the
matrix and any tolerance, `minSteps` being one: two steps are made, and the energy is not below `-1`, although a vector has the
expectation value `-8/5`. -/
theorem ground_energy_fails (tolerance : ℝ) (ht : 0 < tolerance) (reortho : Bool) (eigs : List ℝ → List ℝ → Nat → List ℝ)
    (he : ∀ a b k, (eigs a b k).length = a.length) (diag : Mat ℝ → List ℝ × Mat ℝ) (hd : Diagonalizes diag) :
    ∃ E z, computeOneState ⟨(path5 *ᵥ ·), reortho, tolerance, 1, eigs, diag⟩ 5 0 ![1, 0, 0, 0, 0] 0 = .ok (E, z, 2) ∧ -1 ≤ E ∧
      ∃ x : Fin 5 → ℝ, x ≠ 0 ∧ x ⬝ᵥ (path5 *ᵥ x) = (-8 / 5) * (x ⬝ᵥ x) := by
  rcases oneState_spec ⟨(path5 *ᵥ ·), reortho, tolerance, 1, eigs, diag⟩ path5 rfl path5_hermitian he hd 5 ![1, 0, 0, 0, 0] (by decide)
    (.inr (show 1 < min 5 5 by decide)) path5_independent 0 with ⟨k, h1, h2, -⟩ | ⟨E, z, k, h1, -, -, -, h2, h3, -⟩
  · omega
  · obtain rfl : k = 2 := h2 rfl ht (by decide)
    refine ⟨E, z, h1, ?_, ![1, -1, 1, -1, 1], ?_, ?_⟩
    · obtain ⟨x, y, rfl⟩ : ∃ x y : ℝ, z = ![x, y, 0, 0, 0] := by
        have hz := h3.space
        unfold Powers at hz
        clear h1 h3
        induction hz using Submodule.span_induction with
        | mem z hz =>
          obtain ⟨i, rfl⟩ := hz
          fin_cases i
          · exact ⟨1, 0, path5_powers.1⟩
          · exact ⟨0, 1, path5_powers.2.1⟩
        | zero => exact ⟨0, 0, by ext i; fin_cases i <;> rfl⟩
        | add a b _ _ h1 h2 =>
          obtain ⟨x, y, rfl⟩ := h1
          obtain ⟨x', y', rfl⟩ := h2
          exact ⟨x + x', y + y', by simp⟩
        | smul c a _ h1 =>
          obtain ⟨x, y, rfl⟩ := h1
          exact ⟨c * x, c * y, by simp⟩
      have hu := h3.unit
      have hE := h3.energy
      simp [path5, Matrix.mulVec, dotProduct, Fin.sum_univ_five] at hu hE
      nlinarith [sq_nonneg (x + y)]
    · intro h
      have := congrFun h 0
      simp at this
    · simp [path5, Matrix.mulVec, dotProduct, Fin.sum_univ_five]
      norm_num

/-- There are parameters, and the hypotheses of `oneState_spec` and of `allStates_spec` are met with five steps. -/
example : ∃ p : SolverP ℝ 5, p.mul = (path5 *ᵥ ·) ∧ path5.IsHermitian ∧ SameSize p ∧ Diagonalizes p.diag ∧ 2 ≤ min 5 5 ∧
    p.minSteps < min 5 5 ∧ 0 < p.tolerance ∧ Independent path5 ![1, 0, 0, 0, 0] (min 5 5) := by
  obtain ⟨diag, hd⟩ := diagonalizes_exists (𝕜 := ℝ)
  exact ⟨⟨_, true, 1, 4, fun a _ _ => a, diag⟩, rfl, path5_hermitian, fun _ _ _ => rfl, hd, by decide, (show 4 < 5 by decide), one_pos, path5_independent⟩

/-- The hypotheses of `ground_inexact_fails` are met, also the one on one more power. -/
example : ∃ (p : SolverP ℝ 5) (E : ℝ) (z : Fin 5 → ℝ), computeOneState p 200 0 ![1, 0, 0, 0, 0] 0 = .ok (E, z, 4) ∧ ∀ μ, LowerBound path5 μ → μ < E := by
  obtain ⟨diag, hd⟩ := diagonalizes_exists (𝕜 := ℝ)
  obtain ⟨E, z, h1, -, -, -, -, h2⟩ := ground_inexact_fails (⟨(path5 *ᵥ ·), true, 1, 3, fun a _ _ => a, diag⟩ : SolverP ℝ 5) path5 rfl path5_hermitian
    (fun _ _ _ => rfl) hd 200 ![1, 0, 0, 0, 0] (by decide) (.inr (show 3 < min 200 5 by decide)) one_pos 4 rfl (path5_independent.le (by decide))
  exact ⟨_, E, z, h1, h2 path5_independent⟩

/-- **C75** A start vector that is already an eigenvector: the second vector is zero, its eigenvalue zero is the lowest,
and the state with that eigenvalue is zero; the solver throws. -/
theorem breakdown_fails (tolerance : ℝ) (eigs : List ℝ → List ℝ → Nat → List ℝ) (he : ∀ a b k, (eigs a b k).length = a.length)
    (diag : Mat ℝ → List ℝ × Mat ℝ) (hd : Diagonalizes diag) (minSteps : Nat) :
    computeOneState ⟨fun x : Fin 2 → ℝ => x, false, tolerance, minSteps, eigs, diag⟩ 2 0 ![1, 0] 0 = throwOut := by
  have hV : (fun i => ![1, 0] i * (1 / Real.sqrt (reDot ![1, 0] (![1, 0] : Fin 2 → ℝ)) : ℝ)) = (![1, 0] : Fin 2 → ℝ) := by
    ext i
    fin_cases i <;> simp [reDot]
  have hdec : decompositionD ⟨fun x : Fin 2 → ℝ => x, false, tolerance, minSteps, eigs, diag⟩ 2 ![1, 0] 0 =
      some ⟨2, [![1, 0], 0], [1, 0], [0, 0]⟩ := by
    unfold decompositionD
    simp only [RCLike.ofReal_real_eq_id, id, hV]
    have hr : reDot ![1, 0] (![1, 0] : Fin 2 → ℝ) = 1 := by simp [reDot]
    have h0 : (fun i => ![1, 0] i - 1 * (![1, 0] : Fin 2 → ℝ) i) = 0 := by
      ext i
      simp
    have hz : reDot (0 : Fin 2 → ℝ) 0 = 0 := by simp [reDot]
    simp [hr, h0, hz, setAt, loopD, oneStep, normalize, deltas, reortho, loopN]
    exact ⟨rfl, by simp [reDot], by simp [reDot]⟩
  have hb : buildDense (fun x : ℝ => (x : ℝ)) [1, 0] [0, 0] ⟨0, 0, []⟩ 0 = some ⟨2, 2, [1, 0, 0, 0]⟩ := rfl
  obtain ⟨w, U, d1, d2, d3, d4, d5⟩ := hd 2 ⟨2, 2, [1, 0, 0, 0]⟩ !![1, 0; 0, 0]
    (Represents.of_data ⟨rfl, rfl, rfl⟩ (by intro i j; fin_cases i <;> fin_cases j <;> rfl))
    (by ext i j; fin_cases i <;> fin_cases j <;> simp)
  have e00 := congrFun (congrFun d4 0) 0
  have e10 := congrFun (congrFun d4 1) 0
  have e01 := congrFun (congrFun d4 0) 1
  have e11 := congrFun (congrFun d4 1) 1
  have f00 := congrFun (congrFun d3 0) 0
  have f01 := congrFun (congrFun d3 0) 1
  have f11 := congrFun (congrFun d3 1) 1
  simp [Matrix.mul_apply, Fin.sum_univ_two, one_apply] at e00 e10 e01 e11 f00 f01 f11
  have hw : w 0 ≤ w 1 := d5 (by decide)
  have hU : U 0 0 = 0 := by
    by_contra h
    have h0 : w 0 = 1 := by
      have : U 0 0 * (w 0 - 1) = 0 := by linarith
      rcases mul_eq_zero.1 this with h' | h'
      · exact absurd h' h
      · linarith
    have h10 : U 1 0 = 0 := by
      rcases e10 with h' | h'
      · exact h'
      · linarith
    have h11 : U 1 1 = 0 := by
      rcases e11 with h' | h'
      · exact h'
      · linarith
    rw [h10, zero_mul, add_zero] at f01
    have h01 : U 0 1 = 0 := (mul_eq_zero.1 f01).resolve_left h
    rw [h01, h11] at f11
    norm_num at f11
  have hrun := oneState_run _ 2 ![1, 0] 0 0 hdec rfl (v := fun i => if i = 0 then ![1, 0] else 0) (by
    intro i hi
    simp only at hi
    interval_cases i <;> rfl) hb d1 d2
  rw [hrun.2 (by decide)]
  have : cols (fun i => if i = 0 then ![1, 0] else (0 : Fin 2 → ℝ)) 2 *ᵥ (fun j => U j 0) = 0 := by
    ext i
    fin_cases i <;> simp [cols, Matrix.mulVec, dotProduct, Fin.sum_univ_two, hU]
  refine if_pos ?_
  have h2 : (0 + cols (fun i => if i = 0 then ![1, 0] else (0 : Fin 2 → ℝ)) 2 *ᵥ (fun j => U j 0)) = 0 := by rw [this, zero_add]
  show Real.sqrt (reDot (0 + cols (fun i => if i = 0 then ![1, 0] else (0 : Fin 2 → ℝ)) 2 *ᵥ (fun j => U j 0))
    (0 + cols (fun i => if i = 0 then ![1, 0] else (0 : Fin 2 → ℝ)) 2 *ᵥ (fun j => U j 0))) < 1 / 1000000
  rw [h2]
  simp [reDot]

end Verif.Krylov
