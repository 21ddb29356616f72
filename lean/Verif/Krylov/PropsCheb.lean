import Verif.Krylov.ModelCheb
import Verif.Krylov.Lemmas
import Verif.Numeric.Props
import Mathlib.RingTheory.Polynomial.Chebyshev
import Mathlib.Analysis.SpecialFunctions.Arsinh
import Mathlib.LinearAlgebra.Matrix.Notation
import Mathlib.Tactic.FinCases
import Mathlib.Tactic.NormNum

/-!
# C57: moments of Chebyshev polynomials
-/

namespace Verif.Krylov

open Verif.Loop Matrix Polynomial Polynomial.Chebyshev

variable {𝕜 : Type} [RCLike 𝕜] {n : Nat}

/-- The scaled matrix. -/
noncomputable def scaled (H : Matrix (Fin n) (Fin n) 𝕜) (oneOverA b : ℝ) : Matrix (Fin n) (Fin n) 𝕜 :=
  (oneOverA : 𝕜) • (H - (b : 𝕜) • (1 : Matrix (Fin n) (Fin n) 𝕜))

/-- The Chebyshev polynomial of a matrix, applied to a vector. -/
noncomputable def chebVec (A : Matrix (Fin n) (Fin n) 𝕜) (v : Fin n → 𝕜) (k : Nat) : Fin n → 𝕜 :=
  aeval A (T ℝ k) *ᵥ v

/-- The moments. -/
noncomputable def moment (A : Matrix (Fin n) (Fin n) 𝕜) (v : Fin n → 𝕜) (k : Nat) : ℝ :=
  RCLike.re (star v ⬝ᵥ chebVec A v k)

theorem chebVec_zero (A : Matrix (Fin n) (Fin n) 𝕜) (v : Fin n → 𝕜) : chebVec A v 0 = v := by
  simp [chebVec]

theorem chebVec_one (A : Matrix (Fin n) (Fin n) 𝕜) (v : Fin n → 𝕜) : chebVec A v 1 = A *ᵥ v := by
  simp [chebVec]

theorem chebVec_add_two (A : Matrix (Fin n) (Fin n) 𝕜) (v : Fin n → 𝕜) (k : Nat) :
    chebVec A v (k + 2) = (2 : 𝕜) • (A *ᵥ chebVec A v (k + 1)) - chebVec A v k := by
  simp only [chebVec]
  push_cast
  rw [T_add_two]
  simp only [map_sub, map_mul, aeval_X, map_ofNat, sub_mulVec]
  congr 1
  rw [mulVec_mulVec, ← smul_mulVec, mul_assoc]
  congr 1
  ext i j
  simp [two_mul, Matrix.add_mul, two_smul]

theorem scaled_hermitian {H : Matrix (Fin n) (Fin n) 𝕜} (hH : H.IsHermitian) (x b : ℝ) : (scaled H x b).IsHermitian := by
  unfold scaled Matrix.IsHermitian
  rw [conjTranspose_smul, conjTranspose_sub, conjTranspose_smul, hH.eq, conjTranspose_one]
  simp

theorem aeval_hermitian {A : Matrix (Fin n) (Fin n) 𝕜} (hA : A.IsHermitian) (q : ℝ[X]) : (aeval A q).IsHermitian := by
  rw [aeval_eq_sum_range]
  have : IsSelfAdjoint (∑ i ∈ Finset.range (q.natDegree + 1), q.coeff i • A ^ i) := by
    refine isSelfAdjoint_sum _ fun i _ => ?_
    have h : IsSelfAdjoint A := hA
    exact IsSelfAdjoint.smul (IsSelfAdjoint.all _) (h.pow i)
  exact this

theorem dot_cheb {A : Matrix (Fin n) (Fin n) 𝕜} (hA : A.IsHermitian) (v : Fin n → 𝕜) (i j : Nat) :
    2 * RCLike.re (star (chebVec A v (j + i)) ⬝ᵥ chebVec A v j) = moment A v (2 * j + i) + moment A v i := by
  simp only [moment, chebVec]
  rw [← dot_mulVec (aeval_hermitian hA _), mulVec_mulVec, ← map_mul]
  have h := T_mul_T ℝ ((j + i : Nat) : ℤ) (j : ℤ)
  have e1 : (((j + i : Nat) : ℤ) + j) = ((2 * j + i : Nat) : ℤ) := by push_cast; ring
  have e2 : (((j + i : Nat) : ℤ) - j) = (i : ℤ) := by push_cast; ring
  rw [e1, e2] at h
  have h2 : (2 : 𝕜) * (star v ⬝ᵥ aeval A (T ℝ ((j + i : Nat) : ℤ) * T ℝ (j : ℤ)) *ᵥ v) =
      star v ⬝ᵥ aeval A (T ℝ ((2 * j + i : Nat) : ℤ)) *ᵥ v + star v ⬝ᵥ aeval A (T ℝ (i : ℤ)) *ᵥ v := by
    rw [← dotProduct_add, ← add_mulVec, ← map_add, ← h, mul_assoc, two_mul, two_mul, map_add, add_mulVec, dotProduct_add]
  have := congrArg RCLike.re h2
  rw [map_add] at this
  rw [← this, two_mul, two_mul, map_add]

/-- **C57** `oneStepDec` goes from one Chebyshev polynomial of the scaled matrix to the next, and gives the products with
which the moments are found. -/
theorem oneStepDec_spec (p : ChebParams 𝕜 n) (H : Matrix (Fin n) (Fin n) 𝕜) (hp : p.mul = (H *ᵥ ·)) (hH : H.IsHermitian)
    (v : Fin n → 𝕜) (j : Nat) :
    ∃ atmp btmp, oneStepDec p (if j = 0 then 0 else chebVec (scaled H p.oneOverA p.b) v (j - 1))
        (chebVec (scaled H p.oneOverA p.b) v j) j =
        ((chebVec (scaled H p.oneOverA p.b) v j, chebVec (scaled H p.oneOverA p.b) v (j + 1)), atmp, btmp) ∧
      moment (scaled H p.oneOverA p.b) v (2 * j) = 2 * atmp - moment (scaled H p.oneOverA p.b) v 0 ∧
      moment (scaled H p.oneOverA p.b) v (2 * j + 1) = 2 * btmp - moment (scaled H p.oneOverA p.b) v 1 := by
  set A := scaled H p.oneOverA p.b with hA
  have hAH : A.IsHermitian := scaled_hermitian hH _ _
  have hz : ∀ y : Fin n → 𝕜, (fun i => (p.mul y i - (p.b : 𝕜) * y i) * (p.oneOverA : 𝕜)) = A *ᵥ y := by
    intro y
    funext i
    rw [hA, hp, scaled, smul_mulVec, sub_mulVec, smul_mulVec, one_mulVec]
    simp only [Pi.smul_apply, Pi.sub_apply, smul_eq_mul]
    ring
  have htmp : (fun i => (((if j = 0 then 1 else 2 : ℝ) : ℝ) : 𝕜) * (A *ᵥ chebVec A v j) i -
      (if j = 0 then 0 else chebVec A v (j - 1)) i) = chebVec A v (j + 1) := by
    cases j with
    | zero => funext i; simp [chebVec_zero, chebVec_one]
    | succ k =>
      rw [chebVec_add_two]
      funext i
      rw [if_neg (by omega), if_neg (by omega), Nat.add_sub_cancel]
      simp only [Pi.sub_apply, Pi.smul_apply, smul_eq_mul, RCLike.ofReal_ofNat]
  refine ⟨reDot (chebVec A v j) (chebVec A v j), reDot (chebVec A v (j + 1)) (chebVec A v j), ?_, ?_, ?_⟩
  · simp only [oneStepDec]
    have hz' := congrFun (hz (chebVec A v j))
    simp only [hz'] at htmp ⊢
    rw [htmp]
  · have := dot_cheb hAH v 0 j
    rw [reDot_eq]
    simp only [Nat.add_zero] at this
    linarith
  · have := dot_cheb hAH v 1 j
    rw [reDot_eq, ← star_dot, RCLike.star_def, RCLike.conj_re]
    linarith

/-! ## `decomposition` -/

/-- `decomposition` follows a null pointer: nothing sets the vectors before. -/
theorem decomposition_fails (p : ChebParams 𝕜 n) (init : Fin n → 𝕜) : chebDecomposition p none init = none := rfl

/-- **C57** (partial: see `moments_fails`) If the vectors did exist: the Chebyshev vectors are stored, and besides the first
ones, which are twice the moments, the coefficients are the moments minus the first moment. -/
theorem decomposition_partial (p : ChebParams 𝕜 n) (H : Matrix (Fin n) (Fin n) 𝕜) (hp : p.mul = (H *ᵥ ·)) (hH : H.IsHermitian)
    (data : List (Fin n → 𝕜)) (hd : data.length ≤ 2 * p.steps) (hd0 : 0 < data.length) (v : Fin n → 𝕜) :
    ∃ s, chebDecomposition p (some data) v = some s ∧ s.data.length = data.length ∧
      (∀ j < data.length, s.data[j]? = some (chebVec (scaled H p.oneOverA p.b) v j)) ∧
      (∀ j < data.length, s.a[j]? = some (if j = 0 then 2 * moment (scaled H p.oneOverA p.b) v 0
        else moment (scaled H p.oneOverA p.b) v (2 * j) - moment (scaled H p.oneOverA p.b) v 0)) ∧
      (∀ j < data.length, s.b[j]? = some (if j = 0 then 2 * moment (scaled H p.oneOverA p.b) v 1
        else moment (scaled H p.oneOverA p.b) v (2 * j + 1) - moment (scaled H p.oneOverA p.b) v 1)) := by
  set A := scaled H p.oneOverA p.b with hA
  unfold chebDecomposition
  obtain ⟨s, e, h1, h2, h3, h4, h5, h6, h7⟩ := loopN_inv (fun k (s : ChebState 𝕜 n) =>
      s.x = (if k = 0 then 0 else chebVec A v (k - 1)) ∧ s.y = chebVec A v k ∧ s.data.length = data.length ∧
      (s.a.length = 2 * p.steps ∧ s.b.length = 2 * p.steps) ∧ (∀ j < k, s.data[j]? = some (chebVec A v j)) ∧
      (∀ j, j < k ∨ j = 0 → s.a[j]? = some (if k = 0 then 0 else if j = 0 then 2 * moment A v 0 else moment A v (2 * j) - moment A v 0)) ∧
      (∀ j, j < k ∨ j = 0 → s.b[j]? = some (if k = 0 then 0 else if j = 0 then 2 * moment A v 1 else moment A v (2 * j + 1) - moment A v 1)))
    data.length (chebStep p)
    ⟨fun _ => 0, v, data, List.replicate (2 * p.steps) 0, List.replicate (2 * p.steps) 0⟩
    ⟨rfl, (chebVec_zero A v).symm, rfl, ⟨by simp, by simp⟩, fun j hj => by omega,
      fun j hj => by
        obtain rfl : j = 0 := by omega
        simp only [if_true]
        rw [List.getElem?_replicate_of_lt (by omega)],
      fun j hj => by
        obtain rfl : j = 0 := by omega
        simp only [if_true]
        rw [List.getElem?_replicate_of_lt (by omega)]⟩
    (by
      rintro k ⟨x, y, dd, a, b⟩ hk ⟨g1, g2, g3, ⟨g4, g4'⟩, g5, g6, g7⟩
      simp only at g1 g2 g3 g4 g4' g5 g6 g7
      obtain ⟨at', bt, f1, f2, f3⟩ := oneStepDec_spec p H hp hH v k
      rw [← hA] at f1 f2 f3
      refine ⟨_, by
        simp only [chebStep]
        rw [g1, g2, f1, setAt_some (by omega)]
        simp only [bind, Option.bind_some]
        rw [g6 0 (.inr rfl), Option.bind_some, setAt_some (by omega), Option.bind_some, g7 0 (.inr rfl), Option.bind_some,
          setAt_some (by omega), Option.bind_some]
        rfl, ?_⟩
      refine ⟨by simp, rfl, by simpa using g3, ⟨by simpa using g4, by simpa using g4'⟩, ?_, ?_, ?_⟩
      · intro j hj
        simp only
        by_cases hjk : k = j
        · subst hjk; rw [List.getElem?_set_self (by omega)]
        · rw [List.getElem?_set_ne hjk]; exact g5 j (by omega)
      · intro j hj
        have hk1 : ¬ k + 1 = 0 := by omega
        simp only [if_true, hk1, if_false]
        by_cases hjk : k = j
        · subst hjk
          rw [List.getElem?_set_self (by omega)]
          by_cases h0 : k = 0
          · subst h0; simp only [if_true]; simp only [Nat.mul_zero] at f2; congr 1; linarith
          · simp only [if_neg h0]; congr 1; linarith
        · rw [List.getElem?_set_ne hjk, g6 j (by omega), if_neg (by omega)]
      · intro j hj
        have hk1 : ¬ k + 1 = 0 := by omega
        simp only [if_true, hk1, if_false]
        by_cases hjk : k = j
        · subst hjk
          rw [List.getElem?_set_self (by omega)]
          by_cases h0 : k = 0
          · subst h0; simp only [if_true]; simp only [Nat.mul_zero, Nat.zero_add] at f3; congr 1; linarith
          · simp only [if_neg h0]; congr 1; linarith
        · rw [List.getElem?_set_ne hjk, g7 j (by omega), if_neg (by omega)])
  refine ⟨s, by simpa using e, h3, h5, ?_, ?_⟩
  · intro j hj
    rw [h6 j (.inl hj), if_neg (by omega)]
  · intro j hj
    rw [h7 j (.inl hj), if_neg (by omega)]

/-- The even coefficients are not the even moments: already the first is wrong by a factor of two, for every vector that is
not zero. -/
theorem moments_fails (p : ChebParams 𝕜 n) (H : Matrix (Fin n) (Fin n) 𝕜) (hp : p.mul = (H *ᵥ ·)) (hH : H.IsHermitian)
    (data : List (Fin n → 𝕜)) (hd : data.length ≤ 2 * p.steps) (hd0 : 0 < data.length) (v : Fin n → 𝕜) (hv : v ≠ 0) :
    ∃ s, chebDecomposition p (some data) v = some s ∧
      ∀ j < data.length, s.a[j]? ≠ some (moment (scaled H p.oneOverA p.b) v (2 * j)) := by
  obtain ⟨s, e, _, _, h, _⟩ := decomposition_partial p H hp hH data hd hd0 v
  refine ⟨s, e, fun j hj => ?_⟩
  have h0 : moment (scaled H p.oneOverA p.b) v 0 ≠ 0 := by
    rw [moment, chebVec_zero, ← reDot_eq]
    exact fun h => hv ((reDot_eq_zero v).1 h)
  rw [h j hj]
  intro hc
  have hc := Option.some.inj hc
  by_cases hj0 : j = 0
  · subst hj0
    simp only [if_true, Nat.mul_zero] at hc
    exact h0 (by linarith)
  · rw [if_neg hj0] at hc
    exact h0 (by linarith)

/-! ## `ChebyshevSerializer` -/

/-- The moments from the two lists, even ones in the first. -/
noncomputable def momentOf (a b : Nat → ℝ) (i : Nat) : ℝ := if i % 2 = 1 then b (i / 2) else a (i / 2)

/-- **C57** The numbers of the plot are the products of the kernel and the moments. -/
theorem gnMuN_spec (la lb gn : List ℝ) (a b g : Nat → ℝ) (N : Nat) (hN : gn.length = N) (ha : ∀ i < N, la[i]? = some (a i))
    (hb : ∀ i < N, lb[i]? = some (b i)) (hg : ∀ i < N, gn[i]? = some (g i)) :
    ∃ out, gnMuN la lb gn = some out ∧ out.length = N ∧ ∀ i < N, out[i]? = some (g i * momentOf a b i) := by
  unfold gnMuN
  rw [hN]
  obtain ⟨out, e, h1, h2⟩ := loopN_inv (fun k (out : List ℝ) => out.length = N ∧ ∀ i < k, out[i]? = some (g i * momentOf a b i)) N
    (fun i out => do
      let j := if i % 2 = 1 then (i - 1) / 2 else i / 2
      let tmp ← (if i % 2 = 1 then lb[j]? else la[j]?)
      let g ← gn[i]?
      setAt out i (tmp * g)) (List.replicate N 0) ⟨by simp, fun i hi => by omega⟩
    (by
      rintro k out hk ⟨h1, h2⟩
      have ht : (if k % 2 = 1 then lb[(if k % 2 = 1 then (k - 1) / 2 else k / 2)]? else la[(if k % 2 = 1 then (k - 1) / 2 else k / 2)]?) =
          some (momentOf a b k) := by
        unfold momentOf
        by_cases hp : k % 2 = 1
        · simp only [if_pos hp]
          rw [hb _ (by omega)]
          congr 2; omega
        · simp only [if_neg hp]
          rw [ha _ (by omega)]
      refine ⟨out.set k (momentOf a b k * g k), ?_, by simpa using h1, ?_⟩
      · simp only [ht, hg k hk, bind, Option.bind_some]
        exact setAt_some (by rw [h1]; exact hk)
      · intro i hi
        by_cases hik : k = i
        · subst hik; rw [List.getElem?_set_self (by omega), mul_comm]
        · rw [List.getElem?_set_ne hik]; exact h2 i (by omega))
  exact ⟨out, e, h1, h2⟩

/-- **C57** `calcF` is the Chebyshev series. -/
theorem calcF_spec (x : ℝ) (l : List ℝ) (c : Nat → ℝ) (N : Nat) (hN : l.length = N + 1) (hc : ∀ i < N + 1, l[i]? = some (c i)) :
    calcF x l = some (c 0 + 2 * ∑ i ∈ Finset.range N, c (i + 1) * (T ℝ ((i + 1 : Nat) : ℤ)).eval x) := by
  unfold calcF
  rw [hc 0 (by omega), hN]
  simp only [bind, Option.bind_some]
  obtain ⟨s, e, h⟩ := loopFrom_inv (fun k s => s = 1 / 2 * c 0 + ∑ i ∈ Finset.range (k - 1), c (i + 1) * (T ℝ ((i + 1 : Nat) : ℤ)).eval x)
    1 (N + 1) (by omega) (fun i sum => (l[i]?).map fun g => sum + g * Numeric.cheb x i) (1 / 2 * c 0) (by simp)
    (by
      intro i s h1 h2 hs
      refine ⟨_, by rw [hc i (by omega)]; rfl, ?_⟩
      obtain ⟨k, rfl⟩ : ∃ k, i = k + 1 := ⟨i - 1, by omega⟩
      rw [hs, Numeric.cheb_eq, Nat.add_sub_cancel, Nat.add_sub_cancel, Finset.sum_range_succ, ← add_assoc])
  rw [e, Option.bind_some, h, Nat.add_sub_cancel]
  simp only [pure]
  congr 1
  ring

/-- **C57** The kernels keep the first moment. -/
theorem kernel_zero (k : Kernel) (cutoff size : Nat) (hs : 0 < size) (hl : ∀ l, k = .lorentz l → l ≠ 0) :
    (kernel k cutoff size)[0]? = some 1 := by
  have hN : 0 < (if cutoff = 0 ∨ size < cutoff then size else cutoff) := by split <;> omega
  unfold kernel
  simp only
  generalize (if cutoff = 0 ∨ size < cutoff then size else cutoff) = N at hN ⊢
  cases k with
  | jackson =>
    have : ((N + 1 : Nat) : ℝ) ≠ 0 := by positivity
    simp only [jackson]
    rw [List.getElem?_map, List.getElem?_range hN]
    simp only [Option.map_some, CharP.cast_eq_zero, mul_zero, zero_div, Real.cos_zero, Real.sin_zero, zero_mul, sub_zero, mul_one, add_zero]
    rw [div_self this]
  | lorentz l =>
    have : Real.sinh l ≠ 0 := fun h => hl l rfl (Real.sinh_injective (by rw [h, Real.sinh_zero]))
    simp only [lorentz]
    rw [List.getElem?_map, List.getElem?_range hN]
    simp only [Option.map_some, CharP.cast_eq_zero, zero_div, sub_zero, mul_one]
    rw [div_self this]
  | dirichlet => simp only [List.getElem?_replicate_of_lt hN]

/-- **C57** The numbers that `plot` uses, from six moments on. -/
theorem plotMoments_spec (k : Kernel) (cutoff : Nat) (la lb : List ℝ) (a b g : Nat → ℝ) (N : Nat)
    (hN : N = if cutoff = 0 ∨ la.length < cutoff then la.length else cutoff) (h6 : 6 ≤ N) (hl : lb.length = la.length)
    (ha : ∀ i < la.length, la[i]? = some (a i)) (hb : ∀ i < la.length, lb[i]? = some (b i))
    (hg : ∀ i < N, (kernel k cutoff la.length)[i]? = some (g i)) :
    ∃ out, plotMoments k cutoff la lb = some out ∧ out.length = N ∧ ∀ i < N, out[i]? = some (g i * momentOf a b i) := by
  have hle : N ≤ la.length := by rw [hN]; split <;> omega
  have hlen : (kernel k cutoff la.length).length = N := by
    unfold kernel; cases k <;> simp [jackson, lorentz, hN]
  obtain ⟨out, e, h1, h2⟩ := gnMuN_spec la lb _ a b g N hlen (fun i hi => ha i (by omega)) (fun i hi => hb i (by omega)) hg
  refine ⟨out, ?_, h1, h2⟩
  unfold plotMoments
  simp only [e, hg 0 (by omega), hg 5 (by omega), bind, Option.bind_some]
  rfl

/-- With fewer than six, `plot` reads past the end. -/
theorem plot_few_fails (k : Kernel) (cutoff : Nat) (la lb : List ℝ)
    (h : (if cutoff = 0 ∨ la.length < cutoff then la.length else cutoff) ≤ 5) : plotMoments k cutoff la lb = none := by
  have hlen : (kernel k cutoff la.length).length ≤ 5 := by
    unfold kernel; cases k <;> simpa [jackson, lorentz] using h
  have h5 : (kernel k cutoff la.length)[5]? = none := List.getElem?_eq_none hlen
  unfold plotMoments
  simp only [h5, bind]
  cases gnMuN la lb (kernel k cutoff la.length) <;> cases (kernel k cutoff la.length)[0]? <;> rfl

/-- **C57** The points outside of the spectrum are zero; the others are the series over the weight. -/
theorem plotAt_spec (q : PlotP) (l : List ℝ) (c : Nat → ℝ) (N : Nat) (hN : l.length = N + 1) (hc : ∀ i < N + 1, l[i]? = some (c i))
    (omega : ℝ) :
    plotAt q l omega = some (
      open Classical in
      let x := (omega + q.eg - q.b) * q.oneOverA
      if 1 - x ^ 2 ≤ 1 / 10 ^ 12 then 0
      else (c 0 + 2 * ∑ i ∈ Finset.range N, c (i + 1) * (T ℝ ((i + 1 : Nat) : ℤ)).eval x) / Real.sqrt (1 - x ^ 2)) := by
  classical
  unfold plotAt
  simp only
  generalize (omega + q.eg - q.b) * q.oneOverA = x
  have hsq : Real.sqrt ((1 : ℝ) / 10 ^ 12) = 1 / 1000000 := by
    rw [show ((1 : ℝ) / 10 ^ 12) = (1 / 1000000) ^ 2 by norm_num]
    exact Real.sqrt_sq (by norm_num)
  by_cases h1 : x > 1 ∨ x < -1
  · have hx : 1 - x ^ 2 ≤ 1 / 10 ^ 12 := by
      have : 1 ≤ x ^ 2 := by rcases h1 with h | h <;> nlinarith
      have h0 : (0 : ℝ) ≤ 1 / 10 ^ 12 := by positivity
      linarith
    rw [if_pos h1, if_pos hx, if_neg (by simp)]
  · rw [if_neg h1, abs_of_nonneg (Real.sqrt_nonneg _), ← pow_two]
    by_cases h2 : 1 - x ^ 2 ≤ 1 / 10 ^ 12
    · rw [if_pos h2, if_neg]
      rw [not_lt, ← hsq]
      exact Real.sqrt_le_sqrt h2
    · rw [if_neg h2, if_pos]
      · rw [calcF_spec x l c N hN hc]; rfl
      · rw [gt_iff_lt, ← hsq]
        exact Real.sqrt_lt_sqrt (by positivity) (not_le.1 h2)

example : (!![1, 2; 2, 3] : Matrix (Fin 2) (Fin 2) ℝ).IsHermitian := by
  ext i j; fin_cases i <;> fin_cases j <;> simp

example : (kernel .dirichlet 0 8)[5]? = some 1 := by simp [kernel]

end Verif.Krylov
