import Verif.Spectral.ModelCtor
import Verif.Spectral.Props
import Verif.Lapack.PropsDoc
import Verif.Krylov.PropsStates

/-!
# C82: spectral functions from Lanczos
-/

namespace Verif.Spectral

open Verif.Loop Verif.Dense Verif.Lapack Verif.Krylov

open scoped Matrix

theorem intensities_spec {T : Mat ℝ} {k : Nat} {U : Matrix (Fin k) (Fin k) ℝ} (hT : Represents T k k U) (hk : 0 < k) :
    intensities T = some (List.ofFn fun l => U ⟨0, hk⟩ l * U ⟨0, hk⟩ l) := by
  have e1 : T.nrow = k := hT.shape.1
  unfold intensities
  rw [e1]
  obtain ⟨l, h1, h2, h3⟩ := loopN_inv (fun m (l : List ℝ) => l.length = k ∧ ∀ i (hi : i < k), i < m →
      l[i]? = some (U ⟨0, hk⟩ ⟨i, hi⟩ * U ⟨0, hk⟩ ⟨i, hi⟩)) k
    (fun i l => do
      let x ← T.get 0 i
      setAt l i (x * x)) (resizeL [] k 0) ⟨resizeL_length _ _ _, fun i _ hi => absurd hi (by omega)⟩
    (fun i l hi hl => by
      have hg : T.get 0 i = some (U ⟨0, hk⟩ ⟨i, hi⟩) := hT.get hk hi
      refine ⟨l.set i (U ⟨0, hk⟩ ⟨i, hi⟩ * U ⟨0, hk⟩ ⟨i, hi⟩), by rw [hg]; exact setAt_some (by omega), by simp [hl.1], ?_⟩
      intro q hq hqi
      by_cases h : q = i
      · subst h
        simp [hl.1, hq]
      · rw [List.getElem?_set_ne (by omega)]
        exact hl.2 q hq (by omega))
  rw [h1]
  congr 1
  refine List.ext_getElem? fun i => ?_
  by_cases hi : i < k
  · rw [h3 i hi hi, List.getElem?_ofFn, dif_pos hi]
  · rw [List.getElem?_eq_none (by omega), List.getElem?_eq_none (by simpa using Nat.le_of_not_lt hi)]

/-- **C82** The constructor of a continued fraction: poles are the eigenvalues of the tridiagonal matrix, intensities the
squares of the first components of the eigenvectors. -/
theorem construct_spec {f : Heev ℝ} (hf : HeevDoc f true) (hc : ∀ jobz uplo n a lda w lwork, (f jobz uplo n a lda w lwork).info ≤ 0)
    (c : CF) (hw : c.weight ≠ 0) {la lb : List ℝ} {a b : Nat → ℝ} {k : Nat} (hk : 0 < k) (hl : la.length = k)
    (ha : ∀ i < k, la[i]? = some (a i)) (hb : ∀ i < k, lb[i]? = some (b i)) :
    ∃ (e : Fin k → ℝ) (U : Matrix (Fin k) (Fin k) ℝ), IsEigen (tri a b k) e U ∧ construct f c la lb =
      .ok ⟨c.matsubara, c.eg, c.weight, c.isign, List.ofFn e, List.ofFn fun l => U ⟨0, hk⟩ l * U ⟨0, hk⟩ l⟩ := by
  obtain ⟨T, t1, t2⟩ := buildDense_spec (α := ℝ) (fun x : ℝ => x) (fun x => rfl) a b k 0 la lb (by simp; omega) (by simp [hl]) ha hb
  rcases diag_spec hf t2 hk (H := tri a b k) (tri_hermitian _ _ _ (fun i => rfl)) (fun _ _ _ => rfl) (resizeL c.eigs T.nrow 0)
      (option := 'V') (by simp) with h | h
  · obtain ⟨_, lwork, h⟩ := h
    exact absurd (hc _ _ _ _ _ _ _) (not_le.2 h)
  · obtain ⟨m', w, V, h1, h2, _, h4⟩ := h
    refine ⟨w, V, h2, ?_⟩
    unfold construct
    rw [if_neg hw, t1]
    simp only [acc, bind, Except.bind]
    rw [h1]
    simp only []
    rw [intensities_spec (h4 (by simp)) hk]
    rfl

/-- The facts about a run of the decomposition. -/
theorem run_facts {𝕜 : Type} [RCLike 𝕜] {n : Nat} (p : SolverP 𝕜 n) (H : Matrix (Fin n) (Fin n) 𝕜) (hp : p.mul = (H *ᵥ ·)) (hH : H.IsHermitian) (hs : SameSize p)
    (steps : Nat) (init : Fin n → 𝕜) (h0 : init ≠ 0) (h2 : 2 ≤ min steps n) (hmin : n ≤ 4 ∨ p.minSteps < min steps n) (excited : Nat) :
    ∃ (r : Result 𝕜 n) (v : Nat → Fin n → 𝕜) (a b : Nat → ℝ), decompositionD p steps init excited = some r ∧ 2 ≤ r.steps ∧ r.steps ≤ min steps n ∧
      r.a.length = r.steps ∧ r.b.length = r.steps ∧ (∀ i < r.steps, r.a[i]? = some (a i)) ∧ (∀ i < r.steps, r.b[i]? = some (b i)) ∧
      v 0 = (fun i => init i * ((1 / Real.sqrt (∑ k, ‖init k‖ ^ 2) : ℝ) : 𝕜)) ∧
      ∀ m < r.steps, (∀ l, 1 ≤ l → l ≤ m → b l ≠ 0) →
          (cols v (m + 1))ᴴ * cols v (m + 1) = 1 ∧
          (cols v (m + 1))ᴴ * H * cols v (m + 1) = tri (fun i => (a i : 𝕜)) (fun i => (b i : 𝕜)) (m + 1) ∧
          (∀ i < m, H *ᵥ v i = (b i : 𝕜) • (if i = 0 then 0 else v (i - 1)) + (a i : 𝕜) • v i + (b (i + 1) : 𝕜) • v (i + 1)) ∧
          (m + 1 < r.steps → b (m + 1) = 0 → H *ᵥ v m = (b m : 𝕜) • (if m = 0 then 0 else v (m - 1)) + (a m : 𝕜) • v m) := by
  obtain ⟨close, hclose, -, hdec⟩ := decompositionD_eq p hs steps init excited
  obtain ⟨r, hr, g1, g2, g3, g4, g5, g6, g7⟩ := lanczos_spec ⟨p.mul, p.reortho, close, p.minSteps⟩ H hp hH steps init h0 h2 hmin
  have hv : ∀ i < r.steps, r.data[i]? = some (r.data.getD i 0) ∧ r.a[i]? = some (r.a.getD i 0) ∧ r.b[i]? = some (r.b.getD i 0) := by
    intro i hi
    refine ⟨?_, ?_, ?_⟩ <;> simp [List.getD_eq_getElem?_getD, show i < r.data.length by omega, show i < r.a.length by omega, show i < r.b.length by omega]
  have hv0 : r.data.getD 0 0 = (fun i => init i * ((1 / Real.sqrt (∑ k, ‖init k‖ ^ 2) : ℝ) : 𝕜)) := by
    rw [List.getD_eq_getElem?_getD, g6]; rfl
  exact ⟨r, fun i => r.data.getD i 0, fun i => r.a.getD i 0, fun i => r.b.getD i 0, by rw [hdec, hr], g1, g2, g4, g5,
    fun i hi => (hv i hi).2.1, fun i hi => (hv i hi).2.2, hv0, g7 _ _ _ hv⟩

/-! ## Moments -/

section

variable {𝕜 : Type} [RCLike 𝕜] {n : Nat}

/-- Powers of a tridiagonal matrix reach as far as their number. -/
theorem tri_pow_band (a b : Nat → 𝕜) (k : Nat) (hk : 0 < k) (j : Nat) : ∀ l : Fin k, j < l.val → (tri a b k ^ j) l ⟨0, hk⟩ = 0 := by
  induction j with
  | zero =>
    intro l hl
    rw [pow_zero, Matrix.one_apply_ne (by intro h; rw [h] at hl; simp at hl)]
  | succ j ih =>
    intro l hl
    rw [pow_succ', Matrix.mul_apply]
    refine Finset.sum_eq_zero fun i _ => ?_
    by_cases hi : j < i.val
    · rw [ih i hi, mul_zero]
    · have : tri a b k l i = 0 := by
        unfold tri
        rw [if_neg (by intro h; rw [h] at hl; omega), if_neg (by omega), if_neg (by omega)]
      rw [this, zero_mul]

/-- A column of the product of the vectors and the tridiagonal matrix. -/
theorem tri_col {v : Nat → Fin n → 𝕜} {a b : Nat → 𝕜} (hb : ∀ i, star (b i) = b i) {m : Nat} (l : Fin m) :
    cols v m *ᵥ (fun i => tri a b m i l) = b l • (if l.val = 0 then 0 else v (l - 1)) + a l • v l +
      (if l.val + 1 < m then b (l + 1) • v (l + 1) else 0) := by
  ext x
  rw [Matrix.mulVec, dotProduct]
  have split3 : ∀ i : Fin m, cols v m x i * tri a b m i l =
      (if i = l then v i x * a i else 0) + (if l.val = i.val + 1 then v i x * b l else 0) +
        (if i.val = l.val + 1 then v i x * b i else 0) := by
    intro i
    unfold tri cols
    by_cases h1 : i = l
    · subst h1
      simp
    · by_cases h2 : l.val = i.val + 1
      · have h3 : ¬ i.val = l.val + 1 := by omega
        simp [h1, h2, show ¬ i.val = i.val + 1 + 1 by omega]
      · by_cases h3 : i.val = l.val + 1
        · simp [h1, h3, hb, show ¬ l.val = l.val + 1 + 1 by omega]
        · simp [h1, h2, h3]
  rw [Finset.sum_congr rfl fun i _ => split3 i, Finset.sum_add_distrib, Finset.sum_add_distrib, Finset.sum_ite_eq' Finset.univ l]
  have s2 : ∑ i : Fin m, (if l.val = i.val + 1 then v i x * b l else 0) = b l * (if l.val = 0 then 0 else v (l - 1) : Fin n → 𝕜) x := by
    by_cases h0 : l.val = 0
    · rw [if_pos h0, Finset.sum_eq_zero (fun i _ => if_neg (by omega))]
      simp
    · rw [if_neg h0, Finset.sum_eq_single (⟨l.val - 1, by omega⟩ : Fin m)]
      · rw [if_pos (by simp only; omega), mul_comm]
      · intro i _ hi
        refine if_neg fun h => hi (Fin.ext ?_)
        simp only
        omega
      · intro h
        exact absurd (Finset.mem_univ _) h
  have s3 : ∑ i : Fin m, (if i.val = l.val + 1 then v i x * b i else 0) = (if l.val + 1 < m then b (l + 1) • v (l + 1) else 0 : Fin n → 𝕜) x := by
    by_cases hm : l.val + 1 < m
    · rw [if_pos hm, Finset.sum_eq_single (⟨l.val + 1, by omega⟩ : Fin m)]
      · rw [if_pos (by simp only), mul_comm, Pi.smul_apply, smul_eq_mul]
      · intro i _ hi
        exact if_neg fun h => hi (Fin.ext h)
      · intro h
        exact absurd (Finset.mem_univ _) h
    · rw [if_neg hm, Finset.sum_eq_zero (fun i _ => if_neg (by omega))]
      rfl
  rw [s2, s3]
  simp only [Finset.mem_univ, if_true, Pi.add_apply, Pi.smul_apply, smul_eq_mul]
  ring

/-- Below the last power, the matrix acts on the start vector as the tridiagonal matrix does. -/
theorem pow_start {H : Matrix (Fin n) (Fin n) 𝕜} {v : Nat → Fin n → 𝕜} {a b : Nat → 𝕜} (hb : ∀ i, star (b i) = b i) {m : Nat}
    (hrec : ∀ i < m, H *ᵥ v i = b i • (if i = 0 then 0 else v (i - 1)) + a i • v i + b (i + 1) • v (i + 1)) (j : Nat) (hj : j ≤ m) :
    (H ^ j) *ᵥ v 0 = cols v (m + 1) *ᵥ fun l => (tri a b (m + 1) ^ j) l 0 := by
  induction j with
  | zero =>
    ext i
    rw [pow_zero, Matrix.one_mulVec, Matrix.mulVec, dotProduct]
    simp [Matrix.one_apply, cols]
  | succ j ih =>
    have hcol : ∀ l : Fin (m + 1), l.val < m → H *ᵥ v l = cols v (m + 1) *ᵥ fun i => tri a b (m + 1) i l := by
      intro l hl
      rw [hrec l hl, tri_col hb, if_pos (show l.val + 1 < m + 1 by omega)]
    have hband := tri_pow_band a b (m + 1) (by omega) j
    rw [pow_succ', ← Matrix.mulVec_mulVec, ih (by omega)]
    have e1 : H *ᵥ (cols v (m + 1) *ᵥ fun l => (tri a b (m + 1) ^ j) l 0) = ∑ l : Fin (m + 1), (tri a b (m + 1) ^ j) l 0 • (H *ᵥ v l) := by
      have : (cols v (m + 1) *ᵥ fun l => (tri a b (m + 1) ^ j) l 0) = ∑ l : Fin (m + 1), (tri a b (m + 1) ^ j) l 0 • v l := by
        ext x
        rw [Finset.sum_apply, Matrix.mulVec, dotProduct]
        exact Finset.sum_congr rfl fun l _ => mul_comm _ _
      rw [this, Matrix.mulVec_sum]
      exact Finset.sum_congr rfl fun l _ => Matrix.mulVec_smul _ _ _
    rw [e1]
    have e2 : ∀ l : Fin (m + 1), (tri a b (m + 1) ^ j) l 0 • (H *ᵥ v l) =
        (tri a b (m + 1) ^ j) l 0 • (cols v (m + 1) *ᵥ fun i => tri a b (m + 1) i l) := by
      intro l
      by_cases hl : l.val < m
      · rw [hcol l hl]
      · rw [show (tri a b (m + 1) ^ j) l 0 = 0 from hband l (by omega), zero_smul, zero_smul]
    rw [Finset.sum_congr rfl fun l _ => e2 l]
    ext i
    rw [Finset.sum_apply, Matrix.mulVec, dotProduct]
    simp only [Pi.smul_apply, smul_eq_mul, Matrix.mulVec, dotProduct]
    rw [Finset.sum_congr rfl fun l _ => Finset.mul_sum _ _ _, Finset.sum_comm]
    refine Finset.sum_congr rfl fun l _ => ?_
    rw [pow_succ', Matrix.mul_apply, Finset.mul_sum]
    exact Finset.sum_congr rfl fun q _ => by ring

/-- The moments of the start vector, twice as many as there are steps. -/
theorem moments_tri {H : Matrix (Fin n) (Fin n) 𝕜} (hH : H.IsHermitian) {v : Nat → Fin n → 𝕜} {a b : Nat → 𝕜} (ha : ∀ i, star (a i) = a i) (hb : ∀ i, star (b i) = b i) {m : Nat}
    (hV : (cols v (m + 1))ᴴ * cols v (m + 1) = 1) (hVH : (cols v (m + 1))ᴴ * H * cols v (m + 1) = tri a b (m + 1))
    (hrec : ∀ i < m, H *ᵥ v i = b i • (if i = 0 then 0 else v (i - 1)) + a i • v i + b (i + 1) • v (i + 1)) (j : Nat) (hj : j < 2 * (m + 1)) :
    star (v 0) ⬝ᵥ ((H ^ j) *ᵥ v 0) = (tri a b (m + 1) ^ j) 0 0 := by
  have hT : (tri a b (m + 1)).IsHermitian := tri_hermitian a b (m + 1) ha
  have col0 : ∀ i, (fun l => (tri a b (m + 1) ^ i) l 0) = (tri a b (m + 1) ^ i) *ᵥ Pi.single 0 1 := by
    intro i
    rw [Matrix.mulVec_single_one]
    rfl
  have key : ∀ p q, p ≤ m → q ≤ m → star (v 0) ⬝ᵥ ((H ^ (p + 1 + q)) *ᵥ v 0) = (tri a b (m + 1) ^ (p + 1 + q)) 0 0 := by
    intro p q hp hq
    have h1 : star (v 0) ⬝ᵥ ((H ^ (p + 1 + q)) *ᵥ v 0) = star ((H ^ p) *ᵥ v 0) ⬝ᵥ (H *ᵥ ((H ^ q) *ᵥ v 0)) := by
      rw [Matrix.star_mulVec, Matrix.IsHermitian.eq (hH.pow p), ← Matrix.dotProduct_mulVec, Matrix.mulVec_mulVec, Matrix.mulVec_mulVec, pow_add, pow_add, pow_one, mul_assoc]
    have h2 : (tri a b (m + 1) ^ (p + 1 + q)) 0 0 = star ((tri a b (m + 1) ^ p) *ᵥ Pi.single 0 1) ⬝ᵥ (tri a b (m + 1) *ᵥ ((tri a b (m + 1) ^ q) *ᵥ Pi.single 0 1)) := by
      rw [Matrix.star_mulVec, Matrix.IsHermitian.eq (hT.pow p), ← Matrix.dotProduct_mulVec, Matrix.mulVec_mulVec, Matrix.mulVec_mulVec, ← pow_succ, ← pow_add]
      rw [Matrix.mulVec_single_one]
      simp
    rw [h1, h2, pow_start hb hrec p hp, pow_start hb hrec q hq, col0 p, col0 q, Matrix.star_mulVec, ← Matrix.dotProduct_mulVec, Matrix.mulVec_mulVec,
      Matrix.mulVec_mulVec, ← hVH]
  by_cases h0 : j = 0
  · subst h0
    rw [pow_zero, pow_zero, Matrix.one_mulVec, Matrix.one_apply_eq, ← congrFun (congrFun hV 0) 0 |>.trans (Matrix.one_apply_eq 0)]
    rfl
  · by_cases h1 : j ≤ m + 1
    · have := key 0 (j - 1) (by omega) (by omega)
      rwa [show 0 + 1 + (j - 1) = j by omega] at this
    · have := key m (j - 1 - m) (le_refl _) (by omega)
      rwa [show m + 1 + (j - 1 - m) = j by omega] at this

/-- Powers of a real symmetric matrix from its eigenvalues. -/
theorem pow_eigen {k : Nat} {T U : Matrix (Fin k) (Fin k) ℝ} {e : Fin k → ℝ} (h : IsEigen T e U) (j : Nat) (i : Fin k) :
    (T ^ j) i i = ∑ l, U i l * U i l * e l ^ j := by
  have hu : U * Uᴴ = 1 := mul_eq_one_comm.1 h.unitary
  have hp : T ^ j * U = U * Matrix.diagonal fun l => e l ^ j := by
    induction j with
    | zero => simp
    | succ j ih =>
      rw [pow_succ, mul_assoc, h.eigen, ← mul_assoc, ih, mul_assoc, Matrix.diagonal_mul_diagonal]
      simp [pow_succ]
  have : T ^ j = U * (Matrix.diagonal fun l => e l ^ j) * Uᴴ := by rw [← hp, mul_assoc, hu, mul_one]
  rw [this, Matrix.mul_apply]
  refine Finset.sum_congr rfl fun l _ => ?_
  rw [Matrix.mul_diagonal, Matrix.conjTranspose_apply, star_trivial]
  ring

/-- The tridiagonal matrix of real numbers in another field. -/
theorem tri_map (a b : Nat → ℝ) (k : Nat) :
    tri (fun i => (a i : 𝕜)) (fun i => (b i : 𝕜)) k = (tri a b k).map ((↑) : ℝ → 𝕜) := by
  ext i j
  rw [Matrix.map_apply]
  unfold tri
  split
  · rfl
  · split
    · rfl
    · split <;> simp

/-- Powers on a subspace that the matrix maps to itself. -/
theorem pow_invariant {q : Nat} {H : Matrix (Fin n) (Fin n) 𝕜} {V : Matrix (Fin n) (Fin q) 𝕜} {T : Matrix (Fin q) (Fin q) 𝕜}
    (hV : Vᴴ * V = 1) (hHV : H * V = V * T) (j : Nat) : Vᴴ * H ^ j * V = T ^ j := by
  have : H ^ j * V = V * T ^ j := by
    induction j with
    | zero => simp
    | succ j ih => rw [pow_succ, Matrix.mul_assoc, hHV, ← Matrix.mul_assoc, ih, Matrix.mul_assoc, ← pow_succ]
  rw [Matrix.mul_assoc, this, ← Matrix.mul_assoc, hV, Matrix.one_mul]

/-- The first rows of a tridiagonal matrix, cut where `b` is zero. -/
def first (k q : Nat) : Matrix (Fin k) (Fin q) 𝕜 := fun i j => if i.val = j.val then 1 else 0

theorem first_unit {k q : Nat} (h : q ≤ k) : (first k q : Matrix (Fin k) (Fin q) 𝕜)ᴴ * (first k q : Matrix (Fin k) (Fin q) 𝕜) = 1 := by
  ext i j
  rw [Matrix.mul_apply, Finset.sum_eq_single (⟨i.val, by omega⟩ : Fin k)]
  · simp only [first, Matrix.conjTranspose_apply, if_true, star_one, one_mul, Matrix.one_apply, Fin.ext_iff]
  · intro l _ hl
    simp only [first, Matrix.conjTranspose_apply]
    rw [if_neg (fun h => hl (Fin.ext h)), star_zero, zero_mul]
  · intro h
    exact absurd (Finset.mem_univ _) h

theorem first_tri {k q : Nat} (hq : q ≤ k) {a b : Nat → 𝕜} (hb : ∀ i, star (b i) = b i) (h : q < k → b q = 0) :
    tri a b k * (first k q : Matrix (Fin k) (Fin q) 𝕜) = first k q * tri a b q := by
  ext i j
  have h1 : (tri a b k * (first k q : Matrix (Fin k) (Fin q) 𝕜)) i j = tri a b k i ⟨j.val, by omega⟩ := by
    rw [Matrix.mul_apply, Finset.sum_eq_single (⟨j.val, by omega⟩ : Fin k)]
    · simp [first]
    · intro l _ hl
      rw [first, if_neg (fun h => hl (Fin.ext h)), mul_zero]
    · intro h
      exact absurd (Finset.mem_univ _) h
  rw [h1, Matrix.mul_apply]
  by_cases hi : i.val < q
  · rw [Finset.sum_eq_single (⟨i.val, hi⟩ : Fin q)]
    · simp [first, tri, Fin.ext_iff]
    · intro l _ hl
      rw [first, if_neg (fun h => hl (Fin.ext h.symm)), zero_mul]
    · intro h
      exact absurd (Finset.mem_univ _) h
  · rw [Finset.sum_eq_zero (fun l _ => by rw [first, if_neg (by omega), zero_mul])]
    unfold tri
    rw [if_neg (by intro h; have := congrArg Fin.val h; simp only at this; omega), if_neg (by simp only; omega)]
    split
    · rename_i h2
      simp only at h2
      have : i.val = q := by omega
      rw [this, h (by omega), star_zero]
    · rfl

theorem first_pick {k q : Nat} (hk : 0 < k) (hq : 0 < q) (M : Matrix (Fin k) (Fin k) 𝕜) :
    ((first k q : Matrix (Fin k) (Fin q) 𝕜)ᴴ * M * (first k q : Matrix (Fin k) (Fin q) 𝕜)) ⟨0, hq⟩ ⟨0, hq⟩ = M ⟨0, hk⟩ ⟨0, hk⟩ := by
  rw [Matrix.mul_apply, Finset.sum_eq_single (⟨0, hk⟩ : Fin k)]
  · rw [first, if_pos (by rfl), mul_one, Matrix.mul_apply, Finset.sum_eq_single (⟨0, hk⟩ : Fin k)]
    · rw [Matrix.conjTranspose_apply, first, if_pos (by rfl), star_one, one_mul]
    · intro l _ hl
      rw [Matrix.conjTranspose_apply, first, if_neg (fun h => hl (Fin.ext h)), star_zero, zero_mul]
    · intro h
      exact absurd (Finset.mem_univ _) h
  · intro l _ hl
    rw [first, if_neg (fun h => hl (Fin.ext h)), mul_zero]
  · intro h
    exact absurd (Finset.mem_univ _) h

/-- Where the run has come to a subspace that the matrix maps to itself. -/
theorem invariant_space {H : Matrix (Fin n) (Fin n) 𝕜} {v : Nat → Fin n → 𝕜} {a b : Nat → ℝ} {k : Nat} (hk : 0 < k)
    (hall : ∀ m < k, (∀ l, 1 ≤ l → l ≤ m → b l ≠ 0) →
          (cols v (m + 1))ᴴ * cols v (m + 1) = 1 ∧
          (cols v (m + 1))ᴴ * H * cols v (m + 1) = tri (fun i => (a i : 𝕜)) (fun i => (b i : 𝕜)) (m + 1) ∧
          (∀ i < m, H *ᵥ v i = (b i : 𝕜) • (if i = 0 then 0 else v (i - 1)) + (a i : 𝕜) • v i + (b (i + 1) : 𝕜) • v (i + 1)) ∧
          (m + 1 < k → b (m + 1) = 0 → H *ᵥ v m = (b m : 𝕜) • (if m = 0 then 0 else v (m - 1)) + (a m : 𝕜) • v m))
    (hx : k = n ∨ ∃ q, 1 ≤ q ∧ q < k ∧ b q = 0) :
    ∃ q, 0 < q ∧ q ≤ k ∧ (q < k → b q = 0) ∧ (cols v q)ᴴ * cols v q = 1 ∧
      H * cols v q = cols v q * tri (fun i => (a i : 𝕜)) (fun i => (b i : 𝕜)) q := by
  classical
  by_cases hz : ∃ q, 1 ≤ q ∧ q < k ∧ b q = 0
  · obtain ⟨h1, h2, h3⟩ := Nat.find_spec hz
    have hmin : ∀ l, 1 ≤ l → l < Nat.find hz → b l ≠ 0 := fun l hl1 hl2 hl3 => Nat.find_min hz hl2 ⟨hl1, by omega, hl3⟩
    obtain ⟨q, hq⟩ : ∃ q, Nat.find hz = q + 1 := ⟨Nat.find hz - 1, by omega⟩
    rw [hq] at h1 h2 h3 hmin
    obtain ⟨g1, g2, g3, g4⟩ := hall q (by omega) (fun l hl1 hl2 => hmin l hl1 (by omega))
    refine ⟨q + 1, by omega, by omega, fun _ => h3, g1, ?_⟩
    ext x l
    have e : (H * cols v (q + 1)) x l = (H *ᵥ v l) x := rfl
    have e' : (cols v (q + 1) * tri (fun i => (a i : 𝕜)) (fun i => (b i : 𝕜)) (q + 1)) x l =
      (cols v (q + 1) *ᵥ fun i => tri (fun i => (a i : 𝕜)) (fun i => (b i : 𝕜)) (q + 1) i l) x := rfl
    rw [e, e', tri_col (fun i => by simp)]
    by_cases hl : l.val < q
    · rw [g3 l hl, if_pos (show l.val + 1 < q + 1 by omega)]
    · have : l.val = q := by have := l.2; omega
      rw [this, g4 h2 h3, if_neg (show ¬ q + 1 < q + 1 by omega), add_zero]
  · have hkn : k = n := hx.resolve_right hz
    obtain ⟨q, rfl⟩ : ∃ q, k = q + 1 := ⟨k - 1, by omega⟩
    obtain ⟨g1, g2, g3, g4⟩ := hall q (by omega) (fun l hl1 hl2 hl3 => hz ⟨l, hl1, by omega, hl3⟩)
    refine ⟨q + 1, by omega, le_refl _, fun h => absurd h (by omega), g1, ?_⟩
    subst hkn
    have : cols v (q + 1) * (cols v (q + 1))ᴴ = 1 := mul_eq_one_comm.1 g1
    rw [← g2, Matrix.mul_assoc, ← Matrix.mul_assoc (cols v (q + 1)), this, Matrix.one_mul]

/-- The moments of the start vector, also when the run stops growing. -/
theorem moments_run {H : Matrix (Fin n) (Fin n) 𝕜} (hH : H.IsHermitian) {v : Nat → Fin n → 𝕜} {a b : Nat → ℝ} {k : Nat} (hk : 0 < k)
    (hall : ∀ m < k, (∀ l, 1 ≤ l → l ≤ m → b l ≠ 0) →
          (cols v (m + 1))ᴴ * cols v (m + 1) = 1 ∧
          (cols v (m + 1))ᴴ * H * cols v (m + 1) = tri (fun i => (a i : 𝕜)) (fun i => (b i : 𝕜)) (m + 1) ∧
          (∀ i < m, H *ᵥ v i = (b i : 𝕜) • (if i = 0 then 0 else v (i - 1)) + (a i : 𝕜) • v i + (b (i + 1) : 𝕜) • v (i + 1)) ∧
          (m + 1 < k → b (m + 1) = 0 → H *ᵥ v m = (b m : 𝕜) • (if m = 0 then 0 else v (m - 1)) + (a m : 𝕜) • v m))
    (j : Nat) (hj : j < 2 * k) :
    star (v 0) ⬝ᵥ ((H ^ j) *ᵥ v 0) = (tri (fun i => (a i : 𝕜)) (fun i => (b i : 𝕜)) k ^ j) ⟨0, hk⟩ ⟨0, hk⟩ := by
  by_cases hz : ∃ q, 1 ≤ q ∧ q < k ∧ b q = 0
  · obtain ⟨q, q0, qk, qb, hV, hHV⟩ := invariant_space hk hall (.inr hz)
    have h1 := congrFun (congrFun (pow_invariant hV hHV j) ⟨0, q0⟩) ⟨0, q0⟩
    have h2 := congrFun (congrFun (pow_invariant (first_unit qk)
      (first_tri qk (a := fun i => (a i : 𝕜)) (b := fun i => (b i : 𝕜)) (fun i => by simp) (fun h => by rw [qb h]; simp)) j) ⟨0, q0⟩) ⟨0, q0⟩
    have e1 : ((cols v q)ᴴ * H ^ j * cols v q) ⟨0, q0⟩ ⟨0, q0⟩ = star (v 0) ⬝ᵥ ((H ^ j) *ᵥ v 0) := by
      rw [Matrix.mul_assoc]
      rfl
    rw [← e1, h1, ← h2, first_pick hk q0]
  · obtain ⟨m, rfl⟩ : ∃ m, k = m + 1 := ⟨k - 1, by omega⟩
    obtain ⟨g1, g2, g3, _⟩ := hall m (by omega) (fun l h1 h2 h3 => hz ⟨l, h1, by omega, h3⟩)
    exact moments_tri hH (fun i => by simp) (fun i => by simp) g1 g2 g3 j hj

/-- Quotients of forms do not change with the size of the vector. -/
theorem form_normalized (M : Matrix (Fin n) (Fin n) 𝕜) {init : Fin n → 𝕜} (h0 : init ≠ 0) :
    star (fun i => init i * ((1 / Real.sqrt (∑ k, ‖init k‖ ^ 2) : ℝ) : 𝕜)) ⬝ᵥ
        (M *ᵥ fun i => init i * ((1 / Real.sqrt (∑ k, ‖init k‖ ^ 2) : ℝ) : 𝕜)) =
      (star init ⬝ᵥ (M *ᵥ init)) / (star init ⬝ᵥ init) := by
  have hpos : 0 < ∑ k, ‖init k‖ ^ 2 := by
    rw [← reDot_self]
    refine lt_of_le_of_ne (reDot_nonneg init) fun h => h0 ((reDot_eq_zero init).1 h.symm)
  have e1 : (fun i => init i * ((1 / Real.sqrt (∑ k, ‖init k‖ ^ 2) : ℝ) : 𝕜)) = ((1 / Real.sqrt (∑ k, ‖init k‖ ^ 2) : ℝ) : 𝕜) • init := by
    funext i
    rw [Pi.smul_apply, smul_eq_mul, mul_comm]
  have e2 : star init ⬝ᵥ init = ((∑ k, ‖init k‖ ^ 2 : ℝ) : 𝕜) := by
    rw [dotProduct, RCLike.ofReal_sum]
    refine Finset.sum_congr rfl fun i _ => ?_
    rw [Pi.star_apply, RCLike.star_def, RCLike.conj_mul, RCLike.ofReal_pow]
  have hne : ((∑ k, ‖init k‖ ^ 2 : ℝ) : 𝕜) ≠ 0 := RCLike.ofReal_ne_zero.2 hpos.ne'
  rw [e1, Matrix.mulVec_smul, star_smul, smul_dotProduct, dotProduct_smul, e2, smul_eq_mul, smul_eq_mul, eq_div_iff hne, RCLike.star_def,
    RCLike.conj_ofReal]
  have e3 : ((1 / Real.sqrt (∑ k, ‖init k‖ ^ 2) : ℝ) : 𝕜) * ((1 / Real.sqrt (∑ k, ‖init k‖ ^ 2) : ℝ) : 𝕜) * ((∑ k, ‖init k‖ ^ 2 : ℝ) : 𝕜) = 1 := by
    rw [← RCLike.ofReal_mul, ← RCLike.ofReal_mul, div_mul_div_comm, Real.mul_self_sqrt hpos.le, one_mul, one_div_mul_cancel hpos.ne', RCLike.ofReal_one]
  linear_combination (star init ⬝ᵥ (M *ᵥ init)) * e3

/-- **C82** The moments of the poles with the intensities of a run of Lanczos with `k` steps are those of the matrix in the start
vector, for all powers below `2 k`; intensities are not below zero and, with power zero, their sum is one. -/
theorem moments_spec {f : Heev ℝ} (hf : HeevDoc f true) (hc : ∀ jobz uplo n a lda w lwork, (f jobz uplo n a lda w lwork).info ≤ 0)
    (c : CF) (hw : c.weight ≠ 0) (p : SolverP 𝕜 n) (H : Matrix (Fin n) (Fin n) 𝕜) (hp : p.mul = (H *ᵥ ·)) (hH : H.IsHermitian)
    (hs : SameSize p) (steps : Nat) (init : Fin n → 𝕜) (h0 : init ≠ 0) (h2 : 2 ≤ min steps n)
    (hmin : n ≤ 4 ∨ p.minSteps < min steps n) (excited : Nat) :
    ∃ (r : Result 𝕜 n) (c' : CF), decompositionD p steps init excited = some r ∧ construct f c r.a r.b = .ok c' ∧
      2 ≤ r.steps ∧ r.steps ≤ min steps n ∧
      c'.eigs.length = r.steps ∧ c'.intensity.length = r.steps ∧ (∀ x ∈ c'.intensity, 0 ≤ x) ∧
      ∀ j < 2 * r.steps, ((((c'.intensity.zip c'.eigs).map fun x => x.1 * x.2 ^ j).sum : ℝ) : 𝕜) =
        (star init ⬝ᵥ ((H ^ j) *ᵥ init)) / (star init ⬝ᵥ init) := by
  obtain ⟨r, v, a, b, hr, s2, smax, la, lb, ha, hb, hv0, hall⟩ := run_facts p H hp hH hs steps init h0 h2 hmin excited
  obtain ⟨e, U, hU, hcon⟩ := construct_spec hf hc c hw (k := r.steps) (by omega) la ha hb
  refine ⟨r, _, hr, hcon, s2, smax, by simp, by simp, ?_, ?_⟩
  · intro x hx
    obtain ⟨l, rfl⟩ := (List.mem_ofFn' _ _).1 hx
    exact mul_self_nonneg _
  · intro j hj
    rw [← form_normalized (H ^ j) h0, ← hv0, moments_run hH (by omega) hall j hj, tri_map]
    have e1 : (tri a b r.steps).map ((↑) : ℝ → 𝕜) ^ j = ((tri a b r.steps) ^ j).map ((↑) : ℝ → 𝕜) :=
      (map_pow (RingHom.mapMatrix (algebraMap ℝ 𝕜)) (tri a b r.steps) j).symm
    rw [e1, Matrix.map_apply, pow_eigen hU]
    congr 1
    simp only
    rw [← List.sum_ofFn]
    congr 1
    refine List.ext_getElem (by simp) fun i h1 h2 => ?_
    simp

end

/-! ## Spectral functions -/

/-- Away from the real axis there is an inverse. -/
theorem shift_unit {n : Nat} {H : Matrix (Fin n) (Fin n) ℂ} (hH : H.IsHermitian) (z : ℂ) (hz : z.im ≠ 0) (x : ℝ) (s : ℤ) :
    IsUnit ((z - (s : ℂ) * (x : ℂ)) • (1 : Matrix (Fin n) (Fin n) ℂ) + (s : ℂ) • H).det := by
  obtain ⟨w, V, hV⟩ := eigen_exists H hH
  have hu : V * Vᴴ = 1 := mul_eq_one_comm.1 hV.unitary
  set M := (z - (s : ℂ) * (x : ℂ)) • (1 : Matrix (Fin n) (Fin n) ℂ) + (s : ℂ) • H with hM
  have hMV : M * V = V * Matrix.diagonal fun l => z - (s : ℂ) * ((x - w l : ℝ) : ℂ) := by
    rw [hM, Matrix.add_mul, Matrix.smul_mul, Matrix.smul_mul, Matrix.one_mul, hV.eigen]
    ext i j
    simp only [Matrix.add_apply, Matrix.smul_apply, Matrix.mul_diagonal, smul_eq_mul]
    push_cast
    change _ + (s : ℂ) * (V i j * ((w j : ℝ) : ℂ)) = _
    ring
  have hd : ∀ l, z - (s : ℂ) * ((x - w l : ℝ) : ℂ) ≠ 0 := by
    intro l h
    apply hz
    have := congrArg Complex.im h
    simpa using this
  have h1 := congrArg Matrix.det hMV
  rw [Matrix.det_mul, Matrix.det_mul, mul_comm] at h1
  have hVd : V.det ≠ 0 := by
    intro h
    have := congrArg Matrix.det hu
    rw [Matrix.det_mul, h, zero_mul, Matrix.det_one] at this
    exact zero_ne_one this
  have h3 := mul_left_cancel₀ hVd h1
  rw [h3, Matrix.det_diagonal]
  exact (Finset.prod_ne_zero_iff.2 fun l _ => hd l).isUnit

/-- **C82** When the run has taken as many steps as the matrix has rows, or a `b` after the first is zero, the continued fraction
of its tridiagonal matrix is the Green function of the whole matrix in the start vector, off the real axis. -/
theorem spectral_exact {n : Nat} {f : Heev ℝ} (hf : HeevDoc f true) (hc : ∀ jobz uplo n a lda w lwork, (f jobz uplo n a lda w lwork).info ≤ 0)
    (c : CF) (p : SolverP ℂ n) (H : Matrix (Fin n) (Fin n) ℂ) (hp : p.mul = (H *ᵥ ·)) (hH : H.IsHermitian)
    (hs : SameSize p) (steps : Nat) (init : Fin n → ℂ) (h0 : init ≠ 0) (h2 : 2 ≤ min steps n)
    (hmin : n ≤ 4 ∨ p.minSteps < min steps n) (excited : Nat) :
    ∃ (r : Result ℂ n) (c' : CF), decompositionD p steps init excited = some r ∧ construct f c r.a r.b = .ok c' ∧
      2 ≤ r.steps ∧ r.steps ≤ min steps n ∧
      ((r.steps = n ∨ ∃ q, 1 ≤ q ∧ r.b[q]? = some 0) → ∀ z : ℂ, z.im ≠ 0 →
        iOfOmega c' z c.eg c.isign = some (c.weight *
          ((star init ⬝ᵥ ((z • 1 - (c.isign : ℂ) • ((c.eg : ℂ) • 1 - H))⁻¹ *ᵥ init)) / (star init ⬝ᵥ init)))) := by
  obtain ⟨r, v, a, b, hr, s2, smax, la, lb, ha, hb, hv0, hall⟩ := run_facts p H hp hH hs steps init h0 h2 hmin excited
  by_cases hw : c.weight = 0
  · refine ⟨r, c, hr, by rw [construct, if_pos hw], s2, smax, fun _ z _ => ?_⟩
    rw [iOfOmega, if_pos hw, hw]
    simp
  obtain ⟨k, hk⟩ : ∃ k, r.steps = k + 1 := ⟨r.steps - 1, by omega⟩
  obtain ⟨e, U, hU, hcon⟩ := construct_spec hf hc c hw (k := k + 1) (by omega) (by omega) (fun i hi => ha i (by omega)) (fun i hi => hb i (by omega))
  refine ⟨r, _, hr, hcon, s2, smax, fun hx z hz => ?_⟩
  have hx' : r.steps = n ∨ ∃ q, 1 ≤ q ∧ q < r.steps ∧ b q = 0 := by
    refine hx.imp_right ?_
    rintro ⟨q, h1, h3⟩
    have hq : q < r.steps := by
      rw [← lb]
      exact (List.getElem?_eq_some_iff.1 h3).1
    refine ⟨q, h1, hq, ?_⟩
    have := hb q hq
    rw [h3] at this
    exact (Option.some.inj this).symm
  obtain ⟨q, q0, qk, qb, hV, hHV⟩ := invariant_space (by omega) hall hx'
  obtain ⟨q, rfl⟩ : ∃ q', q = q' + 1 := ⟨q - 1, by omega⟩
  rw [hk] at qk qb
  have hu : U * Uᵀ = 1 := by
    rw [← Matrix.conjTranspose_eq_transpose_of_trivial]
    exact mul_eq_one_comm.1 hU.unitary
  have hT : tri a b (k + 1) = U * Matrix.diagonal e * Uᵀ := by
    have := hU.eigen
    simp only [RCLike.ofReal_real_eq_id, id_eq] at this
    rw [← this, Matrix.mul_assoc, hu, Matrix.mul_one]
  have hd : ∀ l, z - (c.isign : ℂ) * ((c.eg - e l : ℝ) : ℂ) ≠ 0 := by
    intro l h
    apply hz
    have := congrArg Complex.im h
    simpa using this
  have h1 := iOfOmega_resolvent c k U (tri a b (k + 1)) e hu hT z hd
  have hdg : diagonalize c (List.ofFn e) (List.ofFn fun l => U 0 l) =
        ⟨c.matsubara, c.eg, c.weight, c.isign, List.ofFn e, List.ofFn fun l => U ⟨0, by omega⟩ l * U ⟨0, by omega⟩ l⟩ := by
    simp [diagonalize, hw, List.map_ofFn, Function.comp_def]
  rw [hdg] at h1
  rw [h1]
  congr 2
  have hmap : (tri a b (k + 1)).map ((↑) : ℝ → ℂ) = tri (fun i => ((a i : ℝ) : ℂ)) (fun i => ((b i : ℝ) : ℂ)) (k + 1) := (tri_map (𝕜 := ℂ) a b (k + 1)).symm
  rw [hmap]
  have hherm : ∀ m, (tri (fun i => ((a i : ℝ) : ℂ)) (fun i => ((b i : ℝ) : ℂ)) m).IsHermitian := fun m => tri_hermitian _ _ _ (fun i => by simp)
  have g1 := green_lanczos (k := q) _ (first (k + 1) (q + 1) : Matrix (Fin (k + 1)) (Fin (q + 1)) ℂ) _ (first_unit qk)
    (first_tri qk (a := fun i => ((a i : ℝ) : ℂ)) (b := fun i => ((b i : ℝ) : ℂ)) (fun i => by simp) (fun h => by rw [qb h]; simp))
    (z - (c.isign : ℂ) * (c.eg : ℂ)) (c.isign : ℂ) (shift_unit (hherm _) z hz c.eg c.isign) (shift_unit (hherm _) z hz c.eg c.isign)
  have g2 := green_lanczos (k := q) H (cols v (q + 1)) _ hV hHV (z - (c.isign : ℂ) * (c.eg : ℂ)) (c.isign : ℂ) (shift_unit hH z hz c.eg c.isign)
    (shift_unit (hherm _) z hz c.eg c.isign)
  have hpick := first_pick (𝕜 := ℂ) (Nat.succ_pos k) (Nat.succ_pos q)
  refine Eq.trans (g1.trans (hpick _)).symm (g2.trans ?_)
  have hsh : (z - (c.isign : ℂ) * (c.eg : ℂ)) • (1 : Matrix (Fin n) (Fin n) ℂ) + (c.isign : ℂ) • H = z • 1 - (c.isign : ℂ) • ((c.eg : ℂ) • 1 - H) := by
    rw [sub_smul, smul_sub, smul_smul]
    abel
  rw [hsh]
  refine Eq.trans ?_ (form_normalized _ h0)
  have hv0' : v 0 = fun i => init i * ((1 / Real.sqrt (∑ k, ‖init k‖ ^ 2) : ℝ) : ℂ) := hv0
  rw [Matrix.mul_assoc]
  change star (v 0) ⬝ᵥ (_ *ᵥ v 0) = _
  rw [hv0']
  rfl

/-- The hypotheses of the moments can be met: a path of five sites, for which all moments below ten agree when five steps are
made. -/
example : ∃ (p : SolverP ℝ 5) (r : Result ℝ 5) (c' : CF), decompositionD p 5 ![1, 0, 0, 0, 0] 0 = some r ∧ 2 ≤ r.steps ∧
    ∀ j < 2 * r.steps, ((c'.intensity.zip c'.eigs).map fun x => x.1 * x.2 ^ j).sum =
      ((path5 ^ j) *ᵥ ![1, 0, 0, 0, 0]) 0 := by
  obtain ⟨f, hf, hc⟩ := heev_exists (𝕜 := ℝ) true
  obtain ⟨r, c', h1, _, h2, _, _, _, _, h3⟩ := moments_spec hf hc ⟨false, 0, 1, 1, [], []⟩ one_ne_zero
    ⟨(path5 *ᵥ ·), true, 0, 4, fun a _ _ => a, fun m => ([], m)⟩ path5 rfl path5_hermitian (fun _ _ _ => rfl) 5 ![1, 0, 0, 0, 0]
    (fun h => by have := congrFun h 0; simp at this) (by decide) (.inr (show 4 < 5 by decide)) 0
  refine ⟨_, r, c', h1, h2, fun j hj => ?_⟩
  have := h3 j hj
  simp only [RCLike.ofReal_real_eq_id, id_eq] at this
  rw [this]
  simp [dotProduct, Fin.sum_univ_five]

/-- And those of the spectral function: two sites. -/
example : ∃ (p : SolverP ℂ 2) (r : Result ℂ 2) (c' : CF), decompositionD p 2 ![1, 0] 0 = some r ∧
    ∀ z : ℂ, z.im ≠ 0 → iOfOmega c' z 0 1 = some (z / (z * z - 1)) := by
  obtain ⟨f, hf, hc⟩ := heev_exists (𝕜 := ℝ) true
  obtain ⟨r, c', h1, _, h2, h3, h4⟩ := spectral_exact hf hc ⟨false, 0, 1, 1, [], []⟩
    ⟨((!![0, 1; 1, 0] : Matrix (Fin 2) (Fin 2) ℂ) *ᵥ ·), true, 0, 4, fun a _ _ => a, fun m => ([], m)⟩ !![0, 1; 1, 0] rfl
    (by ext i j; fin_cases i <;> fin_cases j <;> simp) (fun _ _ _ => rfl) 2 ![1, 0]
    (fun h => by have := congrFun h 0; simp at this) (by decide) (.inl (by decide)) 0
  refine ⟨_, r, c', h1, fun z hz => ?_⟩
  have := h4 (.inl (by have : min 2 2 = 2 := rfl; omega)) z hz
  simp only [Complex.ofReal_zero, Int.cast_one] at this
  have hm : z • (1 : Matrix (Fin 2) (Fin 2) ℂ) - (1 : ℂ) • ((0 : ℂ) • 1 - !![0, 1; 1, 0]) = !![z, 1; 1, z] := by
    ext i j
    fin_cases i <;> fin_cases j <;> simp
  rw [this, hm, Matrix.inv_def, Matrix.det_fin_two_of, Matrix.adjugate_fin_two_of]
  simp [dotProduct, Matrix.mulVec, Ring.inverse_eq_inv', div_eq_mul_inv, mul_comm]

end Verif.Spectral
