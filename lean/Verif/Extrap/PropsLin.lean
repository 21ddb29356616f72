import Verif.Extrap.Model
import Verif.SparseVec.Lemmas
import Mathlib.LinearAlgebra.Matrix.NonsingularInverse
import Mathlib.LinearAlgebra.Matrix.Notation
import Mathlib.Algebra.Order.Field.Basic
import Mathlib.Algebra.Polynomial.BigOperators
import Mathlib.Algebra.Polynomial.Monic
import Mathlib.Algebra.Order.BigOperators.Ring.Finset
import Mathlib.Tactic.Linarith
import Mathlib.Tactic.Ring
import Mathlib.Tactic.NormNum
import Mathlib.Data.Nat.Fib.Basic

/-!
# C63: linear prediction
-/

namespace Verif.Extrap

open Verif.Loop Matrix

variable {K : Type} [Field K]

/-- The prediction of the value at `i` from the values before. -/
def pred (d : Nat → K) (p : Nat) (y : Nat → K) (i : Nat) : K := ∑ j ∈ Finset.range p, d j * y (i - j - 1)

theorem back_eq {y : List K} {f : Nat → K} {m i j : Nat} (hy : ∀ k < m, y[k]? = some (f k)) (hj : j + 1 ≤ i) (hi : i ≤ m) :
    back y i j = some (f (i - j - 1)) := by
  unfold back
  rw [if_pos hj, hy _ (by omega)]

/-- **C63** `predict(p)` keeps the values there are and appends `p` values, each of which is the prediction from those before
it. -/
theorem predict_spec (ld ly : List K) (d : Nat → K) (hd : ∀ j < ld.length, ld[j]? = some (d j)) (hlen : ld.length ≤ ly.length)
    (p : Nat) :
    ∃ z, predict ld ly p = some z ∧ z.length = ly.length + p ∧ (∀ i < ly.length, z[i]? = ly[i]?) ∧
      ∀ f : Nat → K, (∀ i < z.length, z[i]? = some (f i)) → ∀ i, ly.length ≤ i → i < z.length → f i = pred d ld.length f i := by
  unfold predict
  obtain ⟨z, e, h1, h2, h3⟩ := loopFrom_inv (fun k (z : List K) => z.length = k ∧ (∀ i < ly.length, z[i]? = ly[i]?) ∧
      ∀ f : Nat → K, (∀ i < z.length, z[i]? = some (f i)) → ∀ i, ly.length ≤ i → i < z.length → f i = pred d ld.length f i)
    ly.length (ly.length + p) (by omega) (fun i y => do
      let sum ← loopN ld.length (fun j s => do
        let dj ← ld[j]?
        let yj ← back y i j
        return s + dj * yj) 0
      return y ++ [sum]) ly ⟨rfl, fun _ _ => rfl, fun f hf i h1 h2 => by omega⟩
    (by
      rintro i z hi1 hi2 ⟨g1, g2, g3⟩
      set f : Nat → K := fun k => z.getD k 0 with hf
      have hz : ∀ k < i, z[k]? = some (f k) := by
        intro k hk
        simp [hf, List.getD_eq_getElem?_getD, List.getElem?_eq_getElem (by omega : k < z.length)]
      have hs : loopN ld.length (fun j s => do
        let dj ← ld[j]?
        let yj ← back z i j
        return s + dj * yj) 0 = some (pred d ld.length f i) := by
        obtain ⟨s, e1, e2⟩ := loopN_inv (fun k s => s = ∑ j ∈ Finset.range k, d j * f (i - j - 1)) ld.length (fun j s => do
          let dj ← ld[j]?
          let yj ← back z i j
          return s + dj * yj) 0 (by simp)
          (fun j s hj hs => ⟨s + d j * f (i - j - 1), by
            rw [hd j hj, back_eq hz (by omega) le_rfl]; rfl, by
            rw [hs, Finset.sum_range_succ]⟩)
        rw [e1, e2]; rfl
      refine ⟨z ++ [pred d ld.length f i], by rw [hs]; rfl, by simp [g1], ?_, ?_⟩
      · intro k hk
        rw [List.getElem?_append_left (by omega)]; exact g2 k hk
      · intro f' hf' k hk1 hk2
        rw [List.length_append, List.length_singleton] at hf' hk2
        have hff : ∀ k < i, f' k = f k := by
          intro k hk
          have h1 := hf' k (by omega)
          rw [List.getElem?_append_left (by omega), hz k hk] at h1
          exact (Option.some.inj h1).symm
        rcases (by omega : k < i ∨ k = i) with h | rfl
        · exact g3 f' (fun l hl => by
            have := hf' l (by omega)
            rwa [List.getElem?_append_left hl] at this) k hk1 (by omega)
        · have h1 := hf' k (by omega)
          rw [List.getElem?_append_right (by omega), g1, Nat.sub_self] at h1
          have h2 : pred d ld.length f k = f' k := by simpa using h1
          rw [← h2]
          unfold pred
          refine Finset.sum_congr rfl fun j hj => ?_
          rw [hff _ (by have := Finset.mem_range.1 hj; omega)])
  exact ⟨z, e, h1, h2, h3⟩

/-- With more coefficients than values, `predict` reads before the beginning. -/
theorem predict_short_fails (ld ly : List K) (h : ly.length < ld.length) (p : Nat) (hp : 0 < p) : predict ld ly p = none := by
  have hs : ∀ m s, ly.length < m → m ≤ ld.length → loopN m (fun j s => do
        let dj ← ld[j]?
        let yj ← back ly ly.length j
        return s + dj * yj) s = none := by
    intro m
    induction m with
    | zero => intro s h1; omega
    | succ m ih =>
      intro s h1 h2
      rw [loopN]
      by_cases hm : ly.length < m
      · rw [ih s hm (by omega)]; rfl
      · have hb : back ly ly.length m = none := by unfold back; rw [if_neg (by omega)]
        have : ∀ o : Option K, (do
            let s ← o
            let dj ← ld[m]?
            let yj ← back ly ly.length m
            return s + dj * yj) = none := by
          intro o
          rw [hb]
          cases o <;> cases ld[m]? <;> rfl
        exact this _
  have key : ∀ q, 0 < q → loopFrom ly.length (ly.length + q) (fun i y => do
      let sum ← loopN ld.length (fun j s => do
        let dj ← ld[j]?
        let yj ← back y i j
        return s + dj * yj) 0
      return y ++ [sum]) ly = none := by
    intro q hq
    unfold loopFrom
    rw [Nat.add_sub_cancel_left]
    induction q with
    | zero => omega
    | succ q ih =>
      rw [loopN]
      by_cases hq0 : q = 0
      · subst hq0
        simp only [loopN, Nat.add_zero]
        have := hs ld.length 0 h le_rfl
        simp only [bind, Option.bind_some] at this ⊢
        rw [this]; rfl
      · rw [ih (by omega)]; rfl
  exact key p hp

/-! ## The coefficients -/

/-- The matrix of the normal equations. -/
def normalA (y : Nat → K) (n p : Nat) : Matrix (Fin p) (Fin p) K := fun l j => ∑ i ∈ Finset.Ico n (2 * n), y (i - l - 1) * y (i - j - 1)

/-- Their right side. -/
def normalB (y : Nat → K) (n p : Nat) : Fin p → K := fun l => ∑ i ∈ Finset.Ico n (2 * n), y (i - l - 1) * y i

theorem sum_loop (n m : Nat) (hnm : n ≤ m) (g : Nat → K) (F : Nat → K → Option K) (hF : ∀ i s, n ≤ i → i < m → F i s = some (s + g i)) :
    loopFrom n m F 0 = some (∑ i ∈ Finset.Ico n m, g i) := by
  obtain ⟨s, e, h⟩ := loopFrom_inv (fun k s => s = ∑ i ∈ Finset.Ico n k, g i) n m hnm F 0 (by simp)
    (fun i s h1 h2 hs => ⟨_, hF i s h1 h2, by rw [hs, Finset.sum_Ico_succ_top h1]⟩)
  rw [e, h]

/-- **C63** The constructor: an odd number of values is refused; with at most half as many coefficients as values, it sets up the
normal equations of the least squares problem over the second half. -/
theorem ctor_spec (ly : List K) (y : Nat → K) (hy : ∀ i < ly.length, ly[i]? = some (y i)) (n p : Nat) (hn : ly.length = 2 * n)
    (hp : p ≤ n) :
    ∃ la lb, ctor ly p = .ok (la, lb) ∧ la.length = p ∧ lb.length = p ∧
      (∀ l : Fin p, ∃ row, la[l.val]? = some row ∧ row.length = p ∧ ∀ j : Fin p, row[j.val]? = some (normalA y n p l j)) ∧
      ∀ l : Fin p, lb[l.val]? = some (normalB y n p l) := by
  have hA : ∀ l j, l < p → j < p → elemA ly n l j = some (∑ i ∈ Finset.Ico n (2 * n), y (i - l - 1) * y (i - j - 1)) := by
    intro l j hl hj
    unfold elemA
    refine sum_loop n (2 * n) (by omega) _ _ fun i s h1 h2 => ?_
    rw [back_eq hy (by omega) (by omega), back_eq hy (by omega) (by omega)]; rfl
  have hB : ∀ l, l < p → elemB ly n l = some (∑ i ∈ Finset.Ico n (2 * n), y (i - l - 1) * y i) := by
    intro l hl
    unfold elemB
    refine sum_loop n (2 * n) (by omega) _ _ fun i s h1 h2 => ?_
    rw [back_eq hy (by omega) (by omega), hy i (by omega)]; rfl
  have mapR : ∀ {γ : Type} (F : Nat → Option γ) (g : Nat → γ), (∀ i < p, F i = some (g i)) →
      (List.range p).mapM F = some ((List.range p).map g) := by
    intro γ F g h
    have : ∀ l : List Nat, (∀ i ∈ l, i < p) → l.mapM F = some (l.map g) := by
      intro l
      induction l with
      | nil => intro _; rfl
      | cons a l ih =>
        intro hl
        rw [List.mapM_cons, h a (hl a (by simp)), ih fun i hi => hl i (by simp [hi])]; rfl
    exact this _ fun i hi => by simpa using hi
  have e1 : computeA ly n p = some ((List.range p).map fun l => (List.range p).map fun j =>
      ∑ i ∈ Finset.Ico n (2 * n), y (i - l - 1) * y (i - j - 1)) := by
    unfold computeA
    exact mapR _ _ fun l hl => mapR _ _ fun j hj => hA l j hl hj
  have e2 : computeB ly n p = some ((List.range p).map fun l => ∑ i ∈ Finset.Ico n (2 * n), y (i - l - 1) * y i) := by
    unfold computeB
    exact mapR _ _ fun l hl => hB l hl
  refine ⟨(List.range p).map fun l => (List.range p).map fun j => ∑ i ∈ Finset.Ico n (2 * n), y (i - l - 1) * y (i - j - 1),
    (List.range p).map fun l => ∑ i ∈ Finset.Ico n (2 * n), y (i - l - 1) * y i, ?_, ?_, ?_, ?_, ?_⟩
  · unfold ctor
    rw [if_neg (by omega), show ly.length / 2 = n by omega, e1, e2]
  · simp
  · simp
  · intro l
    refine ⟨_, by rw [List.getElem?_map, List.getElem?_range l.2]; rfl, by simp, fun j => ?_⟩
    rw [List.getElem?_map, List.getElem?_range j.2]; rfl
  · intro l
    rw [List.getElem?_map, List.getElem?_range l.2]; rfl

/-- **C63** -/
theorem ctor_odd (ly : List K) (p : Nat) (h : ly.length % 2 = 1) : ctor ly p = throwOut := by
  unfold ctor; rw [if_pos h]

/-- With more coefficients than half the number of values the constructor reads before the beginning. -/
theorem ctor_many_fails (ly : List K) (n p : Nat) (hn : ly.length = 2 * n) (h0 : 0 < n) (hp : n < p) : ctor ly p = ubOut := by
  have hz : ∀ s : K, (do
      let a ← back ly n n
      let b ← ly[n]?
      return s + a * b) = none := by
    intro s
    have : back ly n n = none := by unfold back; rw [if_neg (by omega)]
    rw [this]; rfl
  have hfirst : ∀ (F : Nat → K → Option K), F n 0 = none → ∀ m, loopN (m + 1) (fun i => F (n + i)) 0 = none := by
    intro F hF m
    induction m with
    | zero => rw [loopN]; simpa [loopN] using hF
    | succ m ih => rw [loopN, ih]; rfl
  have e2 : computeB ly n p = none := by
    unfold computeB
    have hb : elemB ly n n = none := by
      unfold elemB loopFrom
      obtain ⟨m, hm⟩ : ∃ m, 2 * n - n = m + 1 := ⟨n - 1, by omega⟩
      rw [hm]
      exact hfirst (fun i s => do
        let a ← back ly i n
        let b ← ly[i]?
        return s + a * b) (hz 0) m
    have : ∀ l : List Nat, n ∈ l → l.mapM (fun l => elemB ly n l) = none := by
      intro l
      induction l with
      | nil => intro h; simp at h
      | cons a l ih =>
        intro hl
        rw [List.mapM_cons]
        by_cases ha : a = n
        · rw [ha, hb]; rfl
        · have := ih (by simpa [Ne.symm ha] using hl)
          rw [this]
          cases elemB ly n a <;> rfl
    exact this _ (by simpa using hp)
  unfold ctor
  rw [if_neg (by omega), show ly.length / 2 = n by omega, e2]
  cases computeA ly n p <;> rfl

/-- **C63** A solution of the normal equations is best: no other coefficients have a smaller sum of the squares of the errors. -/
theorem normal_least {R : Type} [Field R] [LinearOrder R] [IsStrictOrderedRing R] (y : Nat → R) (n p : Nat) (d : Fin p → R)
    (hd : normalA y n p *ᵥ d = normalB y n p) (c : Fin p → R) :
    ∑ i ∈ Finset.Ico n (2 * n), (y i - ∑ j, d j * y (i - j - 1)) ^ 2 ≤ ∑ i ∈ Finset.Ico n (2 * n), (y i - ∑ j, c j * y (i - j - 1)) ^ 2 := by
  set e : Nat → R := fun i => y i - ∑ j, d j * y (i - j - 1) with he
  set w : Nat → R := fun i => ∑ j, (d j - c j) * y (i - j - 1) with hw
  have horth : ∀ l : Fin p, ∑ i ∈ Finset.Ico n (2 * n), y (i - l - 1) * e i = 0 := by
    intro l
    have h := congrFun hd l
    simp only [mulVec, dotProduct, normalA, normalB] at h
    simp only [he, mul_sub, Finset.sum_sub_distrib]
    rw [← h, sub_eq_zero]
    simp only [Finset.sum_mul, Finset.mul_sum]
    rw [Finset.sum_comm]
    refine Finset.sum_congr rfl fun i _ => Finset.sum_congr rfl fun j _ => ?_
    ring
  have hcross : ∑ i ∈ Finset.Ico n (2 * n), w i * e i = 0 := by
    simp only [hw, Finset.sum_mul]
    rw [Finset.sum_comm]
    refine Finset.sum_eq_zero fun j _ => ?_
    have : ∀ i, (d j - c j) * y (i - j - 1) * e i = (d j - c j) * (y (i - j - 1) * e i) := fun i => by ring
    simp only [this]
    rw [← Finset.mul_sum, horth j, mul_zero]
  have hsplit : ∀ i, y i - ∑ j, c j * y (i - j - 1) = e i + w i := by
    intro i
    simp only [he, hw, sub_mul, Finset.sum_sub_distrib]
    ring
  have : ∑ i ∈ Finset.Ico n (2 * n), (y i - ∑ j, c j * y (i - j - 1)) ^ 2 =
      ∑ i ∈ Finset.Ico n (2 * n), (e i) ^ 2 + ∑ i ∈ Finset.Ico n (2 * n), (w i) ^ 2 := by
    rw [← Finset.sum_add_distrib]
    have h2 : ∑ i ∈ Finset.Ico n (2 * n), (y i - ∑ j, c j * y (i - j - 1)) ^ 2 =
        ∑ i ∈ Finset.Ico n (2 * n), (e i ^ 2 + w i ^ 2) + 2 * ∑ i ∈ Finset.Ico n (2 * n), w i * e i := by
      rw [Finset.mul_sum, ← Finset.sum_add_distrib]
      refine Finset.sum_congr rfl fun i _ => ?_
      rw [hsplit]; ring
    rw [h2, hcross, mul_zero, add_zero]
  rw [this]
  have : 0 ≤ ∑ i ∈ Finset.Ico n (2 * n), (w i) ^ 2 := Finset.sum_nonneg fun i _ => sq_nonneg _
  linarith

/-- **C63** If the values obey a recurrence exactly and the matrix is not singular, the coefficients are those of the recurrence. -/
theorem normal_exact (y : Nat → K) (n p : Nat) (c d : Fin p → K) (hc : ∀ i, n ≤ i → i < 2 * n → y i = ∑ j, c j * y (i - j - 1))
    (hA : IsUnit (normalA y n p).det) (hd : normalA y n p *ᵥ d = normalB y n p) : d = c := by
  have h : normalA y n p *ᵥ c = normalB y n p := by
    funext l
    simp only [mulVec, dotProduct, normalA, normalB, Finset.sum_mul]
    rw [Finset.sum_comm]
    refine Finset.sum_congr rfl fun i hi => ?_
    rw [Finset.mem_Ico] at hi
    rw [hc i hi.1 hi.2, Finset.mul_sum]
    refine Finset.sum_congr rfl fun j _ => ?_
    ring
  have := hd.trans h.symm
  exact Matrix.mulVec_injective_of_isUnit ((Matrix.isUnit_iff_isUnit_det _).2 hA) this

/-- **C63** So a series that obeys a recurrence is continued exactly. -/
theorem predict_exact (ly ld : List K) (y : Nat → K) (hy : ∀ i < ly.length, ly[i]? = some (y i)) (n p : Nat) (hn : ly.length = 2 * n)
    (hp : p ≤ n) (c : Nat → K) (hc : ∀ i, n ≤ i → y i = pred c p y i) (hA : IsUnit (normalA y n p).det) (d : Nat → K)
    (hld : ld.length = p) (hd : ∀ j < p, ld[j]? = some (d j)) (hsol : normalA y n p *ᵥ (fun j : Fin p => d j) = normalB y n p)
    (q : Nat) : ∃ z, predict ld ly q = some z ∧ z.length = 2 * n + q ∧ ∀ i < 2 * n + q, z[i]? = some (y i) := by
  have hdc : ∀ j < p, d j = c j := by
    have := normal_exact y n p (fun j => c j) (fun j => d j)
      (fun i h1 h2 => by rw [hc i h1, pred, Finset.sum_range]) hA hsol
    intro j hj
    exact congrFun this ⟨j, hj⟩
  obtain ⟨z, e, h1, h2, h3⟩ := predict_spec ld ly d (fun j hj => hd j (by omega)) (by omega) q
  refine ⟨z, e, by omega, ?_⟩
  set f : Nat → K := fun i => z.getD i 0 with hf
  have hz : ∀ i < z.length, z[i]? = some (f i) := by
    intro i hi
    simp [hf, List.getD_eq_getElem?_getD, List.getElem?_eq_getElem hi]
  have hfy : ∀ i, i < 2 * n + q → f i = y i := by
    intro i
    induction i using Nat.strong_induction_on with
    | _ i ih =>
      intro hi
      by_cases hlt : i < ly.length
      · have := h2 i hlt
        rw [hz i (by omega), hy i hlt] at this
        exact Option.some.inj this
      · rw [h3 f hz i (by omega) (by omega), hc i (by omega), hld]
        unfold pred
        refine Finset.sum_congr rfl fun j hj => ?_
        have := Finset.mem_range.1 hj
        rw [hdc j this, ih (i - j - 1) (by omega) (by omega)]
  intro i hi
  rw [hz i (by omega), hfy i hi]

/-! ## Polynomials from roots -/

open Polynomial

/-- The list has the coefficients of a polynomial. -/
def Coeffs (l : List K) (m : Nat) (q : K[X]) : Prop := ∀ i < m, l[i]? = some (q.coeff i)

theorem roots_monic (l : List K) :
    ((l.map fun r => X - C r).prod).Monic ∧ ((l.map fun r => X - C r).prod).natDegree = l.length := by
  induction l with
  | nil => simp
  | cons r l ih =>
    rw [List.map_cons, List.prod_cons]
    refine ⟨(monic_X_sub_C r).mul ih.1, ?_⟩
    rw [(monic_X_sub_C r).natDegree_mul ih.1, ih.2, natDegree_X_sub_C, List.length_cons, Nat.add_comm]

theorem rootsInner_spec (r : K) (i : Nat) (ab : List K) (f : Nat → K) (hl : i + 1 ≤ ab.length) (hf : ∀ k ≤ i, ab[k]? = some (f k)) :
    ∃ ab', rootsInner r i ab = some ab' ∧ ab'.length = ab.length ∧ ab'[0]? = ab[0]? ∧ (∀ k, 1 ≤ k → k ≤ i → ab'[k]? = some (f (k - 1) - r * f k)) ∧
      ∀ k, i < k → ab'[k]? = ab[k]? := by
  induction i generalizing ab with
  | zero => exact ⟨ab, rfl, rfl, rfl, fun k h1 h2 => by omega, fun _ _ => rfl⟩
  | succ i ih =>
    obtain ⟨ab', e, h1, h0, h2, h3⟩ := ih (ab.set (i + 1) (f i - r * f (i + 1))) (by simp; omega)
      (fun k hk => by rw [List.getElem?_set_ne (by omega)]; exact hf k (by omega))
    refine ⟨ab', ?_, by simpa using h1, ?_, ?_, ?_⟩
    · rw [rootsInner, hf i (by omega), hf (i + 1) le_rfl]
      simp only [bind, Option.bind_some]
      rw [setAt_some (by omega), Option.bind_some]
      exact e
    · rw [h0, List.getElem?_set_ne (by omega)]
    · intro k hk1 hk2
      rcases (by omega : k ≤ i ∨ k = i + 1) with h | rfl
      · exact h2 k hk1 h
      · rw [h3 _ (by omega), List.getElem?_set_self (by omega), Nat.add_sub_cancel]
    · intro k hk
      rw [h3 k (by omega), List.getElem?_set_ne (by omega)]

/-- **C63** The reconstruction gives the coefficients of the product of `X - r` over the roots. -/
theorem fromRoots_spec (roots : List K) (h : roots ≠ []) :
    ∃ ab, fromRoots roots = some ab ∧ ab.length = roots.length + 1 ∧
      ∀ i < roots.length + 1, ab[i]? = some (((roots.map fun r => X - C r).prod).coeff i) := by
  obtain ⟨r0, rs, rfl⟩ := List.exists_cons_of_ne_nil h
  set roots := r0 :: rs with hr
  have hlen : 0 < roots.length := by simp [hr]
  unfold fromRoots
  simp only
  have h0 : roots[0]? = some r0 := by simp [hr]
  rw [h0]
  simp only [bind, Option.bind_some]
  rw [setAt_some (by simp), Option.bind_some, setAt_some (by simp; omega), Option.bind_some]
  obtain ⟨ab, e, h1, h2⟩ := loopFrom_inv (fun k (ab : List K) => ab.length = roots.length + 1 ∧
      Coeffs ab (k + 1) (((roots.take k).map fun r => X - C r).prod)) 1 roots.length hlen
    (fun j ab => do
      let ab ← setAt ab (j + 1) 1
      let r ← roots[j]?
      let ab ← rootsInner r j ab
      let x ← ab[0]?
      setAt ab 0 (-r * x)) (((List.replicate (roots.length + 1) (0 : K)).set 0 (-r0)).set 1 1)
    (by
      refine ⟨by simp, ?_⟩
      have : (roots.take 1).map (fun r => X - C r) = [X - C r0] := by simp [hr]
      rw [this, List.prod_singleton]
      intro i hi
      rcases (by omega : i = 0 ∨ i = 1) with rfl | rfl
      · rw [List.getElem?_set_ne (by omega), List.getElem?_set_self (by simp)]; simp
      · rw [List.getElem?_set_self (by simp; omega)]
        simp [coeff_C])
    (by
      rintro j ab hj1 hj2 ⟨g1, g2⟩
      set q := ((roots.take j).map fun r => X - C r).prod with hq
      obtain ⟨hqm, hqd⟩ : q.Monic ∧ q.natDegree = j := by
        have := roots_monic (roots.take j)
        rw [List.length_take, Nat.min_eq_left (by omega)] at this
        exact this
      obtain ⟨r, hrj⟩ : ∃ r, roots[j]? = some r := ⟨roots[j], List.getElem?_eq_getElem hj2⟩
      have hab : ∀ k ≤ j, (ab.set (j + 1) 1)[k]? = some (q.coeff k) := by
        intro k hk
        rw [List.getElem?_set_ne (by omega)]; exact g2 k (by omega)
      obtain ⟨ab', e, h1, h0', h2, h3⟩ := rootsInner_spec r j (ab.set (j + 1) 1) (fun k => q.coeff k) (by simp; omega) hab
      have h00 : ab'[0]? = some (q.coeff 0) := by rw [h0']; exact hab 0 (by omega)
      have hl' : ab'.length = roots.length + 1 := by rw [h1]; simpa using g1
      refine ⟨ab'.set 0 (-r * q.coeff 0), ?_, by simpa using hl', ?_⟩
      · simp only [bind]
        rw [setAt_some (by omega), Option.bind_some, hrj, Option.bind_some, e, Option.bind_some, h00, Option.bind_some,
          setAt_some (by omega)]
      · have hprod : ((roots.take (j + 1)).map fun r => X - C r).prod = q * (X - C r) := by
          rw [List.take_succ, hrj]; simp [hq]
        rw [hprod]
        intro k hk
        rw [mul_sub, coeff_sub, coeff_mul_C]
        rcases (by omega : k = 0 ∨ (1 ≤ k ∧ k ≤ j) ∨ k = j + 1) with rfl | ⟨hk1, hk2⟩ | rfl
        · rw [List.getElem?_set_self (by omega)]; simp [mul_comm]
        · obtain ⟨m, rfl⟩ : ∃ m, k = m + 1 := ⟨k - 1, by omega⟩
          rw [List.getElem?_set_ne (by omega), h2 _ hk1 hk2, coeff_mul_X, Nat.add_sub_cancel, mul_comm]
        · rw [List.getElem?_set_ne (by omega), h3 _ (by omega), List.getElem?_set_self (by omega), coeff_mul_X]
          have c1 : q.coeff j = 1 := by rw [← hqd]; exact hqm
          have c2 : q.coeff (j + 1) = 0 := coeff_eq_zero_of_natDegree_lt (by omega)
          rw [c1, c2]; simp)
  refine ⟨ab, ?_, h1, ?_⟩
  · exact e
  · rw [List.take_length] at h2
    exact h2

/-! ## Examples -/

example : predict ([1, 1] : List ℚ) [1, 1, 2, 3] 3 = some [1, 1, 2, 3, 5, 8, 13] := by decide +kernel

example : ctor ([1, 1, 2, 3] : List ℚ) 2 = .ok ([[5, 3], [3, 2]], [8, 5]) := by decide +kernel

example : fromRoots ([1, 2, 3] : List ℚ) = some [-6, 11, -6, 1] := by decide +kernel

example : IsUnit (normalA (fun i => Nat.fib (i + 1) : Nat → ℚ) 2 2).det := by
  rw [Matrix.det_fin_two]
  simp [normalA, Finset.sum_Ico_eq_sum_range, Finset.sum_range_succ]
  norm_num [Nat.fib]

/-! ## Concrete cases of the hypotheses: the Fibonacci numbers 1, 1, 2, 3, each the sum of the two before it. -/

theorem fib_at : ∀ i < ([1, 1, 2, 3] : List ℚ).length, ([1, 1, 2, 3] : List ℚ)[i]? = some ((Nat.fib (i + 1) : ℚ)) := by
  intro i hi
  match i, hi with
  | 0, _ | 1, _ | 2, _ | 3, _ => norm_num [Nat.fib_add_two]

theorem fib_unit : IsUnit (normalA (fun i => (Nat.fib (i + 1) : ℚ)) 2 2).det := by
  rw [isUnit_iff_ne_zero, Matrix.det_fin_two]
  norm_num [normalA, Finset.sum_Ico_succ_top, Nat.fib_add_two]

theorem fib_solves : normalA (fun i => (Nat.fib (i + 1) : ℚ)) 2 2 *ᵥ (fun _ : Fin 2 => (1 : ℚ)) = normalB (fun i => (Nat.fib (i + 1) : ℚ)) 2 2 := by
  funext l
  fin_cases l <;> norm_num [normalA, normalB, Matrix.mulVec, dotProduct, Finset.sum_Ico_succ_top, Nat.fib_add_two, Fin.sum_univ_two]

theorem fib_rule (i : Nat) (h : 2 ≤ i) : (Nat.fib (i + 1) : ℚ) = pred (fun _ => 1) 2 (fun i => (Nat.fib (i + 1) : ℚ)) i := by
  obtain ⟨k, rfl⟩ := Nat.exists_eq_add_of_le' h
  simp [pred, Finset.sum_range_succ, Nat.fib_add_two]
  ring

example := ctor_spec [1, 1, 2, 3] _ fib_at 2 2 rfl (by decide)
example := predict_exact [1, 1, 2, 3] [1, 1] _ fib_at 2 2 rfl (by decide) (fun _ => 1) fib_rule fib_unit (fun _ => 1) rfl
  (by intro j hj; match j, hj with | 0, _ | 1, _ => rfl) fib_solves 5
example := normal_exact _ 2 2 (fun _ => 1) _ (fun i h _ => by
  rw [fib_rule i h]; simp [pred, Finset.sum_range_succ, Fin.sum_univ_two]) fib_unit fib_solves
example := normal_least _ 2 2 _ fib_solves (fun _ => 7)
example := predict_spec ([1, 1] : List ℚ) [1, 1, 2, 3] (fun _ => 1) (by intro j hj; match j, hj with | 0, _ | 1, _ => rfl) (by decide) 3
example := predict_short_fails ([1, 1, 1] : List ℚ) [1, 1] (by decide) 2 (by decide)
example := ctor_many_fails ([1, 1, 2, 3] : List ℚ) 2 3 rfl (by decide) (by decide)
example := ctor_odd ([1, 1, 2] : List ℚ) 1 rfl
example := fromRoots_spec ([2, 3] : List ℚ) (by simp)

end Verif.Extrap
