import Verif.Vec.Model
import Mathlib.Analysis.InnerProductSpace.PiL2
import Mathlib.Tactic.Ring

/-!
# C73: products, norms and searches of vectors
-/

namespace Verif.Vec

open Verif.Loop

variable {R : Type}

theorem loop_sum [CommRing R] (n : Nat) (f : Nat → Option R) (g : Fin n → R) (h : ∀ i : Fin n, f i = some (g i)) :
    loopN n (fun i s => do
      let a ← f i
      return s + a) 0 = some (∑ i, g i) := by
  induction n with
  | zero => rfl
  | succ n ih =>
    have := ih (fun i => g i.castSucc) (fun i => h i.castSucc)
    rw [loopN, this, Fin.sum_univ_castSucc]
    have h2 := h (Fin.last n)
    simp only [Fin.val_last] at h2
    simp [h2]

theorem dot_sum [CommRing R] [StarRing R] (v w : List R) (h : v.length = w.length) :
    dot v w = .ok (∑ i : Fin v.length, v[i] * star (w[i.1]'(h ▸ i.2))) := by
  unfold dot
  rw [if_neg (by simp [h])]
  have := loop_sum v.length (fun i => do
    let a ← v[i]?
    let b ← w[i]?
    return a * star b) (fun i : Fin v.length => v[i] * star (w[i.1]'(h ▸ i.2))) (by
      intro i
      have h1 : v[i.1]? = some v[i] := List.getElem?_eq_getElem i.2
      have h2 : w[i.1]? = some (w[i.1]'(h ▸ i.2)) := List.getElem?_eq_getElem _
      simp [h1, h2])
  have e : (fun (i : Nat) (s : R) => (do
      let a ← v[i]?
      let b ← w[i]?
      return s + a * star b : Option R)) = fun i s => do
      let a ← (do
        let a ← v[i]?
        let b ← w[i]?
        return a * star b : Option R)
      return s + a := by
    funext i s
    cases v[i]? <;> cases w[i]? <;> rfl
  rw [e, this]

theorem scalarProduct_sum [CommRing R] [StarRing R] (v w : List R) (h : v.length = w.length) :
    scalarProduct v w = .ok (∑ i : Fin v.length, star v[i] * (w[i.1]'(h ▸ i.2))) := by
  unfold scalarProduct
  rw [if_neg (by simp [h])]
  have := loop_sum v.length (fun i => do
    let a ← v[i]?
    let b ← w[i]?
    return star a * b) (fun i : Fin v.length => star v[i] * (w[i.1]'(h ▸ i.2))) (by
      intro i
      have h1 : v[i.1]? = some v[i] := List.getElem?_eq_getElem i.2
      have h2 : w[i.1]? = some (w[i.1]'(h ▸ i.2)) := List.getElem?_eq_getElem _
      simp [h1, h2])
  have e : (fun (i : Nat) (s : R) => (do
      let a ← v[i]?
      let b ← w[i]?
      return s + star a * b : Option R)) = fun i s => do
      let a ← (do
        let a ← v[i]?
        let b ← w[i]?
        return star a * b : Option R)
      return s + a := by
    funext i s
    cases v[i]? <;> cases w[i]? <;> rfl
  rw [e, this]

/-- **C73** The product of two vectors conjugates the second one, `scalarProduct` the first one; they are conjugate to
each other, and each is the other with the operands exchanged.  Vectors of different sizes are refused. -/
theorem dot_spec [CommRing R] [StarRing R] {n : Nat} (v w : Fin n → R) :
    dot (List.ofFn v) (List.ofFn w) = .ok (∑ i, v i * star (w i)) ∧
    scalarProduct (List.ofFn v) (List.ofFn w) = .ok (∑ i, star (v i) * w i) ∧
    scalarProduct (List.ofFn w) (List.ofFn v) = dot (List.ofFn v) (List.ofFn w) := by
  have h1 : dot (List.ofFn v) (List.ofFn w) = .ok (∑ i, v i * star (w i)) := by
    rw [dot_sum _ _ (by simp)]
    congr 1
    refine Fintype.sum_equiv (finCongr (by simp)) _ _ ?_
    intro i
    simp
    rfl
  have h2 : ∀ v w : Fin n → R, scalarProduct (List.ofFn v) (List.ofFn w) = .ok (∑ i, star (v i) * w i) := by
    intro v w
    rw [scalarProduct_sum _ _ (by simp)]
    congr 1
    refine Fintype.sum_equiv (finCongr (by simp)) _ _ ?_
    intro i
    simp
    rfl
  refine ⟨h1, h2 v w, ?_⟩
  rw [h1, h2 w v]
  congr 1
  exact Finset.sum_congr rfl fun i _ => mul_comm _ _

theorem dot_sizes [CommRing R] [StarRing R] (v w : List R) (h : v.length ≠ w.length) :
    dot v w = throwOut ∧ scalarProduct v w = throwOut := by
  simp [dot, scalarProduct, h]

example : ([1, 2] : List ℤ).length ≠ ([1] : List ℤ).length := by decide

/-- **C73** The norm is the Euclidean norm, of real and of complex vectors. -/
theorem norm_spec {n : Nat} (v : Fin n → ℝ) (z : Fin n → ℂ) :
    normReal (List.ofFn v) = .ok ‖(WithLp.toLp 2 v : EuclideanSpace ℝ (Fin n))‖ ∧
    normComplex (List.ofFn z) = .ok ‖(WithLp.toLp 2 z : EuclideanSpace ℂ (Fin n))‖ := by
  constructor
  · unfold normReal
    rw [(dot_spec v v).1]
    simp only [bind, Except.bind, pure, Except.pure]
    rw [EuclideanSpace.norm_eq]
    congr 2
    refine Finset.sum_congr rfl fun i _ => ?_
    simp [sq]
  · unfold normComplex
    rw [(dot_spec z z).1]
    have e : ∑ i, z i * star (z i) = ((∑ i, ‖z i‖ ^ 2 : ℝ) : ℂ) := by
      rw [Complex.ofReal_sum]
      refine Finset.sum_congr rfl fun i _ => ?_
      rw [Complex.star_def, Complex.mul_conj, Complex.normSq_eq_norm_sq]
    simp only [bind, Except.bind, e, Complex.ofReal_im, Complex.ofReal_re]
    rw [if_neg (by norm_num), EuclideanSpace.norm_eq]
    rfl

/-- **C73** The product of a vector of vectors and a vector goes out of range, whatever they are, unless the vector is
empty: the inner loop does not end. -/
theorem matVec_fails [CommRing R] (fuel : Nat) (v1 : List (List R)) (v2 : List R) (h : v2 ≠ []) :
    matVec fuel v1 v2 = none := by
  have key : ∀ fuel j acc, rowLoop v1 v2 0 fuel j acc = none := by
    intro fuel
    induction fuel with
    | zero => intro j acc; rfl
    | succ fuel ih =>
      intro j acc
      unfold rowLoop
      rw [if_pos (List.length_pos_iff.2 h)]
      cases v1[0]? with
      | none => rfl
      | some row =>
        simp only [bind, Option.bind_some]
        cases row[j]? with
        | none => rfl
        | some a =>
          simp only [Option.bind_some]
          cases v2[j]? with
          | none => rfl
          | some b => simp only [Option.bind_some]; exact ih _ _
  have first : ∀ n, 0 < n → ∀ s, loopN n (fun i (v3 : List R) => do
      let a ← rowLoop v1 v2 i fuel 0 0
      setAt v3 i a) s = none := by
    intro n
    induction n with
    | zero => intro h; omega
    | succ n ih =>
      intro _ s
      rw [loopN]
      by_cases hn : n = 0
      · subst hn
        simp [loopN, key]
      · rw [ih (by omega)]; rfl
  exact first _ (List.length_pos_iff.2 h) _

/-- **C73** `sum` adds all elements. -/
theorem sum_spec [CommRing R] (v : List R) : sum v = some v.sum := by
  unfold sum
  rw [loop_sum v.length (fun i => v[i]?) (fun i => v[i]) (fun i => List.getElem?_eq_getElem i.2)]
  rw [← Fin.sum_univ_getElem]
  rfl

/-- **C73** `indexOrMinusOne` gives the first position of the element, or -1 if there is none. -/
theorem indexOrMinusOne_spec [DecidableEq R] (v : List R) (x : R) (hv : v.length ≤ 2 ^ 31) :
    (x ∉ v ∧ indexOrMinusOne v x = -1) ∨
    ∃ i : Nat, indexOrMinusOne v x = i ∧ v[i]? = some x ∧ ∀ j, j < i → v[j]? ≠ some x := by
  by_cases h : x ∈ v
  · right
    have hl := List.idxOf_lt_length_of_mem h
    refine ⟨v.idxOf x, ?_, ?_, ?_⟩
    · unfold indexOrMinusOne
      rw [if_neg (by omega)]
      exact Int.bmod_eq_of_le (by omega) (by omega)
    · rw [List.getElem?_eq_getElem hl, List.getElem_idxOf]
    · intro j hj e
      obtain ⟨hj', e⟩ := List.getElem?_eq_some_iff.1 e
      have := List.not_of_lt_findIdx (p := (· == x)) (xs := v) (i := j) hj
      simp [e] at this
  · left
    refine ⟨h, ?_⟩
    unfold indexOrMinusOne
    rw [if_pos (List.idxOf_eq_length h)]

example : indexOrMinusOne [5, 7, 7] 7 = 1 ∧ indexOrMinusOne [5, 7, 7] 8 = -1 := by decide

/-- **C73** With more than 2³¹ elements a position does not fit an `int`: it is taken for "not found", or is negative. -/
theorem indexOrMinusOne_fails : indexOrMinusOne (List.replicate (2 ^ 32 - 1) 0 ++ [1]) 1 = -1 := by
  have : (List.replicate (2 ^ 32 - 1) 0 ++ [1]).idxOf 1 = 2 ^ 32 - 1 := by
    rw [List.idxOf_append_of_notMem (by
      intro h
      exact absurd (List.eq_of_mem_replicate h) (by decide)), List.length_replicate]
    rfl
  unfold indexOrMinusOne
  rw [this, List.length_append, List.length_replicate]
  rfl

theorem basenameLoop_dot (stem ext : List Char) (h : '.' ∉ ext) :
    basenameLoop (stem ++ '.' :: ext) (stem ++ '.' :: ext).length 0 0 = stem.length := by
  have key : ∀ k i j, i ≤ ext.length → k + i = (stem ++ '.' :: ext).length →
      basenameLoop (stem ++ '.' :: ext) k i j = stem.length := by
    intro k
    induction k with
    | zero => intro i j hi hk; simp at hk; omega
    | succ k ih =>
      intro i j hi hk
      unfold basenameLoop
      have hl : (stem ++ '.' :: ext).length = stem.length + ext.length + 1 := by simp; omega
      by_cases e : i = ext.length
      · have : (stem ++ '.' :: ext).length - i - 1 = stem.length := by omega
        rw [this, if_pos (by simp)]
      · have hne : (stem ++ '.' :: ext)[(stem ++ '.' :: ext).length - i - 1]? ≠ some '.' := by
          rw [List.getElem?_append_right (by omega)]
          have : (stem ++ '.' :: ext).length - i - 1 - stem.length = (ext.length - i - 1) + 1 := by omega
          rw [this, List.getElem?_cons_succ]
          intro hh
          exact h (List.mem_of_getElem? hh)
        rw [if_neg hne]
        exact ih _ _ (by omega) (by omega)
  exact key _ _ _ (by omega) (by omega)

/-- **C73** `basenameOf` gives a prefix of the name that has the right length only if what is before the last period is as
long as what follows, with the period. -/
theorem basenameOf_spec (stem ext : List Char) (h : '.' ∉ ext) :
    basenameOf (stem ++ '.' :: ext) = (stem ++ '.' :: ext).take (ext.length + 1) ∧
    (basenameOf (stem ++ '.' :: ext) = stem ↔ stem.length = ext.length + 1) := by
  have e : basenameOf (stem ++ '.' :: ext) = (stem ++ '.' :: ext).take (ext.length + 1) := by
    unfold basenameOf
    rw [basenameLoop_dot stem ext h]
    congr 1
    simp
  refine ⟨e, ?_⟩
  rw [e]
  constructor
  · intro h1
    have := congrArg List.length h1
    simp at this
    omega
  · intro h1
    rw [← h1]
    simp

/-- **C73** For other names `basenameOf` is wrong: for `a.txt` it gives `a.tx`. -/
theorem basenameOf_fails : basenameOf "a.txt".toList = "a.tx".toList ∧ basenameOf "data.h".toList = "da".toList := by decide

/-! ## Cases -/

example : basenameOf "ab.c".toList = "ab".toList := (basenameOf_spec "ab".toList "c".toList (by decide)).2.2 rfl
example := dot_sizes [(1 : ℤ), 2] [3] (by decide)
example := indexOrMinusOne_spec [(4 : ℤ), 5, 4] 4 (by decide)
example := matVec_fails 100 [[(1 : ℤ)]] [2] (by decide)

end Verif.Vec
