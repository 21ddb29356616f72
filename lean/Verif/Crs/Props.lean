import Verif.Crs.LemmasSum
import Verif.Dense.Props
import Mathlib.LinearAlgebra.Matrix.ConjTranspose
import Mathlib.Data.Matrix.Mul
import Mathlib.Tactic.FinCases

/-!
# C09 – C13: conversions and algebra of the CSR matrix

`Represents m r c A` (Spec) ties the three arrays of a `CrsMatrix` to Mathlib's matrix `A`.
`Valid m` (Spec) is what `checkValidity` is meant to check.
-/

namespace Verif.Crs

open Verif.Loop Matrix
open Verif.Dense (Mat)

variable {α : Type}

/-! ## C09 dense to CSR and back -/

/-- From `IsRows` to `Represents`. -/
theorem represents_of_rows [AddCommMonoid α] {m : Crs α} {r c : Nat} {rows : List (List (Nat × α))}
    (h : IsRows m r c rows) (hlt : ∀ l ∈ rows, ∀ p ∈ l, p.1 < c) {A : Matrix (Fin r) (Fin c) α}
    (hA : ∀ (i : Fin r) (j : Fin c) (hi : i.1 < rows.length), sumAt rows[i.1] j = A i j) :
    Represents m r c A := by
  refine ⟨h.wf hlt, h.nrow, h.ncol, ?_⟩
  intro i j
  have hi : i.1 < rows.length := by rw [h.rlen]; exact i.2
  rw [entry, h.row i.1 hi]
  exact hA i j hi

theorem check_of_valid {m : Crs α} (h : Valid m) (hr : 0 < m.nrow) (hc : 0 < m.ncol) :
    checkValidity m = some () := h.check hr hc

theorem fromDense_spec [AddCommMonoid α] (skip : α → Bool) (hs : ∀ x, skip x = true ↔ x = 0) {r c : Nat}
    {A : Matrix (Fin r) (Fin c) α} {a : Mat α} (h : Dense.Represents a r c A) :
    ∃ m, fromDense skip a = some m ∧ Represents m r c A ∧ Valid m ∧
      (∀ (i : Fin r) (j : Nat), j ∈ ((row m i).map fun p => p.1) ↔ ∃ h : j < c, A i ⟨j, h⟩ ≠ 0) ∧
      ∀ i : Fin r, ((row m i).map fun p => p.1).Pairwise (· < ·) := by
  obtain ⟨m, h1, h2⟩ := fromDense_rows skip h
  have hlt : ∀ l ∈ (List.finRange r).map (denseRow skip A), ∀ p ∈ l, p.1 < c := by
    intro l hl p hp
    obtain ⟨i, -, rfl⟩ := List.mem_map.1 hl
    exact denseRow_lt skip A i p hp
  have hrow : ∀ i : Fin r, row m i = denseRow skip A i := by
    intro i
    rw [h2.row i (by simp)]
    simp
  refine ⟨m, h1, represents_of_rows h2 hlt ?_, h2.valid hlt ?_, ?_, ?_⟩
  · intro i j hi
    rw [List.getElem_map]
    simp only [List.getElem_finRange]
    exact sumAt_denseRow skip hs A i j
  · intro l hl
    obtain ⟨i, -, rfl⟩ := List.mem_map.1 hl
    exact denseRow_nodup skip A i
  · intro i j
    rw [hrow i]
    constructor
    · intro hj
      obtain ⟨p, hp, rfl⟩ := List.mem_map.1 hj
      obtain ⟨k, hk, rfl⟩ := List.mem_map.1 hp
      refine ⟨k.2, ?_⟩
      have := (List.mem_filter.1 hk).2
      intro h0
      rw [(hs _).2 h0] at this
      simp at this
    · rintro ⟨hj, hne⟩
      rw [List.mem_map]
      refine ⟨(j, A i ⟨j, hj⟩), List.mem_map.2 ⟨⟨j, hj⟩, List.mem_filter.2 ⟨List.mem_finRange _, ?_⟩, rfl⟩, rfl⟩
      rw [Bool.not_eq_true', Bool.eq_false_iff]
      exact fun h => hne ((hs _).1 h)
  · intro i
    rw [hrow i, denseRow, List.map_map]
    have : (List.finRange c).Pairwise (fun x y : Fin c => x.1 < y.1) := by
      rw [← List.pairwise_map (f := fun x : Fin c => x.1) (R := (· < ·)), List.map_coe_finRange_eq_range]
      exact List.pairwise_lt_range
    exact List.pairwise_map.2 (this.filter _)

/-- **C09** The constructor from a dense matrix represents the same matrix, is valid, and
stores, in increasing column order, exactly the nonzero entries.  `nrm` is `PsimagLite::norm`. -/
theorem ofDense_spec [AddCommMonoid α] {R : Type} [LE R] [DecidableLE R] [Zero R] (nrm : α → R)
    (hn : ∀ x, nrm x ≤ 0 ↔ x = 0) {r c : Nat} {A : Matrix (Fin r) (Fin c) α} {a : Mat α}
    (h : Dense.Represents a r c A) :
    ∃ m, ofDense nrm a = some m ∧ Represents m r c A ∧ Valid m ∧
      (∀ (i : Fin r) (j : Nat), j ∈ ((row m i).map fun p => p.1) ↔ ∃ h : j < c, A i ⟨j, h⟩ ≠ 0) ∧
      ∀ i : Fin r, ((row m i).map fun p => p.1).Pairwise (· < ·) :=
  fromDense_spec _ (fun x => by simp [hn]) h

/-- **C09** `fullMatrixToCrsMatrix` does the same for matrices with at least one element (it
ends with `checkValidity`, which refuses empty ones). -/
theorem fullMatrixToCrsMatrix_spec [AddCommMonoid α] [DecidableEq α] {r c : Nat} (hr : 0 < r) (hc : 0 < c)
    {A : Matrix (Fin r) (Fin c) α} {a : Mat α} (h : Dense.Represents a r c A) :
    ∃ m, fullMatrixToCrsMatrix a = some m ∧ Represents m r c A ∧ Valid m ∧
      (∀ (i : Fin r) (j : Nat), j ∈ ((row m i).map fun p => p.1) ↔ ∃ h : j < c, A i ⟨j, h⟩ ≠ 0) ∧
      ∀ i : Fin r, ((row m i).map fun p => p.1).Pairwise (· < ·) := by
  obtain ⟨m, h1, h2, h3, h4⟩ := fromDense_spec (fun x : α => decide (x = 0)) (fun x => by simp) h
  refine ⟨m, ?_, h2, h3, h4⟩
  unfold fullMatrixToCrsMatrix
  rw [h1]
  simp only [bind, Option.bind_some]
  rw [h3.check (by rw [h2.nrow]; exact hr) (by rw [h2.ncol]; exact hc)]
  rfl

/-- **C09** `toDense` of a valid CSR matrix is the dense matrix it represents. -/
theorem toDense_spec [AddCommMonoid α] {m : Crs α} (hv : Valid m) {r c : Nat}
    {A : Matrix (Fin r) (Fin c) α} (h : Represents m r c A) :
    ∃ d, toDense m = some d ∧ Dense.Represents d r c A := by
  obtain ⟨d, h1, h2⟩ := toDense_rep hv
  obtain ⟨-, hr, hc, he⟩ := h
  subst hr hc
  exact ⟨d, h1, h2.congr fun i j => (he i j).symm⟩

/-- **C09** The round trip: the very same dense object comes back. -/
theorem dense_round_trip [AddCommMonoid α] {R : Type} [LE R] [DecidableLE R] [Zero R] (nrm : α → R)
    (hn : ∀ x, nrm x ≤ 0 ↔ x = 0) {r c : Nat} {A : Matrix (Fin r) (Fin c) α} {a : Mat α}
    (h : Dense.Represents a r c A) : (ofDense nrm a).bind toDense = some a := by
  obtain ⟨m, h1, h2, h3, -⟩ := ofDense_spec nrm hn h
  obtain ⟨d, h4, h5⟩ := toDense_spec h3 h2
  rw [h1, Option.bind_some, h4, h5.unique h]

/-- **C09** The other round trip: going to dense and back keeps the matrix. -/
theorem csr_round_trip [AddCommMonoid α] {R : Type} [LE R] [DecidableLE R] [Zero R] (nrm : α → R)
    (hn : ∀ x, nrm x ≤ 0 ↔ x = 0) {m : Crs α} (hv : Valid m) {r c : Nat}
    {A : Matrix (Fin r) (Fin c) α} (h : Represents m r c A) :
    ∃ m', (toDense m).bind (ofDense nrm) = some m' ∧ Represents m' r c A := by
  obtain ⟨d, h1, h2⟩ := toDense_spec hv h
  obtain ⟨m', h3, h4, -⟩ := ofDense_spec nrm hn h2
  exact ⟨m', by rw [h1, Option.bind_some, h3], h4⟩

/-- **C09** With a destination that already holds a matrix, `crsMatrixToFullMatrix` keeps
old elements in the places where nothing is stored: the result is not the represented matrix. -/
theorem crsMatrixToFullMatrix_fails :
    ∃ (d : Mat Int) (m : Crs Int), Valid m ∧ Represents m 2 2 !![5, 0; 0, 0] ∧
      ∃ d', crsMatrixToFullMatrix d m = some d' ∧ ¬ Dense.Represents d' 2 2 !![5, 0; 0, 0] := by
  refine ⟨⟨2, 2, [1, 1, 1, 1]⟩, ⟨[0, 1, 1], [0], [5], 2, 2⟩, ⟨⟨rfl, rfl, rfl, rfl, by decide, by decide⟩,
    by decide⟩, ⟨⟨rfl, rfl, rfl, rfl, by decide, by decide⟩, rfl, rfl, by intro i j; fin_cases i <;> fin_cases j <;> rfl⟩, _, rfl, ?_⟩
  intro h
  have := h.entry 0 1
  exact absurd this (by decide)

/-- the hypotheses of C09 hold for a matrix with a zero row and a negative entry -/
example : ∃ a : Mat Int, Dense.Represents a 2 3 !![0, 0, 0; 7, 0, -2] ∧
    (ofDense (fun x : Int => |x|) a).bind toDense = some a ∧
    ∃ m, ofDense (fun x : Int => |x|) a = some m ∧ m = ⟨[0, 0, 2], [0, 2], [7, -2], 2, 3⟩ := by
  have hn : ∀ x : Int, |x| ≤ 0 ↔ x = 0 := fun x => by simp
  have h : Dense.Represents (⟨2, 3, [0, 7, 0, 0, 0, -2]⟩ : Mat Int) 2 3 !![0, 0, 0; 7, 0, -2] :=
    ⟨rfl, rfl, rfl, by decide⟩
  exact ⟨_, h, dense_round_trip _ hn h, _, rfl, rfl⟩

/-! ## C10 matrix-vector products -/

/-- **C10** `matrixVectorProduct(x, y)` adds `A*y` to `x`.  Only well-formedness is needed:
columns may be unsorted or repeated, rows may be empty. -/
theorem matrixVectorProduct_spec [CommRing α] {m : Crs α} {n : Nat} {A : Matrix (Fin n) (Fin n) α}
    (h : Represents m n n A) (x y : Fin n → α) :
    matrixVectorProduct m (List.ofFn x) (List.ofFn y) = some (List.ofFn (x + A *ᵥ y)) := by
  unfold matrixVectorProduct
  rw [if_neg (by simp)]
  obtain ⟨x', h1, h2, h3⟩ := loopN_inv
    (fun i (x' : List α) => x'.length = n ∧ ∀ k : Fin n, x'[k.1]? =
      some (if k.1 < i then x k + (A *ᵥ y) k else x k)) (List.ofFn y).length
    (fun i x => rowLoop m i (fun j v x => do
      let b ← (List.ofFn y)[j]?
      updAt x i (· + v * b)) x) (List.ofFn x) ⟨by simp, by simp⟩ (by
      rintro i x' hi ⟨g1, g2⟩
      rw [List.length_ofFn] at hi
      have hi' : i < m.nrow := by rw [h.nrow]; exact hi
      rw [h.wf.rowLoop i hi']
      have hl : ∀ p ∈ row m i, p.1 < (List.ofFn y).length := by
        intro p hp; rw [List.length_ofFn, ← h.ncol]; exact h.wf.col_lt hp
      refine ⟨_, mvp_row (row m i) (List.ofFn y) hl x' i (by omega), by simp [g1], ?_⟩
      intro k
      by_cases e : i = k.1
      · have hk := g2 k
        rw [← e, List.getElem?_eq_getElem (by omega), if_neg (by omega)] at hk
        rw [← e, List.getElem?_set_self (by omega), if_pos (by omega), Option.some.inj hk,
          sum_mul_sumAt (row m i) n (fun p hp => by simpa using hl p hp)]
        congr 2
        simp only [Matrix.mulVec, dotProduct]
        refine Finset.sum_congr rfl (fun j _ => ?_)
        rw [← h.entry k j, entry, e]
      · rw [List.getElem?_set_ne e, g2 k]
        by_cases hk : k.1 < i
        · rw [if_pos hk, if_pos (by omega)]
        · rw [if_neg hk, if_neg (by omega)])
  rw [h1]
  congr 1
  apply List.ext_getElem?
  intro k
  by_cases hk : k < n
  · have := h3 ⟨k, hk⟩
    rw [List.length_ofFn] at this
    simp only [hk, if_true] at this
    rw [this]
    simp [List.getElem?_ofFn, hk]
  · rw [List.getElem?_eq_none (by omega), List.getElem?_eq_none (by simp; omega)]

/-- **C10** `multiply(v2, m, v1)` is `m*v1` for any (also rectangular) CSR matrix, whatever
`v2` held before. -/
theorem multiplyVec_spec [CommRing α] {m : Crs α} {r c : Nat} {A : Matrix (Fin r) (Fin c) α}
    (h : Represents m r c A) (old : List α) (y : Fin c → α) :
    multiplyVec old m (List.ofFn y) = some (List.ofFn (A *ᵥ y)) := by
  unfold multiplyVec
  rw [h.nrow]
  obtain ⟨x', h1, h2, h3⟩ := loopN_inv
    (fun i (x' : List α) => x'.length = r ∧ ∀ k : Fin r, k.1 < i → x'[k.1]? =
      some ((A *ᵥ y) k)) r
    (fun i v => do
      let v ← setAt v i 0
      rowLoop m i (fun j x v => do
        let b ← (List.ofFn y)[j]?
        updAt v i (· + x * b)) v) (resizeL old r 0) ⟨resizeL_length _ _ _, by simp⟩ (by
      rintro i x' hi ⟨g1, g2⟩
      have hi' : i < m.nrow := by rw [h.nrow]; exact hi
      simp only [setAt_some (show i < x'.length by omega), bind, Option.bind_some]
      rw [h.wf.rowLoop i hi']
      have hl : ∀ p ∈ row m i, p.1 < (List.ofFn y).length := by
        intro p hp; rw [List.length_ofFn, ← h.ncol]; exact h.wf.col_lt hp
      refine ⟨_, mvp_row (row m i) (List.ofFn y) hl (x'.set i 0) i (by simp; omega), by simp [g1], ?_⟩
      intro k hk
      by_cases e : i = k.1
      · rw [← e, List.getElem?_set_self (by simp; omega), List.getElem_set_self, zero_add,
          sum_mul_sumAt (row m i) c (fun p hp => by simpa using hl p hp)]
        congr 1
        simp only [Matrix.mulVec, dotProduct]
        refine Finset.sum_congr rfl (fun j _ => ?_)
        rw [← h.entry k j, entry, e]
      · rw [List.getElem?_set_ne e, List.getElem?_set_ne e, g2 k (by omega)])
  rw [h1]
  congr 1
  apply List.ext_getElem?
  intro k
  by_cases hk : k < r
  · rw [h3 ⟨k, hk⟩ hk]
    simp [List.getElem?_ofFn, hk]
  · rw [List.getElem?_eq_none (by omega), List.getElem?_eq_none (by simp; omega)]

/-- unsorted and repeated columns, and an empty row -/
example : Represents (⟨[0, 3, 3], [1, 0, 1], [2, 5, 3], 2, 2⟩ : Crs Int) 2 2 !![5, 5; 0, 0] ∧
    matrixVectorProduct (⟨[0, 3, 3], [1, 0, 1], [2, 5, 3], 2, 2⟩ : Crs Int) [1, 1] [10, 1] =
      some [56, 1] := by
  refine ⟨⟨⟨rfl, rfl, rfl, rfl, by decide, by decide⟩, rfl, rfl, by intro i j; fin_cases i <;> fin_cases j <;> rfl⟩, by decide⟩

/-! ## C11 product -/

/-- **C11** `multiply(C, A, B)`: valid, and the product. -/
theorem multiply_spec [CommRing α] {r k c : Nat} (hr : 0 < r) (hc : 0 < c)
    {A B : Crs α} {MA : Matrix (Fin r) (Fin k) α} {MB : Matrix (Fin k) (Fin c) α}
    (hA : Represents A r k MA) (hB : Represents B k c MB) :
    ∃ C, multiply A B = some C ∧ Valid C ∧ Represents C r c (MA * MB) := by
  obtain ⟨C, rows, h1, h2, h3, h4, h5⟩ := multiply_rows hA.wf hB.wf (by rw [hA.ncol, hB.nrow])
  rw [hA.nrow, hB.ncol] at h1
  rw [hB.ncol] at h2
  have hv : Valid C := h1.valid h2 h3
  refine ⟨C, ?_, hv, represents_of_rows h1 h2 ?_⟩
  · rw [h5, hv.check (by rw [h1.nrow]; exact hr) (by rw [h1.ncol]; exact hc)]; rfl
  · intro i j hi
    rw [h4 i.1 hi j, prodTerms, sumAt_flatMap_scale _ _ k (fun p hp => hA.ncol ▸ hA.wf.col_lt hp)]
    rw [Matrix.mul_apply]
    refine Finset.sum_congr rfl (fun l _ => ?_)
    rw [← hA.entry i l, ← hB.entry l j]
    rfl

example : ∃ C, multiply (⟨[0, 3, 3], [1, 0, 1], [2, 5, 3], 2, 2⟩ : Crs Int)
      ⟨[0, 1, 2], [2, 0], [1, 7], 2, 3⟩ = some C ∧ Valid C ∧
      Represents C 2 3 ((!![5, 5; 0, 0] : Matrix (Fin 2) (Fin 2) Int) * (!![0, 0, 1; 7, 0, 0] : Matrix (Fin 2) (Fin 3) Int)) := by
  refine multiply_spec (k := 2) (by decide) (by decide) ?_ ?_
  · exact ⟨⟨rfl, rfl, rfl, rfl, by decide, by decide⟩, rfl, rfl, by intro i j; fin_cases i <;> fin_cases j <;> rfl⟩
  · exact ⟨⟨rfl, rfl, rfl, rfl, by decide, by decide⟩, rfl, rfl, by intro i j; fin_cases i <;> fin_cases j <;> rfl⟩

/-! ## C12 conjugate transpose -/

/-- **C12** `transposeConjugate(B, A)`: the conjugate transpose, whatever `B` held before. -/
theorem transposeConjugate_spec [AddCommMonoid α] [StarAddMonoid α] {r c : Nat} {A : Crs α}
    {M : Matrix (Fin r) (Fin c) α} (hA : Represents A r c M) (old : Crs α) :
    ∃ B, transposeConjugate old A = some B ∧ Represents B c r Mᴴ ∧ (Valid A → Valid B) := by
  obtain ⟨B, h1, h2⟩ := tc_rows hA.wf old
  have hlt : ∀ l ∈ rowsOf A.ncol (tcTriples A), ∀ p ∈ l, p.1 < A.nrow := by
    refine pick_cols_lt ?_
    intro t ht
    obtain ⟨u, hu, rfl⟩ := List.mem_map.1 ht
    exact (triples_lt hA.wf u hu).1
  refine ⟨B, h1, ?_, ?_⟩
  · have hr := hA.nrow
    have hc := hA.ncol
    subst hr hc
    refine represents_of_rows h2 hlt ?_
    intro i j hi
    simp only [rowsOf, List.getElem_map, List.getElem_range]
    rw [sumAt_pick_tc i j j.2, Matrix.conjTranspose_apply, ← hA.entry j i]
  · intro hv
    refine h2.valid hlt ?_
    intro l hl
    obtain ⟨i, -, rfl⟩ := List.mem_map.1 hl
    refine pick_nodup ?_ i
    have := triples_nodup hv
    unfold tcTriples
    rw [List.map_map]
    have e : List.map ((fun t : Nat × Nat × α => (t.1, t.2.1)) ∘ fun t : Nat × Nat × α =>
        (t.2.1, t.1, star t.2.2)) (triples A) = ((triples A).map fun t => (t.1, t.2.1)).map Prod.swap := by
      rw [List.map_map]; rfl
    rw [e]
    exact this.map Prod.swap_injective

/-- **C12** Applied twice, the same matrix comes back; for valid matrices the dense forms are
the same object. -/
theorem transposeConjugate_twice [AddCommMonoid α] [StarAddMonoid α] {r c : Nat} {A : Crs α}
    {M : Matrix (Fin r) (Fin c) α} (hA : Represents A r c M) (hv : Valid A) (old old' : Crs α) :
    ∃ B C, transposeConjugate old A = some B ∧ transposeConjugate old' B = some C ∧
      Represents C r c M ∧ toDense C = toDense A := by
  obtain ⟨B, h1, h2, h3⟩ := transposeConjugate_spec hA old
  obtain ⟨C, h4, h5, h6⟩ := transposeConjugate_spec h2 old'
  rw [conjTranspose_conjTranspose] at h5
  obtain ⟨d, h7, h8⟩ := toDense_spec (h6 (h3 hv)) h5
  obtain ⟨d', h9, h10⟩ := toDense_spec hv hA
  exact ⟨B, C, h1, h4, h5, by rw [h7, h9, h8.unique h10]⟩

/-- the old contents of the destination do not matter, and the transpose of a matrix with an
empty column has an empty row -/
example : transposeConjugate ⟨[4, 4, 4, 4, 4], [9, 9, 9], [1, 1, 1], 3, 3⟩
    (⟨[0, 1, 2], [2, 0], [1, 7], 2, 3⟩ : Crs Int) = some ⟨[0, 1, 1, 2], [1, 0], [7, 1], 3, 2⟩ := by decide

/-! ## C13 linear combinations -/

theorem entry_pad [AddCommMonoid α] {m : Crs α} {r c : Nat} {M : Matrix (Fin r) (Fin c) α}
    (h : Represents m r c M) {r' c' : Nat} (i : Fin r') (j : Fin c') : entry m i j = pad M r' c' i j := by
  unfold pad
  split_ifs with hij
  · exact h.entry ⟨i, hij.1⟩ ⟨j, hij.2⟩
  · by_cases hi : i.1 < r
    · exact entry_out_col h.wf _ _ (by rw [h.ncol]; by_contra hc; exact hij ⟨hi, by omega⟩)
    · exact entry_out_row h.wf _ _ (by rw [h.nrow]; omega)

/-- **C13** `operatorPlus(A, B, b1, C, c1)` is `b1*B + c1*C`, the smaller matrix being
extended by zeros; the result is valid and stores no zeros. -/
theorem operatorPlus_spec [CommRing α] [DecidableEq α] {rb cb rc cc : Nat} {B C : Crs α}
    {MB : Matrix (Fin rb) (Fin cb) α} {MC : Matrix (Fin rc) (Fin cc) α}
    (hB : Represents B rb cb MB) (hC : Represents C rc cc MC) (b1 c1 : α)
    (hr : 0 < max rb rc) (hc : 0 < max cb cc) :
    ∃ A, operatorPlus B b1 C c1 = some A ∧ Valid A ∧
      Represents A (max rb rc) (max cb cc)
        (b1 • pad MB (max rb rc) (max cb cc) + c1 • pad MC (max rb rc) (max cb cc)) ∧
      ∀ v ∈ A.values, v ≠ 0 := by
  obtain ⟨A, rows, h1, h2, h3, h4, h5, h6⟩ := plus_rows hB.wf hC.wf b1 c1
  rw [hB.nrow, hC.nrow, hB.ncol, hC.ncol] at h1
  rw [hB.ncol, hC.ncol] at h2 h5
  have hv : Valid A := h1.valid h2 h3
  refine ⟨A, ?_, hv, represents_of_rows h1 h2 ?_, ?_⟩
  · rw [h6, hv.check (by rw [h1.nrow]; exact hr) (by rw [h1.ncol]; exact hc)]; rfl
  · intro i j hi
    rw [h5 i.1 hi j.1 j.2, entry_pad hB i j, entry_pad hC i j]
    simp only [Matrix.add_apply, Matrix.smul_apply, smul_eq_mul]
    ring
  · intro v hv'
    rw [h1.vals] at hv'
    obtain ⟨p, hp, rfl⟩ := List.mem_map.1 hv'
    obtain ⟨l, hl, hpl⟩ := List.mem_flatten.1 hp
    exact h4 l hl p hpl

/-- **C13** Same dimensions: plain `b1*B + c1*C`. -/
theorem operatorPlus_same [CommRing α] [DecidableEq α] {r c : Nat} (hr : 0 < r) (hc : 0 < c) {B C : Crs α}
    {MB MC : Matrix (Fin r) (Fin c) α} (hB : Represents B r c MB) (hC : Represents C r c MC) (b1 c1 : α) :
    ∃ A, operatorPlus B b1 C c1 = some A ∧ Valid A ∧ Represents A r c (b1 • MB + c1 • MC) := by
  obtain ⟨A, h1, h2, h3, -⟩ := operatorPlus_spec hB hC b1 c1 (by omega) (by omega)
  refine ⟨A, h1, h2, h3.wf, by rw [h3.nrow, max_self], by rw [h3.ncol, max_self], ?_⟩
  intro i j
  rw [h3.entry ⟨i, by omega⟩ ⟨j, by omega⟩]
  simp [pad]

/-- **C13** `operator+=` for a square argument that is not larger than this matrix, or larger. -/
theorem addAssign_spec [CommRing α] [DecidableEq α] {r c n : Nat} {B C : Crs α}
    {MB : Matrix (Fin r) (Fin c) α} {MC : Matrix (Fin n) (Fin n) α}
    (hB : Represents B r c MB) (hC : Represents C n n MC) (hr : 0 < max r n) (hc : 0 < max c n) :
    ∃ A, addAssign B C = some A ∧ Valid A ∧
      Represents A (max r n) (max c n) (pad MB (max r n) (max c n) + pad MC (max r n) (max c n)) := by
  unfold addAssign add
  rw [if_neg (by rw [hC.nrow, hC.ncol]; simp), hB.nrow, hC.nrow]
  by_cases h : r ≥ n
  · rw [if_pos h]
    obtain ⟨A, h1, h2, h3, -⟩ := operatorPlus_spec hB hC 1 1 hr hc
    rw [one_smul, one_smul] at h3
    exact ⟨A, h1, h2, h3⟩
  · rw [if_neg h]
    obtain ⟨A, h1, h2, h3, -⟩ := operatorPlus_spec hC hB 1 1 (by omega) (by omega)
    refine ⟨A, h1, h2, h3.wf, by rw [h3.nrow, max_comm], by rw [h3.ncol, max_comm], ?_⟩
    intro i j
    rw [h3.entry ⟨i, by omega⟩ ⟨j, by omega⟩]
    simp only [one_smul, Matrix.add_apply]
    rw [add_comm]
    rfl

/-- `operator+=` with a non-square argument is refused (RuntimeError). -/
theorem addAssign_refuses [CommRing α] [DecidableEq α] (B C : Crs α) (h : C.nrow ≠ C.ncol) :
    addAssign B C = none := by simp [addAssign, add, h]

/-- **C13** `sum(A, Bs, bs)`: the linear combination of any number of matrices; smaller ones
are extended by zeros. -/
theorem sum_spec [CommRing α] (Bs : List (Crs α × α)) (hB : ∀ q ∈ Bs, Wf q.1)
    (hr : ∃ q ∈ Bs, 0 < q.1.nrow) (hc : ∃ q ∈ Bs, 0 < q.1.ncol) :
    ∃ A, Crs.sum (Bs.map fun q => q.1) (Bs.map fun q => q.2) = some A ∧ Valid A ∧
      (∀ q ∈ Bs, q.1.nrow ≤ A.nrow ∧ q.1.ncol ≤ A.ncol) ∧
      ∀ i j, i < A.nrow → j < A.ncol → entry A i j = (Bs.map fun q => entry q.1 i j * q.2).sum := by
  obtain ⟨A, rows, h1, h2, h3, h4, h5⟩ := sum_rows Bs hB _ _ rfl rfl
  have hv : Valid A := h1.valid h2 h3
  have hdim : ∀ q ∈ Bs, q.1.nrow ≤ A.nrow ∧ q.1.ncol ≤ A.ncol := by
    intro q hq
    have hm : q.1 ∈ Bs.map fun q => q.1 := List.mem_map.2 ⟨q, hq, rfl⟩
    rw [h1.nrow, h1.ncol]
    constructor
    · rw [foldl_dim]; exact (foldl_max_le _ 0).2 _ (List.mem_map.2 ⟨q.1, hm, rfl⟩)
    · rw [foldl_dim]; exact (foldl_max_le _ 0).2 _ (List.mem_map.2 ⟨q.1, hm, rfl⟩)
  obtain ⟨q, hq, hq1⟩ := hr
  obtain ⟨q', hq', hq1'⟩ := hc
  refine ⟨A, ?_, hv, hdim, ?_⟩
  · rw [h5, hv.check (lt_of_lt_of_le hq1 (hdim q hq).1) (lt_of_lt_of_le hq1' (hdim q' hq').2)]; rfl
  · intro i j hi hj
    have hi' : i < rows.length := by rw [h1.rlen, ← h1.nrow]; exact hi
    rw [entry, h1.row i hi', h4 i hi' j, sumAt_sumTerms]

example : operatorPlus (⟨[0, 1], [1], [3], 1, 2⟩ : Crs Int) 2 ⟨[0, 1, 2], [1, 0], [-6, 4], 2, 2⟩ 1 =
    some ⟨[0, 0, 1], [0], [4], 2, 2⟩ := by decide

example : Crs.sum [(⟨[0, 1], [1], [3], 1, 2⟩ : Crs Int), ⟨[0, 1, 2], [1, 0], [-6, 4], 2, 2⟩] [2, 1] =
    some ⟨[0, 1, 2], [1, 0], [0, 4], 2, 2⟩ := by decide

/-! ## Other operations on one matrix -/

theorem row_map_values (m : Crs α) (f : α → α) (i : Nat) :
    row { m with values := m.values.map f } i = (row m i).map fun p => (p.1, f p.2) := by
  unfold row ptr
  simp only [List.zip_map_right, List.map_take, List.map_drop]
  rfl

theorem wf_map_values {m : Crs α} (h : Wf m) (f : α → α) : Wf { m with values := m.values.map f } :=
  ⟨h.rowptr_length, h.start, h.finish, by simp [h.values_length], h.mono, h.cols⟩

theorem valid_map_values {m : Crs α} (h : Valid m) (f : α → α) :
    Valid { m with values := m.values.map f } := by
  refine ⟨wf_map_values h.toWf f, ?_⟩
  intro i hi
  rw [row_map_values, List.map_map]
  exact h.nodup i hi

/-- `operator*=` -/
theorem mulAssign_spec [CommRing α] {m : Crs α} {r c : Nat} {M : Matrix (Fin r) (Fin c) α}
    (h : Represents m r c M) (x : α) : Represents (mulAssign m x) r c (x • M) := by
  refine ⟨wf_map_values h.wf _, h.nrow, h.ncol, ?_⟩
  intro i j
  rw [mulAssign, entry, row_map_values, Matrix.smul_apply, ← h.entry i j, smul_eq_mul, entry]
  generalize row m i = l
  induction l with
  | nil => simp
  | cons p l ih =>
    rw [List.map_cons, sumAt_cons, ih, sumAt_cons]
    by_cases e : p.1 = j.1
    · simp only [e, if_true]; ring
    · simp only [e, if_false]; ring

/-- `conjugate()` -/
theorem conjugate_spec [AddCommMonoid α] [StarAddMonoid α] {m : Crs α} {r c : Nat}
    {M : Matrix (Fin r) (Fin c) α} (h : Represents m r c M) :
    Represents (conjugate m) r c (M.map star) := by
  refine ⟨wf_map_values h.wf _, h.nrow, h.ncol, ?_⟩
  intro i j
  rw [conjugate, entry, row_map_values, Matrix.map_apply, ← h.entry i j, entry]
  generalize row m i = l
  induction l with
  | nil => simp
  | cons p l ih =>
    rw [List.map_cons, sumAt_cons, ih, sumAt_cons, star_add]
    by_cases e : p.1 = j.1
    · simp only [e, if_true]
    · simp only [e, if_false, star_zero]

/-- `makeDiagonal(n, v)` -/
theorem makeDiagonal_spec [AddCommMonoid α] (old : Crs α) (n : Nat) (v : α) :
    ∃ m, makeDiagonal old n v = some m ∧ Valid m ∧ Represents m n n (Matrix.diagonal fun _ => v) := by
  obtain ⟨m, h1, h2⟩ := diag_rows old n v
  have hlt : ∀ l ∈ (List.range n).map fun i => [(i, v)], ∀ p ∈ l, p.1 < n := by
    intro l hl p hp
    obtain ⟨i, hi, rfl⟩ := List.mem_map.1 hl
    rw [List.mem_singleton] at hp
    subst hp
    exact List.mem_range.1 hi
  refine ⟨m, h1, h2.valid hlt ?_, represents_of_rows h2 hlt ?_⟩
  · intro l hl
    obtain ⟨i, hi, rfl⟩ := List.mem_map.1 hl
    simp
  · intro i j hi
    simp only [List.getElem_map, List.getElem_range, sumAt_cons, sumAt_nil, add_zero]
    by_cases e : i = j
    · subst e; simp
    · rw [Matrix.diagonal_apply_ne _ e, if_neg (fun h => e (Fin.ext h))]

/-- `fromBlockToFull(Bfull, B, offset)`: the block placed on the diagonal at `offset`. -/
theorem fromBlockToFull_spec [AddCommMonoid α] {B : Crs α} {r c : Nat} {M : Matrix (Fin r) (Fin c) α}
    (h : Represents B r c M) (hv : Valid B) (nrows ncols offset : Nat) (hr : r + offset ≤ nrows)
    (hc : c + offset ≤ ncols) (hr0 : 0 < nrows) (hc0 : 0 < ncols) :
    ∃ F, fromBlockToFull nrows ncols B offset = some F ∧ Valid F ∧
      Represents F nrows ncols (fun i j => if hij : (offset ≤ i.1 ∧ i.1 < r + offset) ∧
          (offset ≤ j.1 ∧ j.1 < c + offset) then
        M ⟨i.1 - offset, by omega⟩ ⟨j.1 - offset, by omega⟩ else 0) := by
  obtain ⟨F, h1, h2⟩ := block_rows h.wf nrows ncols offset (by rw [h.nrow]; exact hr)
  rw [h.nrow] at h1
  have hmem : ∀ l ∈ List.replicate offset [] ++ (List.range r).map (fun i => (row B i).map fun p =>
      (p.1 + offset, p.2)) ++ List.replicate (nrows - (r + offset)) [], l = [] ∨
      ∃ i, i < r ∧ l = (row B i).map fun p => (p.1 + offset, p.2) := by
    intro l hl
    rcases List.mem_append.1 hl with hl | hl
    · rcases List.mem_append.1 hl with hl | hl
      · exact Or.inl (List.mem_replicate.1 hl).2
      · obtain ⟨i, hi, rfl⟩ := List.mem_map.1 hl
        exact Or.inr ⟨i, List.mem_range.1 hi, rfl⟩
    · exact Or.inl (List.mem_replicate.1 hl).2
  have hlt : ∀ l ∈ List.replicate offset [] ++ (List.range r).map (fun i => (row B i).map fun p =>
      (p.1 + offset, p.2)) ++ List.replicate (nrows - (r + offset)) [], ∀ p ∈ l, p.1 < ncols := by
    intro l hl p hp
    rcases hmem l hl with rfl | ⟨i, hi, rfl⟩
    · cases hp
    · obtain ⟨q, hq, rfl⟩ := List.mem_map.1 hp
      have := h.wf.col_lt hq
      rw [h.ncol] at this
      simp only
      omega
  have hvF : Valid F := h1.valid hlt (by
    intro l hl
    rcases hmem l hl with rfl | ⟨i, hi, rfl⟩
    · simp
    · rw [List.map_map]
      have := hv.nodup i (by rw [h.nrow]; exact hi)
      have e : List.map ((fun p : Nat × α => p.1) ∘ fun p : Nat × α => (p.1 + offset, p.2)) (row B i) =
          ((row B i).map fun p => p.1).map fun j => j + offset := by rw [List.map_map]; rfl
      rw [e]
      exact this.map (fun a b h => by omega))
  refine ⟨F, ?_, hvF, represents_of_rows h1 hlt ?_⟩
  · rw [h2, hvF.check (by rw [h1.nrow]; exact hr0) (by rw [h1.ncol]; exact hc0)]; rfl
  · intro i j hi
    have shift : ∀ l : List (Nat × α), sumAt (l.map fun p => (p.1 + offset, p.2)) j.1 =
        if offset ≤ j.1 then sumAt l (j.1 - offset) else 0 := by
      intro l
      induction l with
      | nil => simp
      | cons p l ih =>
        rw [List.map_cons, sumAt_cons, ih, sumAt_cons]
        by_cases ho : offset ≤ j.1
        · rw [if_pos ho, if_pos ho]
          by_cases e : p.1 + offset = j.1
          · rw [if_pos e, if_pos (by omega)]
          · rw [if_neg e, if_neg (by omega)]
        · rw [if_neg ho, if_neg ho, if_neg (by omega), add_zero]
    by_cases hi1 : i.1 < offset
    · rw [List.getElem_append_left (by simp; omega), List.getElem_append_left (by simp; omega)]
      rw [List.getElem_replicate, sumAt_nil, dif_neg (by omega)]
    · by_cases hi2 : i.1 < r + offset
      · rw [List.getElem_append_left (by simp; omega), List.getElem_append_right (by simp; omega)]
        simp only [List.length_replicate, List.getElem_map, List.getElem_range]
        rw [shift]
        by_cases hj1 : offset ≤ j.1
        · rw [if_pos hj1]
          by_cases hj2 : j.1 < c + offset
          · rw [dif_pos ⟨⟨by omega, by omega⟩, by omega, by omega⟩, ← h.entry]
            rfl
          · rw [dif_neg (by omega)]
            exact entry_out_col h.wf _ _ (by rw [h.ncol]; omega)
        · rw [if_neg hj1, dif_neg (by omega)]
      · rw [List.getElem_append_right (by simp; omega)]
        rw [List.getElem_replicate, sumAt_nil, dif_neg (by omega)]

example : fromBlockToFull 4 4 (⟨[0, 1, 2], [1, 0], [3, 5], 2, 2⟩ : Crs Int) 1 =
    some ⟨[0, 0, 1, 2, 2], [2, 1], [3, 5], 4, 4⟩ := by decide

/-! ## Cases: a matrix of two rows and two columns, one of two rows and three, and one with a repeated column -/

theorem swap_rep : Represents (⟨[0, 1, 2], [1, 0], [3, 5], 2, 2⟩ : Crs Int) 2 2 !![0, 3; 5, 0] :=
  ⟨⟨rfl, rfl, rfl, rfl, by decide, by decide⟩, rfl, rfl, by intro i j; fin_cases i <;> fin_cases j <;> rfl⟩
theorem swap_valid : Valid (⟨[0, 1, 2], [1, 0], [3, 5], 2, 2⟩ : Crs Int) := ⟨swap_rep.wf, by decide⟩
theorem wide_rep : Represents (⟨[0, 1, 2], [2, 0], [1, 7], 2, 3⟩ : Crs Int) 2 3 !![0, 0, 1; 7, 0, 0] :=
  ⟨⟨rfl, rfl, rfl, rfl, by decide, by decide⟩, rfl, rfl, by intro i j; fin_cases i <;> fin_cases j <;> rfl⟩
theorem wide_valid : Valid (⟨[0, 1, 2], [2, 0], [1, 7], 2, 3⟩ : Crs Int) := ⟨wide_rep.wf, by decide⟩
theorem twice_rep : Represents (⟨[0, 3, 3], [1, 0, 1], [2, 5, 3], 2, 2⟩ : Crs Int) 2 2 !![5, 5; 0, 0] :=
  ⟨⟨rfl, rfl, rfl, rfl, by decide, by decide⟩, rfl, rfl, by intro i j; fin_cases i <;> fin_cases j <;> rfl⟩
theorem dense_rep : Dense.Represents (⟨2, 3, [0, 7, 0, 0, 0, -2]⟩ : Mat Int) 2 3 !![0, 0, 0; 7, 0, -2] := ⟨rfl, rfl, rfl, by decide⟩

example : addAssign (⟨[0, 1, 2], [1, 0], [3, 5], 2, 2⟩ : Crs Int) ⟨[0, 1, 2], [2, 0], [1, 7], 2, 3⟩ = none := addAssign_refuses _ _ (by decide)
example := addAssign_spec wide_rep swap_rep (by decide) (by decide)
example := conjugate_spec twice_rep
example := csr_round_trip (fun x : Int => |x|) (fun x => by simp) wide_valid wide_rep
example := fromBlockToFull_spec swap_rep swap_valid 4 4 1 (by decide) (by decide) (by decide) (by decide)
example := fromDense_spec (fun x : Int => decide (x = 0)) (fun x => by simp) dense_rep
example := fullMatrixToCrsMatrix_spec (by decide) (by decide) dense_rep
example := matrixVectorProduct_spec twice_rep ![1, 1] ![10, 1]
example := mulAssign_spec twice_rep 4
example := multiplyVec_spec wide_rep [9, 9, 9] ![1, 2, 3]
example := ofDense_spec (fun x : Int => |x|) (fun x => by simp) dense_rep
example := operatorPlus_same (by decide) (by decide) swap_rep twice_rep 2 3
example := operatorPlus_spec swap_rep wide_rep 2 3 (by decide) (by decide)
example := sum_spec [((⟨[0, 1, 2], [1, 0], [3, 5], 2, 2⟩ : Crs Int), 2), (⟨[0, 1, 2], [2, 0], [1, 7], 2, 3⟩, 3)]
  (by
    intro q hq
    simp only [List.mem_cons, List.not_mem_nil, or_false] at hq
    rcases hq with rfl | rfl
    · exact swap_rep.wf
    · exact wide_rep.wf) ⟨_, List.mem_cons_self, by decide⟩ ⟨_, List.mem_cons_self, by decide⟩
example := toDense_spec wide_valid wide_rep
example := transposeConjugate_spec twice_rep ⟨[4, 4, 4], [9], [1], 1, 1⟩
example := transposeConjugate_twice wide_rep wide_valid Crs.empty ⟨[4, 4, 4], [9], [1], 1, 1⟩

end Verif.Crs
