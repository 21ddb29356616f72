import Verif.Whole.ModelCrs
import Verif.Crs.Props2
import Verif.TextIo.PropsMatFile
import Verif.Random.Props48

/-!
# C134: the program examples/testCRSMatrix.cpp with the name of a file
-/

namespace Verif.Whole.CrsTest

open Verif.Loop Verif.Dense Verif.TextIo Verif.IoSimple Matrix

theorem values_rep {N : Type} (val : N → ℚ) {r c : Nat} {A : Matrix (Fin r) (Fin c) N} {m : Mat N} (h : Represents m r c A) :
    Represents (values val m) r c (A.map val) := by
  refine ⟨h.nrow, h.ncol, by simp [values, h.size], fun i j => ?_⟩
  have := h.entry i j
  unfold Mat.get at this ⊢
  simp only [values, List.getElem?_map]
  split
  · rename_i hs
    rw [if_pos hs] at this
    rw [this]; rfl
  · rename_i hs
    rw [if_neg hs] at this
    cases this

/-- The columns of row `i` that are not zero. -/
def stored {r c : Nat} (A : Matrix (Fin r) (Fin c) ℚ) (i : Fin r) : List (Fin c) := (List.finRange c).filter fun j => A i j ≠ 0

/-- How many numbers are not zero in the rows before row `k`. -/
def before {r c : Nat} (A : Matrix (Fin r) (Fin c) ℚ) (k : Nat) : Nat := ∑ i : Fin r, if i.1 < k then (stored A i).length else 0

/-- The text expected of a sparse matrix: the dimensions, where each row begins, the columns, the values. -/
def crsLines {r c : Nat} (pr : ℚ → Str) (A : Matrix (Fin r) (Fin c) ℚ) : Str :=
  Nat.toDigits 10 r ++ ' ' :: Nat.toDigits 10 c ++ '\n' :: ((List.range (r + 1)).flatMap fun k => Nat.toDigits 10 (before A k) ++ [' ']) ++
    '\n' :: Nat.toDigits 10 (before A r) ++
    '\n' :: ((List.finRange r).flatMap fun i => (stored A i).flatMap fun j => Nat.toDigits 10 j.1 ++ [' ']) ++
    '\n' :: Nat.toDigits 10 (before A r) ++
    '\n' :: ((List.finRange r).flatMap fun i => (stored A i).flatMap fun j => pr (A i j) ++ [' ']) ++ ['\n']

theorem list_loop {β : Type} (l : List β) (f : β → Str) (n : Nat) (hn : n = l.length) (s : Str) :
    loopN n (fun i os => (l[i]?).map fun p => os ++ f p) s = some (s ++ l.flatMap f) := by
  subst hn
  obtain ⟨x, h1, h2⟩ := loopN_inv (fun i (os : Str) => os = s ++ (l.take i).flatMap f) l.length
    (fun i os => (l[i]?).map fun p => os ++ f p) s (by simp) (by
      rintro i os hi rfl
      refine ⟨_, by rw [List.getElem?_eq_getElem hi]; rfl, ?_⟩
      rw [List.take_succ_eq_append_getElem hi, List.flatMap_append]
      simp)
  rw [h1, h2, List.take_length]

theorem pos_before {r c : Nat} (A : Matrix (Fin r) (Fin c) ℚ) (k : Nat) :
    Crs.pos ((List.finRange r).map (Crs.denseRow (fun x : ℚ => decide (|x| ≤ 0)) A)) k = before A k := by
  have hs : ∀ i, (Crs.denseRow (fun x : ℚ => decide (|x| ≤ 0)) A i).length = (stored A i).length := by
    intro i
    simp [Crs.denseRow, stored]
  unfold Crs.pos before
  rw [List.length_flatten, ← List.map_take, List.map_map]
  have e : (List.length ∘ Crs.denseRow (fun x : ℚ => decide (|x| ≤ 0)) A) = fun i => (stored A i).length := funext hs
  rw [e]
  obtain ⟨g, hg⟩ : ∃ g : Fin r → Nat, g = fun i => (stored A i).length := ⟨_, rfl⟩
  have hg2 : ∀ i, (stored A i).length = g i := fun i => by rw [hg]
  simp only [hg2]
  rw [Fin.sum_univ_def]
  conv_rhs => rw [← List.take_append_drop k (List.finRange r)]
  rw [List.map_append, List.sum_append]
  have h1 : ((List.finRange r).take k).map (fun i => if i.1 < k then g i else 0) = ((List.finRange r).take k).map g := by
    refine List.map_congr_left fun i hi => if_pos ?_
    obtain ⟨j, hj, e⟩ := List.mem_iff_getElem.1 hi
    simp only [List.length_take, List.length_finRange] at hj
    rw [List.getElem_take, List.getElem_finRange] at e
    rw [← e]
    simp only [Fin.cast_mk]
    omega
  have h2 : ((List.finRange r).drop k).map (fun i => if i.1 < k then g i else 0) = ((List.finRange r).drop k).map fun _ => 0 := by
    refine List.map_congr_left fun i hi => if_neg ?_
    obtain ⟨j, hj, e⟩ := List.mem_iff_getElem.1 hi
    rw [List.getElem_drop, List.getElem_finRange] at e
    rw [← e]
    simp only [Fin.cast_mk]
    omega
  rw [h1, h2]
  simp

/-- The sparse matrix of a dense one, as text. -/
theorem crsText_spec {r c : Nat} (pr : ℚ → Str) (A : Matrix (Fin r) (Fin c) ℚ) (hr : 0 < r) {m : Crs.Crs ℚ}
    (h : Crs.IsRows m r c ((List.finRange r).map (Crs.denseRow (fun x : ℚ => decide (|x| ≤ 0)) A))) : crsText pr m = some (crsLines pr A) := by
  have hlt : ∀ l ∈ (List.finRange r).map (Crs.denseRow (fun x : ℚ => decide (|x| ≤ 0)) A), ∀ p ∈ l, p.1 < c := by
    intro l hl p hp
    obtain ⟨i, -, rfl⟩ := List.mem_map.1 hl
    exact Crs.denseRow_lt _ A i p hp
  have hw := h.wf hlt
  have hptr : m.rowptr = (List.range (r + 1)).map (before A) := by
    apply List.ext_getElem?
    intro j
    by_cases hj : j < r + 1
    · rw [h.ptrs j (by omega), pos_before]
      simp [hj]
    · rw [List.getElem?_eq_none (by rw [h.plen]; omega), List.getElem?_eq_none (by simp; omega)]
  have hnz : m.colind.length = before A r := by
    rw [← hw.finish, h.ptr _ (by rw [h.nrow]), h.nrow, pos_before]
  have hflat : ∀ i, Crs.denseRow (fun x : ℚ => decide (|x| ≤ 0)) A i = (stored A i).map fun j => (j.1, A i j) := by
    intro i
    simp [Crs.denseRow, stored]
  unfold crsText
  rw [if_neg (by rw [h.nrow]; omega), list_loop m.rowptr (fun p => Nat.toDigits 10 p ++ [' ']) _ hw.rowptr_length.symm]
  simp only [Option.bind_eq_bind, Option.bind_some, hw.nonZeros]
  rw [list_loop m.colind (fun p => Nat.toDigits 10 p ++ [' ']) _ rfl]
  simp only [Option.bind_some]
  rw [list_loop m.values (fun p => pr p ++ [' ']) _ hw.values_length.symm]
  simp only [Option.bind_some, Option.pure_def, hnz]
  have e1 : m.colind.flatMap (fun p => Nat.toDigits 10 p ++ [' ']) =
      (List.finRange r).flatMap fun i => (stored A i).flatMap fun j => Nat.toDigits 10 j.1 ++ [' '] := by
    rw [h.cols, List.flatMap_map, ← List.flatMap_def, List.flatMap_assoc]
    refine List.flatMap_congr fun i _ => ?_
    rw [hflat, List.flatMap_map]
  have e2 : m.values.flatMap (fun p => pr p ++ [' ']) =
      (List.finRange r).flatMap fun i => (stored A i).flatMap fun j => pr (A i j) ++ [' '] := by
    rw [h.vals, List.flatMap_map, ← List.flatMap_def, List.flatMap_assoc]
    refine List.flatMap_congr fun i _ => ?_
    rw [hflat, List.flatMap_map]
  rw [e1, e2, hptr, List.flatMap_map, h.nrow, h.ncol]
  simp only [crsLines, List.append_assoc, List.cons_append, List.nil_append]

/-- The random numbers of the vector that is multiplied. -/
def start (rnd : ℚ → ℚ) (n : Nat) (i : Fin n) : ℚ := rnd (((Random.lcg^[i.1 + 1] (Random.srand48 7334211) : ℕ) : ℚ) / 2 ^ 48 * 10)

theorem random_eq (rnd : ℚ → ℚ) (n : Nat) : randomVector rnd n = List.ofFn (start rnd n) := by
  apply List.ext_getElem?
  intro k
  unfold randomVector
  by_cases hk : k < n
  · rw [List.getElem?_map, Random.drands_get n _ k hk, List.getElem?_ofFn]
    simp only [hk, dite_true, Option.map_some, start]
    norm_num
  · rw [List.getElem?_eq_none (by simp [Random.drands_length]; omega), List.getElem?_eq_none (by simp; omega)]

/-- The product: columns of which there is no number in the vector do not count. -/
def product (rnd : ℚ → ℚ) {r c : Nat} (A : Matrix (Fin r) (Fin c) ℚ) (i : Fin r) : ℚ :=
  ∑ j : Fin c, A i j * (if h : j.1 < r then start rnd r ⟨j.1, h⟩ else 0)

/-- A vector: how many numbers it has, and then each of them, with a line for each. -/
def vecLines (pr : ℚ → Str) {n : Nat} (v : Fin n → ℚ) : Str :=
  Nat.toDigits 10 n ++ '\n' :: (List.finRange n).flatMap fun i => pr (v i) ++ ['\n']

theorem vecText_lines (pr : ℚ → Str) {n : Nat} (v : Fin n → ℚ) : vecText pr (List.ofFn v) = vecLines pr v := by
  unfold vecText vecLines
  rw [List.length_ofFn, List.ofFn_eq_map, List.flatMap_map]

/-- The text expected. -/
def expected (pr : ℚ → Str) (rnd : ℚ → ℚ) {r c : Nat} (A : Matrix (Fin r) (Fin c) ℚ) : Str :=
  matLines pr A ++ ("initial vector:\n".toList ++ vecLines pr (start rnd r) ++
    "final vector:\n".toList ++ vecLines pr (product rnd A)) ++ crsLines pr A ++ "----------\n".toList ++ matLines pr A

theorem product_spec (rnd : ℚ → ℚ) {r c : Nat} (A : Matrix (Fin r) (Fin c) ℚ) {m : Crs.Crs ℚ}
    (h : Crs.IsRows m r c ((List.finRange r).map (Crs.denseRow (fun x : ℚ => decide (|x| ≤ 0)) A)))
    (hz : ∀ i j, r ≤ j.1 → A i j = 0) :
    Crs.matrixVectorProduct m (List.replicate r 0) (randomVector rnd r) = some (List.ofFn (product rnd A)) := by
  have h' : Crs.IsRows { m with ncol := r } r r ((List.finRange r).map (Crs.denseRow (fun x : ℚ => decide (|x| ≤ 0)) A)) :=
    ⟨h.nrow, rfl, h.rlen, h.plen, h.ptrs, h.cols, h.vals⟩
  have hrep : Crs.Represents { m with ncol := r } r r (Crs.pad A r r) := by
    refine Crs.represents_of_rows h' ?_ ?_
    · intro l hl p hp
      obtain ⟨i, -, rfl⟩ := List.mem_map.1 hl
      obtain ⟨j, hj, rfl⟩ := List.mem_map.1 hp
      by_contra hc
      have := hz i j (by simpa using hc)
      simp [this] at hj
    · intro i j hi
      rw [List.getElem_map]
      simp only [List.getElem_finRange, Fin.cast_mk, Fin.eta]
      unfold Crs.pad
      split
      · rename_i hp
        exact Crs.sumAt_denseRow _ (fun x => by simp) A i ⟨j.1, hp.2⟩
      · rename_i hp
        refine Crs.sumAt_of_not_mem ?_
        intro hm
        obtain ⟨p, hp2, e⟩ := List.mem_map.1 hm
        have := Crs.denseRow_lt _ A i p hp2
        exact hp ⟨i.2, by omega⟩
  have hmv := Crs.matrixVectorProduct_spec hrep (fun _ => 0) (start rnd r)
  rw [random_eq]
  have e : List.replicate r (0 : ℚ) = List.ofFn fun _ : Fin r => (0 : ℚ) := by simp
  rw [e]
  refine Eq.trans (b := Crs.matrixVectorProduct { m with ncol := r } (List.ofFn fun _ : Fin r => (0 : ℚ)) (List.ofFn (start rnd r))) rfl ?_
  rw [hmv]
  congr 2
  funext i
  simp only [Pi.add_apply, zero_add, Matrix.mulVec, dotProduct, product]
  -- both are sums over the columns below both bounds
  obtain ⟨g, hg⟩ : ∃ g : Nat → ℚ, ∀ k, g k = if hk : k < r ∧ k < c then A i ⟨k, hk.2⟩ * start rnd r ⟨k, hk.1⟩ else 0 := ⟨_, fun _ => rfl⟩
  have f1 : ∀ x : Fin r, Crs.pad A r r i x * start rnd r x = g x.1 := by
    intro x
    rw [hg]
    unfold Crs.pad
    by_cases hx : x.1 < c
    · simp [hx]
    · simp [hx]
  have f2 : ∀ x : Fin c, A i x * (if h : x.1 < r then start rnd r ⟨x.1, h⟩ else 0) =
      g x.1 := by
    intro x
    rw [hg]
    by_cases hx : x.1 < r
    · simp [hx]
    · simp [hx]
  rw [Finset.sum_congr rfl fun x _ => f1 x, Finset.sum_congr rfl fun x _ => f2 x, Fin.sum_univ_eq_sum_range g, Fin.sum_univ_eq_sum_range g]
  rcases le_total r c with hrc | hrc
  · refine Finset.sum_subset (Finset.range_mono hrc) fun k _ hk => ?_
    rw [hg, dif_neg]
    intro hk2
    exact hk (Finset.mem_range.2 hk2.1)
  · refine (Finset.sum_subset (Finset.range_mono hrc) fun k _ hk => ?_).symm
    rw [hg, dif_neg]
    intro hk2
    exact hk (Finset.mem_range.2 hk2.2)

theorem dense_rows {r c : Nat} {A : Matrix (Fin r) (Fin c) ℚ} {a : Mat ℚ} (ha : Represents a r c A) :
    ∃ m, Crs.ofDense (fun x : ℚ => |x|) a = some m ∧ Crs.Valid m ∧ Crs.Represents m r c A ∧
      Crs.IsRows m r c ((List.finRange r).map (Crs.denseRow (fun x : ℚ => decide (|x| ≤ 0)) A)) := by
  obtain ⟨m, h1, h2⟩ := Crs.fromDense_rows (fun x : ℚ => decide (|x| ≤ 0)) ha
  obtain ⟨m', h3, h4, h5, -⟩ := Crs.ofDense_spec (fun x : ℚ => |x|) (fun x => by simp) ha
  have e : m' = m := Option.some.inj (h3.symm.trans h1)
  subst e
  exact ⟨m', h3, h5, h4, h2⟩

theorem printed_spec (pr : ℚ → Str) (rnd : ℚ → ℚ) {r c : Nat} {A : Matrix (Fin r) (Fin c) ℚ} {a : Mat ℚ} (ha : Represents a r c A) (hr : 0 < r)
    (hz : ∀ i j, r ≤ j.1 → A i j = 0) : printed pr rnd a = some (expected pr rnd A) := by
  obtain ⟨m, h1, h2, h3, h4⟩ := dense_rows ha
  obtain ⟨d, h5, h6⟩ := Crs.toDense_spec h2 h3
  have hm : multiplyText pr rnd m = some ("initial vector:\n".toList ++ vecLines pr (start rnd r) ++
      "final vector:\n".toList ++ vecLines pr (product rnd A)) := by
    unfold multiplyText
    simp only [h4.nrow, product_spec rnd A h4 hz, Option.bind_eq_bind, Option.bind_some, Option.pure_def]
    rw [random_eq, vecText_lines, vecText_lines]
  unfold printed
  simp only [matText_spec pr ha, matText_spec pr h6, h1, hm, crsText_spec pr A hr h4, h5, Option.bind_eq_bind, Option.bind_some, Option.pure_def]
  rfl

theorem exists_rep {N : Type} {r c : Nat} (A : Matrix (Fin r) (Fin c) N) (hr : 0 < r) : ∃ m : Mat N, Represents m r c A := by
  refine ⟨⟨r, c, List.ofFn fun k : Fin (r * c) => A ⟨k.1 % r, Nat.mod_lt _ hr⟩ ⟨k.1 / r, Nat.div_lt_of_lt_mul k.2⟩⟩, rfl, rfl, by simp, ?_⟩
  intro i j
  have hs : Shape (⟨r, c, List.ofFn fun k : Fin (r * c) => A ⟨k.1 % r, Nat.mod_lt _ hr⟩ ⟨k.1 / r, Nat.div_lt_of_lt_mul k.2⟩⟩ : Mat N) r c :=
    ⟨rfl, rfl, by simp⟩
  rw [hs.get i.2 j.2, List.getElem?_ofFn, dif_pos (idx_lt i.2 j.2)]
  have e1 : (i.1 + j.1 * r) % r = i.1 := by rw [Nat.add_mul_mod_self_right, Nat.mod_eq_of_lt i.2]
  have e2 : (i.1 + j.1 * r) / r = j.1 := by rw [Nat.add_mul_div_right _ _ hr, Nat.div_eq_of_lt i.2, Nat.zero_add]
  simp only [e1, e2]

/-- **C134** For every file with a matrix, with as many rows as columns or, if it has more columns, zeros in the columns after the number
of rows, the program prints the matrix, the random vector, their exact product, the three lists of the sparse matrix, which has exactly
the elements that are not zero, and the same matrix again. -/
theorem crs_prints {N : Type} [Zero N] (val : N → ℚ) {prN : N → Str} {rd : Stream → N → Out (Stream × N)} (ht : Through prN rd fun _ _ => True)
    (pr : ℚ → Str) (rnd : ℚ → ℚ) {r c : Nat} (A : Matrix (Fin r) (Fin c) N) (hr : 0 < r) (hc : 0 < c) (limit : Nat) (hl : r * c ≤ limit)
    (hl2 : r * c < 2 ^ 64) (tail : Str) (hz : ∀ i j, r ≤ j.1 → val (A i j) = 0) :
    program limit rd val pr rnd (.ofText (matLines prN A ++ tail)) = .ok (expected pr rnd (A.map val)) := by
  obtain ⟨m, hm⟩ := exists_rep A hr
  obtain ⟨text, ws', e1, _, e2⟩ := file_matrix ht hm hr hc limit hl hl2 [] tail white_nil
  rw [matText_spec prN hm] at e1
  cases e1
  unfold program
  rw [show Stream.ofText (matLines prN A ++ tail) = ⟨[] ++ matLines prN A ++ tail, false, false⟩ from rfl, e2]
  show (match printed pr rnd (values val m) with | some t => _ | none => _) = _
  rw [printed_spec pr rnd (values_rep val hm) hr hz]

theorem loop_none {σ : Type} (n : Nat) (f : Nat → σ → Option σ) (s : σ) (i : Nat) (hi : i < n) (h : ∀ s, f i s = none) : loopN n f s = none := by
  induction n with
  | zero => omega
  | succ n ih =>
    rw [loopN]
    by_cases e : i = n
    · subst e
      cases loopN i f s with
      | none => rfl
      | some s => exact h s
    · rw [ih (by omega)]
      rfl

theorem fold_none {β σ : Type} (l : List β) (f : σ → β → Option σ) (x : β) (hx : x ∈ l) (h : ∀ s, f s x = none) (s : σ) : l.foldlM f s = none := by
  induction l generalizing s with
  | nil => cases hx
  | cons b l ih =>
    rw [List.foldlM_cons]
    rcases List.mem_cons.1 hx with rfl | hx
    · rw [h s]; rfl
    · cases f s b with
      | none => rfl
      | some s => exact ih hx s

/-- **C134, violated part** Otherwise the vector is too short for the matrix: the behaviour is undefined. -/
theorem crs_wide_fails {N : Type} [Zero N] (val : N → ℚ) {prN : N → Str} {rd : Stream → N → Out (Stream × N)} (ht : Through prN rd fun _ _ => True)
    (pr : ℚ → Str) (rnd : ℚ → ℚ) {r c : Nat} (A : Matrix (Fin r) (Fin c) N) (hr : 0 < r) (hc : 0 < c) (limit : Nat) (hl : r * c ≤ limit)
    (hl2 : r * c < 2 ^ 64) (tail : Str) (i : Fin r) (j : Fin c) (hj : r ≤ j.1) (hz : val (A i j) ≠ 0) :
    program limit rd val pr rnd (.ofText (matLines prN A ++ tail)) = ubOut := by
  obtain ⟨m, hm⟩ := exists_rep A hr
  obtain ⟨text, ws', e1, _, e2⟩ := file_matrix ht hm hr hc limit hl hl2 [] tail white_nil
  rw [matText_spec prN hm] at e1
  cases e1
  unfold program
  rw [show Stream.ofText (matLines prN A ++ tail) = ⟨[] ++ matLines prN A ++ tail, false, false⟩ from rfl, e2]
  show (match printed pr rnd (values val m) with | some t => _ | none => _) = _
  have hv := values_rep val hm
  obtain ⟨s, h1, h2, h3, h4⟩ := dense_rows hv
  have hp : Crs.matrixVectorProduct s (List.replicate r 0) (randomVector rnd r) = none := by
    have hy : (randomVector rnd r).length = r := by rw [random_eq]; simp
    unfold Crs.matrixVectorProduct
    rw [if_neg (by simp [hy]), hy]
    refine loop_none r _ _ i.1 i.2 fun x => ?_
    rw [h3.wf.rowLoop i.1 (by rw [h3.nrow]; exact i.2)]
    have hrow : Crs.row s i.1 = Crs.denseRow (fun x : ℚ => decide (|x| ≤ 0)) (A.map val) i := by
      rw [h4.row i.1 (by simp)]
      simp
    refine fold_none _ _ (j.1, val (A i j)) ?_ (fun x => ?_) x
    · rw [hrow]
      exact List.mem_map.2 ⟨j, List.mem_filter.2 ⟨List.mem_finRange _, by simpa using hz⟩, rfl⟩
    · simp only [List.getElem?_eq_none (show (randomVector rnd r).length ≤ j.1 by rw [hy]; exact hj)]
      rfl
  have hp2 : multiplyText pr rnd s = none := by
    unfold multiplyText
    simp only [h4.nrow, hp]
    rfl
  have : printed pr rnd (values val m) = none := by
    unfold printed
    simp only [matText_spec pr hv, h1, hp2, Option.bind_eq_bind, Option.bind_some, Option.bind_none]
  rw [this]

/-- **C134, violated part** A file that cannot be opened gives undefined behaviour, not an error. -/
theorem crs_closed_fails {N : Type} [Zero N] (limit : Nat) (rd : Stream → N → Out (Stream × N)) (val : N → ℚ) (pr : ℚ → Str) (rnd : ℚ → ℚ) :
    program limit rd val pr rnd ⟨[], false, true⟩ = ubOut := rfl

instance : Zero Small := ⟨⟨0, Nat.zero_le _⟩⟩

/-- The hypotheses are met: a matrix with three rows and two columns. -/
example : ∃ out, program 100 (fun st old => let r := readInt st; Except.ok (r.1, ⟨min ((r.2.getD old.1).toNat) 2147483647, Nat.min_le_right _ _⟩))
    (fun n : Small => (n.1 : ℚ)) (fun q => Nat.toDigits 10 q.num.toNat) id (.ofText (matLines (fun n : Small => Nat.toDigits 10 n.1)
      (!![⟨1, by decide⟩, ⟨0, by decide⟩; ⟨0, by decide⟩, ⟨7, by decide⟩; ⟨2, by decide⟩, ⟨5, by decide⟩] : Matrix (Fin 3) (Fin 2) Small) ++ [])) = .ok out :=
  ⟨_, crs_prints _ through_small _ _ _ (by decide) (by decide) 100 (by decide) (by decide) [] (by
    intro i j hj
    have := j.2
    omega)⟩

end Verif.Whole.CrsTest
