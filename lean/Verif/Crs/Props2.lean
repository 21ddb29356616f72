import Verif.Crs.Props

/-!
# C14 – C18: validity, coordinate constructor, external products, predicates, text format
-/

namespace Verif.Crs

open Verif.Loop Matrix
open Verif.Dense (Mat)

variable {α : Type}

/-! ## C16 external products -/

/-- **C16** `externalProduct(B, A, nout, signs, order, perm)`.  Pair `(i, e)` of an index of
`A` and an index `e < nout` sits, before the permutation, at `i + e*n` if `order`, and at
`e + i*nout` otherwise.  The element between `(i, e)` and `(j, e')` is zero for `e ≠ e'`, and
`A i j` times the sign of `e` (no sign if `order`) for `e = e'`: the Kronecker product of `A`
with the (signed) identity, with rows and columns permuted by `perm`. -/
theorem externalProductId_spec [CommRing α] {n : Nat} {A : Crs α} {M : Matrix (Fin n) (Fin n) α}
    (hA : Represents A n n M) (hv : Valid A) (hn : 0 < n) (old : Crs α) (nout : Nat) (ho : 0 < nout)
    (signs : List α) (order : Bool) (perm : List Nat) (hperm : perm.Perm (List.range (nout * n)))
    (hsg : order = false → signs.length = nout) :
    ∃ B, externalProductId old A nout signs order perm = some B ∧ Valid B ∧ B.nrow = nout * n ∧
      B.ncol = nout * n ∧
      ∀ (i j : Fin n) (e e' : Fin nout),
        entry B (perm.getD (if order then i.1 + e.1 * n else e.1 + i.1 * nout) 0)
            (perm.getD (if order then j.1 + e'.1 * n else e'.1 + j.1 * nout) 0) =
          if e = e' then M i j * (if order then 1 else signs.getD e.1 0) else 0 := by
  obtain ⟨hw, hnr, hnc, he⟩ := hA
  subst hnr
  obtain ⟨B, rows, h1, h2, h3⟩ := extId_rows hw hnc.symm old nout signs order perm hperm hsg
    (fun h => hv.check h (by rw [hnc]; exact h))
  have hl : perm.length = nout * A.nrow := by simpa using hperm.length_eq
  have hnd : perm.Nodup := hperm.nodup_iff.2 List.nodup_range
  have hget : ∀ k, k < nout * A.nrow → perm.getD k 0 < nout * A.nrow := by
    intro k hk
    rw [getD_lt _ _ (by omega)]
    exact List.mem_range.1 (hperm.mem_iff.1 (List.getElem_mem _))
  have hinj : ∀ x y, x < nout * A.nrow → y < nout * A.nrow → perm.getD x 0 = perm.getD y 0 → x = y := by
    intro x y hx hy h
    rw [getD_lt _ _ (by omega), getD_lt _ _ (by omega)] at h
    exact (hnd.getElem_inj_iff).1 h
  have hmem : ∀ l ∈ rows, ∃ i e, i < A.nrow ∧ e < nout ∧ l = (row A i).map fun q =>
      (perm.getD (code order A.nrow nout q.1 e) 0, q.2 * if order then 1 else signs.getD e 0) := by
    intro l hl'
    obtain ⟨k, hk, rfl⟩ := List.getElem_of_mem hl'
    rw [h1.rlen] at hk
    have : k ∈ perm := hperm.mem_iff.2 (List.mem_range.2 hk)
    obtain ⟨p, hp, hpe⟩ := List.getElem_of_mem this
    obtain ⟨i, e, hi, he', hc⟩ := code_surj order (k := p) (na := A.nrow) (nout := nout) (by omega)
    refine ⟨i, e, hi, he', ?_⟩
    have := h2 i e hi he'
    rw [hc, getD_lt _ _ hp, hpe, List.getElem?_eq_getElem (by rw [h1.rlen]; exact hk)] at this
    exact Option.some.inj this
  have hcol : ∀ i e (q : Nat × α), q ∈ row A i → e < nout → code order A.nrow nout q.1 e < nout * A.nrow := by
    intro i e q hq he'
    exact code_lt order (by have := hw.col_lt hq; omega) he'
  have hlt : ∀ l ∈ rows, ∀ p ∈ l, p.1 < nout * A.ncol := by
    intro l hl' p hp
    obtain ⟨i, e, hi, he', rfl⟩ := hmem l hl'
    obtain ⟨q, hq, rfl⟩ := List.mem_map.1 hp
    rw [hnc]
    exact hget _ (hcol i e q hq he')
  have hvB : Valid B := h1.valid hlt (by
    intro l hl'
    obtain ⟨i, e, hi, he', rfl⟩ := hmem l hl'
    rw [List.map_map]
    have e1 : List.map ((fun p : Nat × α => p.1) ∘ fun q : Nat × α =>
        (perm.getD (code order A.nrow nout q.1 e) 0, q.2 * if order then 1 else signs.getD e 0)) (row A i) =
        ((row A i).map fun p => p.1).map fun j => perm.getD (code order A.nrow nout j e) 0 := by
      rw [List.map_map]; rfl
    rw [e1]
    refine List.Nodup.map_on ?_ (hv.nodup i hi)
    intro x hx y hy hxy
    obtain ⟨q, hq, rfl⟩ := List.mem_map.1 hx
    obtain ⟨q', hq', rfl⟩ := List.mem_map.1 hy
    have := hinj _ _ (hcol i e q hq he') (hcol i e q' hq' he') hxy
    have c1 := hw.col_lt hq
    have c2 := hw.col_lt hq'
    rw [hnc] at c1 c2
    exact (code_inj order c1 he' c2 he' this).1)
  refine ⟨B, ?_, hvB, h1.nrow, by rw [h1.ncol, hnc], ?_⟩
  · have hpos : 0 < nout * A.nrow := Nat.mul_pos ho hn
    rw [h3, if_pos (by omega), hvB.check (by rw [h1.nrow]; exact hpos) (by rw [h1.ncol, hnc]; exact hpos)]
    rfl
  · intro i j e e'
    have hk := hget _ (code_lt order i.2 e.2)
    have hr := h2 i e i.2 e.2
    have hrl : perm.getD (code order A.nrow nout i e) 0 < rows.length := by rw [h1.rlen]; exact hk
    rw [List.getElem?_eq_getElem hrl] at hr
    have := sumAt_code hw hnc.symm nout order perm hperm (if order then 1 else signs.getD e.1 0)
      i e j e' e.2 j.2 e'.2
    rw [← Option.some.inj hr, he] at this
    simp only [Fin.ext_iff]
    rw [← this, entry]
    show sumAt (row B (perm.getD (code order A.nrow nout i e) 0)) _ = _
    rw [h1.row _ hrl]
    rfl

/-- **C16** `externalProduct(C, A, B, signs, order, perm)`: the Kronecker product of `A` and
`B`.  With `order` the pair `(a, b)` sits at `a + b*n` and the sign is that of the row of `A`;
otherwise at `b + a*m` and the sign is that of the row of `B`. -/
theorem externalProduct_spec [CommRing α] {n m : Nat} {A B : Crs α} {MA : Matrix (Fin n) (Fin n) α}
    {MB : Matrix (Fin m) (Fin m) α} (hA : Represents A n n MA) (hvA : Valid A) (hB : Represents B m m MB)
    (hvB : Valid B) (hn : 0 < n) (hm : 0 < m) (signs : List α) (order : Bool) (perm : List Nat)
    (hperm : perm.Perm (List.range (m * n))) (hsg : signs.length = if order then n else m) :
    ∃ C, externalProduct A B signs order perm = some C ∧ Valid C ∧ C.nrow = m * n ∧ C.ncol = m * n ∧
      ∀ (a a' : Fin n) (b b' : Fin m),
        entry C (perm.getD (if order then a.1 + b.1 * n else b.1 + a.1 * m) 0)
            (perm.getD (if order then a'.1 + b'.1 * n else b'.1 + a'.1 * m) 0) =
          MA a a' * MB b b' * signs.getD (if order then a.1 else b.1) 0 := by
  obtain ⟨hwA, hAr, hAc, heA⟩ := hA
  obtain ⟨hwB, hBr, hBc, heB⟩ := hB
  subst hAr hBr
  obtain ⟨C, rows, h1, h2, h3⟩ := ext_rows hwA hwB signs order perm hAc.symm hBc.symm hperm hsg
  have hl : perm.length = B.nrow * A.nrow := by simpa using hperm.length_eq
  have hpos : 0 < B.nrow * A.nrow := Nat.mul_pos hm hn
  -- everything in terms of the two factors X (fast index) and Y (slow index)
  obtain ⟨X, Y, n1, hX, hY, hn1⟩ : ∃ X Y n1, X = (if order then A else B) ∧ Y = (if order then B else A) ∧
      n1 = (if order then A.nrow else B.nrow) := ⟨_, _, _, rfl, rfl, rfl⟩
  rw [← hX, ← hY, ← hn1] at h2
  have hvX : Valid X := by rw [hX]; split_ifs; exacts [hvA, hvB]
  have hvY : Valid Y := by rw [hY]; split_ifs; exacts [hvB, hvA]
  have hXr : X.nrow = n1 := by rw [hX, hn1]; split_ifs <;> rfl
  have hXc : X.ncol = n1 := by rw [hX, hn1]; split_ifs <;> assumption
  have hYc : Y.ncol = Y.nrow := by rw [hY]; split_ifs <;> assumption
  have hN : B.nrow * A.nrow = n1 * Y.nrow := by
    rw [hn1, hY]; split_ifs
    · rw [Nat.mul_comm]
    · rfl
  have hn1p : 0 < n1 := by rw [hn1]; split_ifs <;> assumption
  have hperm' : perm.Perm (List.range (n1 * Y.ncol)) := by rw [hYc, ← hN]; exact hperm
  have hmem : ∀ l ∈ rows, ∃ i1 i2 sg, i1 < X.nrow ∧ i2 < Y.nrow ∧ l = extRow X Y perm n1 i1 i2 sg := by
    intro l hl'
    obtain ⟨k, hk, rfl⟩ := List.getElem_of_mem hl'
    rw [h1.rlen] at hk
    have : k ∈ perm := hperm.mem_iff.2 (List.mem_range.2 hk)
    obtain ⟨p, hp, hpe⟩ := List.getElem_of_mem this
    have := h2 p hp
    rw [hpe, List.getElem?_eq_getElem (by rw [h1.rlen]; exact hk)] at this
    exact ⟨p % n1, p / n1, _, by rw [hXr]; exact Nat.mod_lt _ hn1p,
      Nat.div_lt_of_lt_mul (by omega), Option.some.inj this⟩
  have hlt : ∀ l ∈ rows, ∀ p ∈ l, p.1 < B.nrow * A.nrow := by
    intro l hl' p hp
    obtain ⟨i1, i2, sg, hi1, hi2, rfl⟩ := hmem l hl'
    obtain ⟨x, hx, hp'⟩ := List.mem_flatMap.1 hp
    obtain ⟨y, hy, rfl⟩ := List.mem_map.1 hp'
    have : x.1 + y.1 * n1 < perm.length := by
      rw [hl, hN, ← hYc]
      exact pair_lt (hXc ▸ hvX.toWf.col_lt hx) (hvY.toWf.col_lt hy)
    simp only
    rw [getD_lt _ _ this]
    exact List.mem_range.1 (hperm.mem_iff.1 (List.getElem_mem _))
  have hvC : Valid C := h1.valid hlt (by
    intro l hl'
    obtain ⟨i1, i2, sg, hi1, hi2, rfl⟩ := hmem l hl'
    exact extRow_nodup hvX hvY hXc rfl hperm' i1 i2 hi1 hi2 sg)
  have key : ∀ i1 i2 j1 j2, i1 < n1 → i2 < Y.nrow → j1 < n1 → j2 < Y.nrow →
      entry C (perm.getD (i1 + i2 * n1) 0) (perm.getD (j1 + j2 * n1) 0) =
        entry X i1 j1 * entry Y i2 j2 * signs.getD i1 0 := by
    intro i1 i2 j1 j2 hi1 hi2 hj1 hj2
    have hk : i1 + i2 * n1 < perm.length := by rw [hl, hN]; exact pair_lt hi1 hi2
    have h4 := h2 _ hk
    have e1 : (i1 + i2 * n1) % n1 = i1 := by rw [Nat.add_mul_mod_self_right, Nat.mod_eq_of_lt hi1]
    have e2 : (i1 + i2 * n1) / n1 = i2 := by
      rw [Nat.add_mul_div_right _ _ hn1p, Nat.div_eq_of_lt hi1, Nat.zero_add]
    rw [e1, e2] at h4
    have hrl : perm[i1 + i2 * n1] < rows.length := by
      rw [h1.rlen]; exact List.mem_range.1 (hperm.mem_iff.1 (List.getElem_mem _))
    rw [List.getElem?_eq_getElem hrl] at h4
    rw [getD_lt _ _ hk, entry, h1.row _ hrl, Option.some.inj h4]
    exact sumAt_extRow hvX.toWf hvY.toWf hXc rfl hperm' i1 i2 _ j1 j2 hj1 (by rw [hYc]; exact hj2)
  refine ⟨C, ?_, hvC, h1.nrow, h1.ncol, ?_⟩
  · rw [h3, hvC.check (by rw [h1.nrow]; exact hpos) (by rw [h1.ncol]; exact hpos)]; rfl
  · intro a a' b b'
    cases order
    · simp only [Bool.false_eq_true, if_false] at hX hY hn1 ⊢
      subst hX hY hn1
      rw [key b a b' a' b.2 a.2 b'.2 a'.2, heA, heB]; ring
    · simp only [if_true] at hX hY hn1 ⊢
      subst hX hY hn1
      rw [key a b a' b' a.2 b.2 a'.2 b'.2, heA, heB]

example : externalProduct (⟨[0, 1, 2], [1, 0], [2, 3], 2, 2⟩ : Crs Int) ⟨[0, 1, 2], [0, 1], [5, 7], 2, 2⟩
    [1, -1] true [0, 2, 1, 3] =
    some ⟨[0, 1, 2, 3, 4], [2, 3, 0, 1], [10, 14, -15, -21], 4, 4⟩ := by decide

example : externalProductId Crs.empty (⟨[0, 1, 2], [1, 0], [2, 3], 2, 2⟩ : Crs Int) 2 [1, -1] false
    [0, 1, 2, 3] = some ⟨[0, 1, 2, 3, 4], [2, 3, 0, 1], [2, -2, 3, -3], 4, 4⟩ := by decide

/-! ## C14 validity -/

/-- **C14** `checkValidity` accepts exactly the valid matrices with at least one row and
column, given that the row pointers start at zero (which it does not check). -/
theorem checkValidity_iff {m : Crs α} (h0 : ptr m 0 = 0) :
    checkValidity m = some () ↔ Valid m ∧ 0 < m.nrow ∧ 0 < m.ncol :=
  ⟨fun h => check_conv h h0, fun h => h.1.check h.2.1 h.2.2⟩

/-- **C14** It does not check the first row pointer: an element is lost. -/
theorem checkValidity_start_fails : ∃ m : Crs Int, checkValidity m = some () ∧ ¬ Wf m :=
  ⟨⟨[1, 2], [0, 0], [5, 6], 1, 1⟩, by decide, fun h => by
    have := h.start
    revert this
    decide⟩

/-- The matrices a program can build with the constructors and operations of the class. -/
inductive Reachable [CommRing α] [StarRing α] [DecidableEq α] {R : Type} [LE R] [DecidableLE R] [Zero R]
    (nrm : α → R) : Crs α → Prop
  | ofDense {r c} {A : Matrix (Fin r) (Fin c) α} {a : Mat α} {m} :
      Dense.Represents a r c A → ofDense nrm a = some m → Reachable nrm m
  | fullMatrixToCrsMatrix {r c} {A : Matrix (Fin r) (Fin c) α} {a : Mat α} {m} :
      Dense.Represents a r c A → fullMatrixToCrsMatrix a = some m → Reachable nrm m
  | makeDiagonal {old : Crs α} {n v m} : makeDiagonal old n v = some m → Reachable nrm m
  | mulAssign {m : Crs α} (x : α) : Reachable nrm m → Reachable nrm (mulAssign m x)
  | conjugate {m : Crs α} : Reachable nrm m → Reachable nrm (conjugate m)
  | multiply {A B C : Crs α} : Reachable nrm A → Reachable nrm B → A.ncol = B.nrow →
      multiply A B = some C → Reachable nrm C
  | transposeConjugate {old A B : Crs α} : Reachable nrm A →
      transposeConjugate old A = some B → Reachable nrm B
  | operatorPlus {A B C : Crs α} {b1 c1 : α} : Reachable nrm B → Reachable nrm C →
      operatorPlus B b1 C c1 = some A → Reachable nrm A
  | addAssign {A B C : Crs α} : Reachable nrm B → Reachable nrm C → addAssign B C = some A → Reachable nrm A
  | sum {Bs : List (Crs α × α)} {A : Crs α} : (∀ q ∈ Bs, Reachable nrm q.1) →
      Crs.sum (Bs.map fun q => q.1) (Bs.map fun q => q.2) = some A → Reachable nrm A
  | fromBlockToFull {B F : Crs α} {nrows ncols offset} : Reachable nrm B → B.nrow + offset ≤ nrows →
      B.ncol + offset ≤ ncols → fromBlockToFull nrows ncols B offset = some F → Reachable nrm F
  | externalProductId {old A B : Crs α} {nout signs order perm} : Reachable nrm A → A.nrow = A.ncol →
      0 < A.nrow → 0 < nout → List.Perm perm (List.range (nout * A.nrow)) →
      (order = false → signs.length = nout) →
      externalProductId old A nout signs order perm = some B → Reachable nrm B
  | externalProduct {A B C : Crs α} {signs order perm} : Reachable nrm A → Reachable nrm B →
      A.nrow = A.ncol → B.nrow = B.ncol → 0 < A.nrow → 0 < B.nrow →
      List.Perm perm (List.range (B.nrow * A.nrow)) →
      signs.length = (if order then A.nrow else B.nrow) →
      externalProduct A B signs order perm = some C → Reachable nrm C

/-- A CSR object represents the matrix of its entries. -/
theorem Valid.represents [AddCommMonoid α] {m : Crs α} (h : Wf m) :
    Represents m m.nrow m.ncol (fun i j => entry m i j) := ⟨h, rfl, rfl, fun _ _ => rfl⟩

theorem check_bind_valid {m m' : Crs α} (hs : ptr m 0 = 0)
    (h : (checkValidity m).bind (fun _ => some m) = some m') : m' = m ∧ Valid m := by
  cases hc : checkValidity m with
  | none => rw [hc] at h; cases h
  | some u =>
    rw [hc] at h
    exact ⟨(Option.some.inj h).symm, (check_conv hc hs).1⟩

/-- **C14** Every matrix that can be built is valid: row pointers start at 0, never decrease
and end at the number of stored values, columns are in range and not repeated in a row.
Partial: the coordinate constructor is left out, it does break the claim (`ofCoo_fails`). -/
theorem reachable_valid_partial [CommRing α] [StarRing α] [DecidableEq α] {R : Type} [LE R] [DecidableLE R] [Zero R]
    (nrm : α → R) (hn : ∀ x, nrm x ≤ 0 ↔ x = 0) {m : Crs α} (h : Reachable nrm m) : Valid m := by
  induction h with
  | ofDense ha h =>
    obtain ⟨m', h1, -, h3, -⟩ := ofDense_spec nrm hn ha
    rw [h1] at h; exact Option.some.inj h ▸ h3
  | fullMatrixToCrsMatrix ha h =>
    obtain ⟨m', h1, -, h3, -⟩ := fromDense_spec (fun x : α => decide (x = 0)) (fun x => by simp) ha
    unfold Crs.fullMatrixToCrsMatrix at h
    rw [h1] at h
    simp only [bind, Option.bind_some] at h
    exact (check_bind_valid h3.start h).1 ▸ h3
  | @makeDiagonal old n v m h =>
    obtain ⟨m', h1, h2, -⟩ := makeDiagonal_spec old n v
    rw [h1] at h; exact Option.some.inj h ▸ h2
  | mulAssign x _ ih => exact valid_map_values ih _
  | conjugate _ ih => exact valid_map_values ih _
  | multiply _ _ hd h ihA ihB =>
    obtain ⟨C, rows, h1, h2, h3, h4, h5⟩ := multiply_rows ihA.toWf ihB.toWf hd
    rw [h5] at h
    have hv := h1.valid h2 h3
    exact (check_bind_valid hv.start h).1 ▸ hv
  | @transposeConjugate old A B _ h ih =>
    obtain ⟨B', h1, -, h3⟩ := transposeConjugate_spec (Valid.represents ih.toWf) old
    rw [h1] at h; exact Option.some.inj h ▸ h3 ih
  | @operatorPlus A B C b1 c1 _ _ h ihB ihC =>
    obtain ⟨A', rows, h1, h2, h3, h4, h5, h6⟩ := plus_rows ihB.toWf ihC.toWf b1 c1
    rw [h6] at h
    have hv := h1.valid h2 h3
    exact (check_bind_valid hv.start h).1 ▸ hv
  | @addAssign A B C _ _ h ihB ihC =>
    unfold Crs.addAssign add at h
    split_ifs at h
    · obtain ⟨A', rows, h1, h2, h3, h4, h5, h6⟩ := plus_rows ihB.toWf ihC.toWf 1 1
      rw [h6] at h
      have hv := h1.valid h2 h3
      exact (check_bind_valid hv.start h).1 ▸ hv
    · obtain ⟨A', rows, h1, h2, h3, h4, h5, h6⟩ := plus_rows ihC.toWf ihB.toWf 1 1
      rw [h6] at h
      have hv := h1.valid h2 h3
      exact (check_bind_valid hv.start h).1 ▸ hv
  | @sum Bs A _ h ih =>
    obtain ⟨A', rows, h1, h2, h3, h4, h5⟩ := sum_rows Bs (fun q hq => (ih q hq).toWf) _ _ rfl rfl
    rw [h5] at h
    have hv := h1.valid h2 h3
    exact (check_bind_valid hv.start h).1 ▸ hv
  | @fromBlockToFull B F nrows ncols offset _ hr hc h ih =>
    by_cases h0 : 0 < nrows ∧ 0 < ncols
    · obtain ⟨F', h1, h2, -⟩ := fromBlockToFull_spec (Valid.represents ih.toWf) ih nrows ncols offset hr hc
        h0.1 h0.2
      rw [h1] at h; exact Option.some.inj h ▸ h2
    · obtain ⟨F', h1, h2⟩ := block_rows ih.toWf nrows ncols offset hr
      rw [h2] at h
      have hs : ptr F' 0 = 0 := by rw [h1.ptr 0 (by omega)]; rfl
      obtain ⟨rfl, hv⟩ := check_bind_valid hs h
      exact hv
  | @externalProductId old A B nout signs order perm _ hsq hn0 ho hp hsg h ih =>
    have hrep : Represents A A.nrow A.nrow (fun i j => entry A i j) := ⟨ih.toWf, rfl, hsq.symm, fun _ _ => rfl⟩
    obtain ⟨B', h1, h2, -⟩ := externalProductId_spec hrep ih hn0 old nout ho signs order perm hp hsg
    rw [h1] at h; exact Option.some.inj h ▸ h2
  | @externalProduct A B C signs order perm _ _ hsA hsB hA0 hB0 hp hsg h ihA ihB =>
    have hrA : Represents A A.nrow A.nrow (fun i j => entry A i j) := ⟨ihA.toWf, rfl, hsA.symm, fun _ _ => rfl⟩
    have hrB : Represents B B.nrow B.nrow (fun i j => entry B i j) := ⟨ihB.toWf, rfl, hsB.symm, fun _ _ => rfl⟩
    obtain ⟨C', h1, h2, -⟩ := externalProduct_spec hrA ihA hrB ihB hA0 hB0 signs order perm hp hsg
    rw [h1] at h; exact Option.some.inj h ▸ h2

/-- a matrix built in several steps: diagonal, scaled, transposed, squared, added -/
example : ∃ m : Crs Int, Reachable (fun x : Int => |x|) m ∧ Valid m ∧ m.nrow = 3 := by
  obtain ⟨d, hd, hvd, -, hr, hc, -⟩ := makeDiagonal_spec (Crs.empty : Crs Int) 3 2
  have r0 : Reachable (fun x : Int => |x|) d := .makeDiagonal hd
  have hn : ∀ x : Int, |x| ≤ 0 ↔ x = 0 := fun x => by simp
  have hrep : Represents d 3 3 (fun i j => entry d i j) := ⟨hvd.toWf, hr, hc, fun _ _ => rfl⟩
  obtain ⟨m, h1, h2, h3⟩ := multiply_spec (by decide) (by decide) hrep hrep
  exact ⟨m, .multiply r0 r0 (by rw [hr, hc]) h1, h2, h3.nrow⟩

/-! ## C15 coordinate constructor -/

/-- **C15** The row pointers count rows instead of entries: with two entries in the first row
the second of them is lost, and the result is not even well formed. -/
theorem ofCoo_fails :
    ∃ m : Crs Int, ofCoo 2 [0, 0, 1] [0, 1, 2] [0, 1, 0] [5, 6, 7] = some m ∧ ¬ Wf m ∧
      entry m 0 1 = 0 := by
  refine ⟨⟨[0, 1, 2], [0, 1, 0], [5, 6, 7], 2, 2⟩, by decide, ?_, by decide⟩
  intro h
  exact absurd h.finish (by decide)

/-- **C15** An empty row between others keeps the row pointer 0, so that the entry given for
row 0 is found in row 1. -/
theorem ofCoo_gap_fails :
    ∃ m : Crs Int, ofCoo 3 [0, 2] [0, 1] [0, 0] [5, 7] = some m ∧ entry m 0 0 = 0 ∧ entry m 1 0 = 5 :=
  ⟨⟨[0, 0, 1, 2], [0, 0], [5, 7], 3, 3⟩, by decide, by decide, by decide⟩

/-- **C15** (part) When the rows given are `0, 1, …, k-1` in some order, one entry each, the
matrix holds exactly the given entries.  Missing: rows with several entries and empty rows
before the last one, for which the claim is false (`ofCoo_fails`, `ofCoo_gap_fails`).
`rows2[t], cols[t], vals[t]` are the input; `iperm` is the permutation returned by `Sort`. -/
theorem ofCoo_partial [AddCommMonoid α] (rank k : Nat) (hk : 0 < k) (hkr : k ≤ rank)
    (iperm rows2 cols : List Nat) (vals : List α) (hi : iperm.Perm (List.range k))
    (hr2 : rows2.length = k) (hs : ∀ i (h : i < iperm.length), rows2[iperm[i]]? = some i)
    (hc : cols.length = k) (hv : vals.length = k) (hcr : ∀ c ∈ cols, c < rank) :
    ∃ m, ofCoo rank (List.range k) iperm cols vals = some m ∧ Valid m ∧ m.nrow = rank ∧ m.ncol = rank ∧
      (∀ (t r c : Nat) (v : α), rows2[t]? = some r → cols[t]? = some c → vals[t]? = some v →
        row m r = [(c, v)]) ∧ ∀ r, k ≤ r → row m r = [] := by
  have hil : iperm.length = k := by simpa using hi.length_eq
  have hilt : ∀ i (h : i < iperm.length), iperm[i] < k := fun i h =>
    List.mem_range.1 (hi.mem_iff.1 (List.getElem_mem h))
  -- the rows we expect
  let R : Nat → List (Nat × α) := fun i =>
    if h : i < k then [(cols[iperm[i]'(by omega)]'(by rw [hc]; exact hilt i (by omega)),
      vals[iperm[i]'(by omega)]'(by rw [hv]; exact hilt i (by omega)))] else []
  have hRlen : ∀ i, i < k → (R i).length = 1 := by intro i h; simp [R, h]
  have hfl : ∀ i, i ≤ k → ((List.range i).map R).flatten.length = i := by
    intro i
    induction i with
    | zero => simp
    | succ i ih =>
      intro h
      rw [List.range_succ, List.map_append, List.flatten_append, List.length_append, ih (by omega)]
      simp [hRlen i (by omega)]
  unfold ofCoo
  have h0 : (List.range k)[0]? = some 0 := by rw [List.getElem?_range hk]
  have hlast : (List.range k)[(List.range k).length - 1]? = some (k - 1) := by
    rw [List.length_range, List.getElem?_range (by omega)]
  simp only [h0, hlast, bind, Option.bind_some]
  obtain ⟨⟨m, cnt, prev⟩, h1, h2, h3, h4⟩ := loopN_inv
    (fun i (s : Crs α × Nat × Nat) => Built s.1 rank rank ((List.range i).map R) ∧ s.2.1 = i ∧
      s.2.2 = if i = 0 then 1 else i - 1) (List.range k).length
    (fun i (s : Crs α × Nat × Nat) => do
      let row ← (List.range k)[i]?
      let (m, counter, prev) := s
      let (m, counter, prev) ←
        if prev ≠ row then (setRow m row counter).map fun m => (m, counter + 1, row)
        else some (m, counter, prev)
      let p ← iperm[i]?
      let c ← cols[p]?
      let v ← vals[p]?
      some (push m c v, counter, prev))
    (⟨List.replicate (rank + 1) 0, [], [], rank, rank⟩, 0, 0 + 1)
    ⟨built_resize2 rank rank, rfl, rfl⟩ (by
      rintro i ⟨m, cnt, prev⟩ hi' ⟨g1, g2, g3⟩
      rw [List.length_range] at hi'
      simp only at g1 g2 g3
      subst g2
      obtain ⟨m', q1, q2⟩ := g1.newRow cnt (by simp) (by omega) cnt (hfl cnt (by omega)).symm
      have hne : prev ≠ cnt := by rw [g3]; split_ifs <;> omega
      have e3 : iperm[cnt]? = some (iperm[cnt]'(by omega)) := List.getElem?_eq_getElem _
      have hlt := hilt cnt (by omega)
      have e4 : cols[iperm[cnt]'(by omega)]? = some (cols[iperm[cnt]'(by omega)]'(by omega)) :=
        List.getElem?_eq_getElem _
      have e5 : vals[iperm[cnt]'(by omega)]? = some (vals[iperm[cnt]'(by omega)]'(by omega)) :=
        List.getElem?_eq_getElem _
      refine ⟨(push m' (cols[iperm[cnt]'(by omega)]'(by omega)) (vals[iperm[cnt]'(by omega)]'(by omega)),
        cnt + 1, cnt), ?_, ?_, rfl, by simp⟩
      · rw [List.getElem?_range hi']
        simp only [bind, Option.bind_some, if_pos hne, q1, Option.map_some, e3, e4, e5]
      · rw [List.range_succ, List.map_append, List.map_cons, List.map_nil]
        have : R cnt = [] ++ [(cols[iperm[cnt]'(by omega)]'(by omega),
            vals[iperm[cnt]'(by omega)]'(by omega))] := by simp [R, hi']
        rw [this]
        exact q2.push _ _)
  rw [List.length_range] at h2 h3
  simp only at h2 h3 h4
  simp only [bind, Option.bind_some] at h1
  rw [h1]
  simp only [Option.bind_some]
  rw [h3]
  -- fill the rest
  have hRge : ∀ j, k ≤ j → R j = [] := by intro j hj; simp [R, show ¬ j < k by omega]
  have hflr : ∀ j, k ≤ j → ((List.range j).map R).flatten.length = k := by
    intro j hj
    induction j with
    | zero => rw [hfl 0 (by omega)]; omega
    | succ j ih =>
      by_cases e : k = j + 1
      · rw [← e, hfl k le_rfl]
      · rw [List.range_succ, List.map_append, List.flatten_append, List.length_append, ih (by omega)]
        simp [hRge j (by omega)]
  have hlp : loopFrom (k - 1 + 1) (rank + 1) (fun i m => setRow m i k) m =
      (loopFrom k rank (fun i m => setRow m i k) m).bind fun m => setRow m rank k := by
    unfold loopFrom
    rw [show k - 1 + 1 = k by omega, show rank + 1 - k = (rank - k) + 1 by omega, loopN,
      show k + (rank - k) = rank by omega]
  rw [hlp]
  obtain ⟨m2, e1, e2⟩ := loopN_inv
    (fun j (m : Crs α) => Built m rank rank ((List.range (k + j)).map R)) (rank - k)
    (fun j m => setRow m (k + j) k) m h2 (by
      intro j m' hj hm'
      obtain ⟨m'', q1, q2⟩ := hm'.newRow (k + j) (by simp) (by omega) k (hflr _ (by omega)).symm
      refine ⟨m'', q1, ?_⟩
      rw [← Nat.add_assoc, List.range_succ, List.map_append, List.map_cons, List.map_nil, hRge _ (by omega)]
      exact q2)
  rw [show k + (rank - k) = rank by omega] at e2
  have e1' : loopFrom k rank (fun i m => setRow m i k) m = some m2 := by unfold loopFrom; exact e1
  rw [e1', Option.bind_some]
  obtain ⟨m3, e3, e4⟩ := e2.finish (by simp) k (hflr rank hkr).symm
  have hltR : ∀ l ∈ (List.range rank).map R, ∀ p ∈ l, p.1 < rank := by
    intro l hl p hp
    obtain ⟨i, -, rfl⟩ := List.mem_map.1 hl
    by_cases h : i < k
    · simp only [R, h, dif_pos, List.mem_singleton] at hp
      subst hp
      exact hcr _ (List.getElem_mem _)
    · rw [hRge i (by omega)] at hp; cases hp
  have hvalid : Valid m3 := e4.valid hltR (by
    intro l hl
    obtain ⟨i, -, rfl⟩ := List.mem_map.1 hl
    by_cases h : i < k
    · simp [R, h]
    · simp [hRge i (by omega)])
  refine ⟨m3, e3, hvalid, e4.nrow, e4.ncol, ?_, ?_⟩
  · intro t r c v hr hc' hv'
    have ht : t < k := by rw [← hr2]; exact (List.getElem?_eq_some_iff.1 hr).1
    have : t ∈ iperm := hi.mem_iff.2 (List.mem_range.2 ht)
    obtain ⟨q, hq, hqe⟩ := List.getElem_of_mem this
    have h5 := hs q hq
    rw [hqe, hr] at h5
    have hrq : r = q := Option.some.inj h5
    subst hrq
    have hrk : r < k := by omega
    rw [e4.row r (by simp; omega)]
    simp only [List.getElem_map, List.getElem_range, R, hrk, dif_pos]
    have c1 := (List.getElem?_eq_some_iff.1 hc').2
    have c2 := (List.getElem?_eq_some_iff.1 hv').2
    simp only [hqe, c1, c2]
  · intro r hr
    by_cases h : r < rank
    · rw [e4.row r (by simp; omega)]
      simp only [List.getElem_map, List.getElem_range]
      exact hRge r hr
    · exact row_out hvalid.toWf r (by rw [e4.nrow]; omega)

example : ofCoo 4 (List.range 3) [2, 0, 1] [1, 3, 0] [10, 20, 30] =
    some (⟨[0, 1, 2, 3, 3], [0, 1, 3], [30, 10, 20], 4, 4⟩ : Crs Int) := by decide

/-! ## C17 predicates -/

/-- **C17** `isHermitian` of a CSR matrix. -/
theorem isHermitian_spec [AddCommGroup α] [StarAddMonoid α] {R : Type} [LinearOrder R] (nrm : α → R) (eps : R)
    {n : Nat} {m : Crs α} {M : Matrix (Fin n) (Fin n) α} (h : Represents m n n M) (hv : Valid m) :
    isHermitian nrm eps m = some (decide (∀ i j, nrm (M i j - star (M j i)) ≤ eps)) := by
  unfold isHermitian
  rw [if_neg (by rw [h.nrow, h.ncol]; simp)]
  obtain ⟨d, h1, h2⟩ := toDense_spec hv h
  simp only [h1, bind, Option.bind_some]
  unfold Dense.isHermitian
  rw [if_neg (by rw [h2.nrow, h2.ncol]; simp), h2.nrow]
  rw [Dense.scan_double n n _ (fun i j => !decide (nrm (M i j - star (M j i)) > eps)) (by
    intro i j b
    rw [h2.entry i j, h2.entry j i]
    cases b <;> simp)]
  simp

/-- **C17** A non-square CSR matrix is not Hermitian. -/
theorem isHermitian_nonsquare [AddCommGroup α] [StarAddMonoid α] {R : Type} [LinearOrder R] (nrm : α → R)
    (eps : R) (m : Crs α) (h : m.nrow ≠ m.ncol) : isHermitian nrm eps m = some false := if_pos h

theorem scan_foldlM {β : Type} (l : List β) (p : β → Bool) (f : Bool → β → Option Bool)
    (hf : ∀ b a, a ∈ l → f b a = some (b && p a)) (b : Bool) :
    l.foldlM f b = some (b && l.all p) := by
  induction l generalizing b with
  | nil => simp
  | cons a l ih =>
    rw [List.foldlM_cons, hf b a (by simp)]
    simp only [bind, Option.bind_some]
    rw [ih (fun b a ha => hf b a (by simp [ha]))]
    simp [Bool.and_assoc]

/-- What `isDiagonal` computes. -/
theorem isDiagonal_eq [CommRing α] {R : Type} [LinearOrder R] (nrm : α → R) (eps : R) (chk : Bool)
    {m : Crs α} (hw : Wf m) (hsq : m.nrow = m.ncol) :
    isDiagonal nrm eps chk m = some (decide (∀ t ∈ triples m,
      (t.2.1 ≠ t.1 → nrm t.2.2 ≤ eps) ∧ (chk = true → t.2.1 = t.1 → nrm (t.2.2 - 1) ≤ eps))) := by
  unfold isDiagonal
  rw [if_neg (by rw [hsq]; simp)]
  rw [nested_foldlM hw (fun i col val b => if b = false then some false
    else if chk = true ∧ col = i ∧ nrm (val + -1) > eps then some false
    else if col ≠ i ∧ nrm val > eps then some false else some true)]
  rw [scan_foldlM (triples m) (fun t => decide ((t.2.1 ≠ t.1 → nrm t.2.2 ≤ eps) ∧
      (chk = true → t.2.1 = t.1 → nrm (t.2.2 - 1) ≤ eps))) _ (by
    intro b t _
    cases b
    · simp
    · simp only [Bool.true_eq_false, if_false, Bool.true_and]
      rw [← sub_eq_add_neg]
      by_cases h1 : chk = true ∧ t.2.1 = t.1 ∧ nrm (t.2.2 - 1) > eps
      · rw [if_pos h1, eq_comm]
        congr 1
        rw [decide_eq_false_iff_not]
        rintro ⟨-, h⟩
        exact absurd (h h1.1 h1.2.1) (not_le.2 h1.2.2)
      · rw [if_neg h1]
        by_cases h2 : t.2.1 ≠ t.1 ∧ nrm t.2.2 > eps
        · rw [if_pos h2, eq_comm]
          congr 1
          rw [decide_eq_false_iff_not]
          rintro ⟨h, -⟩
          exact absurd (h h2.1) (not_le.2 h2.2)
        · rw [if_neg h2, eq_comm]
          congr 1
          rw [decide_eq_true_eq]
          refine ⟨fun h => not_lt.1 fun h' => h2 ⟨h, h'⟩, fun hc he => not_lt.1 fun h' => h1 ⟨hc, he, h'⟩⟩)]
  simp only [Bool.true_and]
  congr 1
  rw [Bool.eq_iff_iff, List.all_eq_true, decide_eq_true_eq]
  exact forall₂_congr fun t _ => decide_eq_true_iff

theorem mem_triples {m : Crs α} {i j : Nat} {v : α} :
    (i, j, v) ∈ triples m ↔ i < m.nrow ∧ (j, v) ∈ row m i := by
  unfold triples
  simp only [List.mem_flatMap, List.mem_range, List.mem_map, Prod.mk.injEq]
  constructor
  · rintro ⟨a, ha, p, hp, rfl, rfl, rfl⟩; exact ⟨ha, hp⟩
  · rintro ⟨h1, h2⟩; exact ⟨i, h1, (j, v), h2, rfl, rfl, rfl⟩

/-- In a valid matrix a stored value is the entry, and what is not stored is zero. -/
theorem entry_cases [AddCommMonoid α] {m : Crs α} (h : Valid m) {i : Nat} (hi : i < m.nrow) (j : Nat) :
    (j, entry m i j) ∈ row m i ∨ (j ∉ ((row m i).map fun p => p.1)) ∧ entry m i j = 0 := by
  by_cases hm : j ∈ (row m i).map fun p => p.1
  · left
    obtain ⟨p, hp, rfl⟩ := List.mem_map.1 hm
    have := sumAt_eq_of_mem (h.nodup i hi) hp
    rw [entry, this]; exact hp
  · exact Or.inr ⟨hm, sumAt_of_not_mem hm⟩

/-- **C17** `isDiagonal` (without the identity check): exactly when all off-diagonal elements
are within `eps` of zero. -/
theorem isDiagonal_spec [CommRing α] {R : Type} [LinearOrder R] (nrm : α → R) (eps : R) (h0 : nrm 0 ≤ eps)
    {n : Nat} {m : Crs α} {M : Matrix (Fin n) (Fin n) α} (h : Represents m n n M) (hv : Valid m) :
    isDiagonal nrm eps false m = some (decide (∀ i j, i ≠ j → nrm (M i j) ≤ eps)) := by
  rw [isDiagonal_eq nrm eps false h.wf (by rw [h.nrow, h.ncol])]
  congr 1
  rw [decide_eq_decide]
  constructor
  · intro H i j hij
    have hi : i.1 < m.nrow := by rw [h.nrow]; exact i.2
    rw [← h.entry i j]
    rcases entry_cases hv hi j.1 with hm | ⟨-, hz⟩
    · exact (H _ (mem_triples.2 ⟨hi, hm⟩)).1 (fun e => hij (Fin.ext e.symm))
    · rw [hz]; exact h0
  · rintro H ⟨i, j, v⟩ ht
    obtain ⟨hi, hm⟩ := mem_triples.1 ht
    have hj := h.wf.col_lt hm
    simp only at hj ⊢
    rw [h.nrow] at hi
    rw [h.ncol] at hj
    refine ⟨fun hne => ?_, by simp⟩
    have := H ⟨i, hi⟩ ⟨j, hj⟩ (fun e => hne (Fin.mk.inj e).symm)
    rw [← h.entry, entry] at this
    have e2 := sumAt_eq_of_mem (hv.nodup i (by rw [h.nrow]; exact hi)) hm
    simp only at e2 this
    rw [e2] at this
    exact this

/-- **C17** `isTheIdentity` on a CSR matrix says yes to the zero matrix: diagonal elements that
are not stored are not looked at. -/
theorem isTheIdentity_fails : ∃ m : Crs Int, Valid m ∧ Represents m 2 2 0 ∧
    isTheIdentity (fun x : Int => |x|) 0 m = some true :=
  ⟨⟨[0, 0, 0], [], [], 2, 2⟩, ⟨⟨rfl, rfl, rfl, rfl, by decide, by decide⟩, by decide⟩,
    ⟨⟨rfl, rfl, rfl, rfl, by decide, by decide⟩, rfl, rfl, by intro i j; fin_cases i <;> fin_cases j <;> rfl⟩,
    by decide⟩

/-- **C17** (part) `isTheIdentity` is right when every diagonal element is stored.  Missing:
matrices with absent diagonal elements (`isTheIdentity_fails`). -/
theorem isTheIdentity_partial [CommRing α] {R : Type} [LinearOrder R] (nrm : α → R) (eps : R)
    (h0 : nrm 0 ≤ eps) {n : Nat} {m : Crs α} {M : Matrix (Fin n) (Fin n) α} (h : Represents m n n M)
    (hv : Valid m) (hd : ∀ i, i < n → i ∈ (row m i).map fun p => p.1) :
    isTheIdentity nrm eps m = some (decide (∀ i j, nrm (M i j - if i = j then 1 else 0) ≤ eps)) := by
  unfold isTheIdentity
  rw [isDiagonal_eq nrm eps true h.wf (by rw [h.nrow, h.ncol])]
  congr 1
  rw [decide_eq_decide]
  constructor
  · intro H i j
    have hi : i.1 < m.nrow := by rw [h.nrow]; exact i.2
    rw [← h.entry i j]
    rcases entry_cases hv hi j.1 with hm | ⟨hn, hz⟩
    · have := H _ (mem_triples.2 ⟨hi, hm⟩)
      by_cases e : i = j
      · subst e
        rw [if_pos rfl]
        exact this.2 rfl rfl
      · rw [if_neg e, sub_zero]
        exact this.1 (fun e' => e (Fin.ext e'.symm))
    · by_cases e : i = j
      · subst e; exact absurd (hd i.1 i.2) hn
      · rw [if_neg e, sub_zero, hz]; exact h0
  · rintro H ⟨i, j, v⟩ ht
    obtain ⟨hi, hm⟩ := mem_triples.1 ht
    have hj := h.wf.col_lt hm
    simp only at hj ⊢
    rw [h.nrow] at hi
    rw [h.ncol] at hj
    have := H ⟨i, hi⟩ ⟨j, hj⟩
    rw [← h.entry, entry] at this
    have e2 := sumAt_eq_of_mem (hv.nodup i (by rw [h.nrow]; exact hi)) hm
    simp only [Fin.mk.injEq] at e2 this
    rw [e2] at this
    refine ⟨fun hne => ?_, fun _ he => ?_⟩
    · rw [if_neg (fun e => hne e.symm), sub_zero] at this; exact this
    · rw [if_pos he.symm] at this; exact this

/-- **C17** `isZero` on a CSR matrix: exactly when all elements are within `eps` of zero. -/
theorem isZero_spec [AddCommMonoid α] {R : Type} [LinearOrder R] (nrm : α → R) (eps : R) (h0 : nrm 0 ≤ eps)
    {r c : Nat} {m : Crs α} {M : Matrix (Fin r) (Fin c) α} (h : Represents m r c M) (hv : Valid m) :
    isZero nrm eps m = decide (∀ i j, nrm (M i j) ≤ eps) := by
  unfold isZero
  rw [Bool.eq_iff_iff, List.all_eq_true, decide_eq_true_eq]
  have hI := h.wf.isRows
  constructor
  · intro H i j
    have hi : i.1 < m.nrow := by rw [h.nrow]; exact i.2
    rw [← h.entry i j]
    rcases entry_cases hv hi j.1 with hm | ⟨-, hz⟩
    · have hmem : entry m i j ∈ m.values := by
        rw [hI.vals]
        refine List.mem_map.2 ⟨(j.1, entry m i j), ?_, rfl⟩
        exact List.mem_flatten.2 ⟨row m i, List.mem_map.2 ⟨i.1, List.mem_range.2 hi, rfl⟩, hm⟩
      have := H _ hmem
      simpa using this
    · rw [hz]; exact h0
  · intro H v hvm
    rw [hI.vals] at hvm
    obtain ⟨⟨j, v'⟩, hp, rfl⟩ := List.mem_map.1 hvm
    obtain ⟨l, hl, hpl⟩ := List.mem_flatten.1 hp
    obtain ⟨i, hi, rfl⟩ := List.mem_map.1 hl
    have hi' := List.mem_range.1 hi
    have hj := h.wf.col_lt hpl
    simp only at hj
    have e2 := sumAt_eq_of_mem (hv.nodup i hi') hpl
    have := H ⟨i, by rw [← h.nrow]; exact hi'⟩ ⟨j, by rw [← h.ncol]; exact hj⟩
    rw [← h.entry, entry] at this
    simp only at this e2
    rw [e2] at this
    simpa using this

theorem sumAt_absent [AddCommMonoid α] (l : List (Nat × α)) (k : Nat) (h : k ∉ l.map fun p => p.1) : sumAt l k = 0 := by
  unfold sumAt
  rw [List.filter_eq_nil_iff.2]
  · rfl
  · intro p hp
    simp only [decide_eq_true_eq]
    rintro rfl
    exact h (List.mem_map.2 ⟨p, hp, rfl⟩)

theorem sum_of_row [AddCommMonoid α] {β : Type} [AddCommMonoid β] (g : α → β) (g0 : g 0 = 0) (c : Nat) (l : List (Nat × α))
    (hn : (l.map fun p => p.1).Nodup) (hc : ∀ p ∈ l, p.1 < c) :
    ∑ j : Fin c, g (sumAt l j) = (l.map fun p => g p.2).sum := by
  induction l with
  | nil => simp [sumAt, g0]
  | cons p l ih =>
    simp only [List.map_cons, List.nodup_cons] at hn
    have ih := ih hn.2 (fun q hq => hc q (by simp [hq]))
    rw [List.map_cons, List.sum_cons, ← ih]
    have : ∀ j : Fin c, g (sumAt (p :: l) j) = (if j = ⟨p.1, hc p (by simp)⟩ then g p.2 else 0) + g (sumAt l j) := by
      intro j
      by_cases hj : p.1 = j.1
      · rw [if_pos (Fin.ext hj.symm), ← hj, sumAt_absent l _ hn.1, g0, add_zero]
        have h0 := sumAt_absent l _ hn.1
        unfold sumAt at h0 ⊢
        rw [List.filter_cons_of_pos (by simp), List.map_cons, List.sum_cons, h0, add_zero]
      · rw [if_neg (fun e => hj (by rw [e])), zero_add]
        unfold sumAt
        rw [List.filter_cons_of_neg (by simpa using hj)]
    rw [Finset.sum_congr rfl fun j _ => this j, Finset.sum_add_distrib, Finset.sum_ite_eq' Finset.univ]
    simp

/-- **C17** `norm2` is the sum of the squares of the elements (the trace of `Mᴴ * M`) when no element is stored twice. -/
theorem norm2_spec [Semiring α] [StarRing α] {r c : Nat} {m : Crs α} {M : Matrix (Fin r) (Fin c) α}
    (h : Represents m r c M) (hv : Valid m) : norm2 m = ∑ i, ∑ j, star (M i j) * M i j := by
  have h1 : ∀ (l : List α) (a : α), l.foldl (fun val v => val + star v * v) a = a + (l.map fun v => star v * v).sum := by
    intro l
    induction l with
    | nil => simp
    | cons v l ih => intro a; rw [List.foldl_cons, ih, List.map_cons, List.sum_cons, add_assoc]
  unfold norm2
  rw [h1, zero_add, h.wf.isRows.vals, List.map_map]
  have h2 : ∀ L : List (List (Nat × α)), (L.flatten.map ((fun v => star v * v) ∘ fun p => p.2)).sum =
      (L.map fun l => (l.map fun p => star p.2 * p.2).sum).sum := by
    intro L
    induction L with
    | nil => rfl
    | cons l L ih => rw [List.flatten_cons, List.map_append, List.sum_append, ih, List.map_cons, List.sum_cons]; rfl
  have h3 : ∀ (n : Nat) (f : Nat → α), ((List.range n).map f).sum = ∑ i : Fin n, f i := by
    intro n f
    rw [← Finset.sum_range]
    induction n with
    | zero => rfl
    | succ n ih => rw [List.range_succ, List.map_append, List.sum_append, ih, Finset.sum_range_succ]; simp
  rw [h2, List.map_map, h3, h.nrow]
  refine Finset.sum_congr rfl fun i _ => ?_
  have hi : i.1 < m.nrow := by rw [h.nrow]; exact i.2
  have hs := sum_of_row (fun v : α => star v * v) (by simp) c (row m i) (hv.nodup i hi)
    (fun p hp => by rw [← h.ncol]; exact h.wf.col_lt hp)
  simp only [Function.comp]
  rw [← hs]
  refine Finset.sum_congr rfl fun j _ => ?_
  rw [← h.entry i j]; rfl

/-- **C17** `norm2` of a matrix with an element stored in two parts is wrong. -/
theorem norm2_twice_fails : ∃ m : Crs Int, Represents m 1 1 (fun _ _ => 3) ∧ norm2 m = 5 := by
  refine ⟨⟨[0, 2], [0, 0], [1, 2], 1, 1⟩, ⟨⟨rfl, by decide, by decide, rfl, by decide, by decide⟩, rfl, rfl, ?_⟩, by decide⟩
  intro i j
  fin_cases i; fin_cases j
  decide

/-- **C11** `multiplyTc` is the product with the conjugate transpose, as a dense matrix. -/
theorem multiplyTc_spec [CommRing α] [StarRing α] {r k c : Nat} (hr : 0 < r) (hc : 0 < c) {A B : Crs α}
    {MA : Matrix (Fin r) (Fin k) α} {MB : Matrix (Fin c) (Fin k) α} (hA : Represents A r k MA) (hB : Represents B c k MB) :
    ∃ d, multiplyTc A B = some d ∧ Dense.Represents d r c (MA * MB.conjTranspose) := by
  obtain ⟨B', h1, h2, -⟩ := transposeConjugate_spec hB Crs.empty
  obtain ⟨C, h3, h4, h5⟩ := multiply_spec hr hc hA h2
  obtain ⟨d, h6, h7⟩ := toDense_spec h4 h5
  refine ⟨d, ?_, h7⟩
  simp only [multiplyTc, h1, h3, h6, bind, Option.bind_some]

/-- A row times a row. -/
example : multiplyTc (⟨[0, 2], [0, 1], [2, 3], 1, 2⟩ : Crs Int) ⟨[0, 2], [0, 1], [5, 7], 1, 2⟩ = some ⟨1, 1, [31]⟩ := by
  decide

/-! The same predicates on the dense class. -/

/-- **C17** `isHermitian` of a dense matrix. -/
theorem dense_isHermitian_spec [AddGroup α] [Star α] {R : Type} [LinearOrder R] (nrm : α → R) (eps : R)
    {n : Nat} {d : Mat α} {M : Matrix (Fin n) (Fin n) α} (h : Dense.Represents d n n M) :
    Dense.isHermitian nrm eps d = some (decide (∀ i j, nrm (M i j - star (M j i)) ≤ eps)) := by
  unfold Dense.isHermitian
  rw [if_neg (by rw [h.nrow, h.ncol]; simp), h.nrow]
  rw [Dense.scan_double n n _ (fun i j => !decide (nrm (M i j - star (M j i)) > eps)) (by
    intro i j b
    rw [h.entry i j, h.entry j i]
    cases b <;> simp)]
  simp

/-- **C17** `isAntiHermitian` of a dense matrix. -/
theorem dense_isAntiHermitian_spec [Add α] [Star α] {R : Type} [LinearOrder R] (nrm : α → R) (eps : R)
    {n : Nat} {d : Mat α} {M : Matrix (Fin n) (Fin n) α} (h : Dense.Represents d n n M) :
    Dense.isAntiHermitian nrm eps d = some (decide (∀ i j, nrm (M i j + star (M j i)) ≤ eps)) := by
  unfold Dense.isAntiHermitian
  rw [if_neg (by rw [h.nrow, h.ncol]; simp), h.nrow]
  rw [Dense.scan_double n n _ (fun i j => !decide (nrm (M i j + star (M j i)) > eps)) (by
    intro i j b
    rw [h.entry i j, h.entry j i]
    cases b <;> simp)]
  simp

/-- **C17** `isAntiHermitian` of a CSR matrix. -/
theorem isAntiHermitian_spec [AddCommGroup α] [StarAddMonoid α] {R : Type} [LinearOrder R] (nrm : α → R) (eps : R) {m : Crs α} {n c : Nat}
    {M : Matrix (Fin n) (Fin c) α} (h : Represents m n c M) (hv : Valid m) :
    isAntiHermitian nrm eps m = some (decide (∃ e : n = c, ∀ i j : Fin n, nrm (M i (Fin.cast e j) + star (M j (Fin.cast e i))) ≤ eps)) := by
  unfold isAntiHermitian
  by_cases e : n = c
  · subst e
    rw [if_neg (by rw [h.nrow, h.ncol]; simp)]
    obtain ⟨d, h1, h2⟩ := toDense_spec hv h
    simp only [h1, bind, Option.bind_some]
    rw [dense_isAntiHermitian_spec nrm eps h2]
    simp
  · rw [if_pos (by rw [h.nrow, h.ncol]; exact e)]
    simp [e]

/-- **C17** `isTheIdentity` of a dense square matrix. -/
theorem dense_isTheIdentity_spec [AddGroup α] [One α] {R : Type} [LinearOrder R] (nrm : α → R) (eps : R)
    {n : Nat} {d : Mat α} {M : Matrix (Fin n) (Fin n) α} (h : Dense.Represents d n n M) :
    Dense.isTheIdentity nrm eps d =
      some (decide (∀ i j, nrm (M i j - if i = j then 1 else 0) ≤ eps)) := by
  unfold Dense.isTheIdentity
  rw [h.nrow, h.ncol]
  simp only [bind]
  rw [Dense.scan_double n n (fun i j b => (d.get i j).bind fun x => if b = false then some false
      else some (!decide (i ≠ j ∧ nrm x > eps))) (fun i j => !decide (i ≠ j ∧ nrm (M i j) > eps)) (by
    intro i j b
    rw [h.entry i j]
    cases b
    · simp
    · simp [Fin.ext_iff])]
  simp only [Option.bind_some, Bool.true_and]
  rw [Dense.scan_loop n (fun i b => if b = false then some false
      else (d.get i i).map fun x => !decide (nrm (x - 1) > eps)) (fun i => !decide (nrm (M i i - 1) > eps)) (by
    intro i b
    rw [h.entry i i]
    cases b <;> simp)]
  have hiff : (∀ i j, nrm (M i j - if i = j then 1 else 0) ≤ eps) ↔
      (∀ i j : Fin n, i ≠ j → nrm (M i j) ≤ eps) ∧ ∀ i, nrm (M i i - 1) ≤ eps := by
    constructor
    · intro H
      refine ⟨fun i j hij => ?_, fun i => ?_⟩
      · have := H i j; rw [if_neg hij, sub_zero] at this; exact this
      · have := H i i; rw [if_pos rfl] at this; exact this
    · rintro ⟨H1, H2⟩ i j
      by_cases e : i = j
      · subst e; rw [if_pos rfl]; exact H2 i
      · rw [if_neg e, sub_zero]; exact H1 i j e
  by_cases h1 : ∀ i j : Fin n, i ≠ j → nrm (M i j) ≤ eps
  · have e1 : decide (∀ i j : Fin n, (!decide (i ≠ j ∧ nrm (M i j) > eps)) = true) = true := by
      rw [decide_eq_true_eq]
      intro i j
      simp only [Bool.not_eq_true', decide_eq_false_iff_not, not_and, not_lt, gt_iff_lt]
      exact h1 i j
    rw [e1]
    simp only [Bool.true_eq_false, if_false, Bool.true_and]
    congr 1
    rw [decide_eq_decide, hiff]
    simp only [Bool.not_eq_true', decide_eq_false_iff_not, not_lt, gt_iff_lt]
    exact ⟨fun h => ⟨h1, h⟩, fun h => h.2⟩
  · have e1 : decide (∀ i j : Fin n, (!decide (i ≠ j ∧ nrm (M i j) > eps)) = true) = false := by
      rw [decide_eq_false_iff_not]
      intro H
      apply h1
      intro i j
      have := H i j
      simp only [Bool.not_eq_true', decide_eq_false_iff_not, not_and, not_lt, gt_iff_lt] at this
      exact this
    rw [e1]
    simp only [if_true]
    congr 1
    rw [eq_comm, decide_eq_false_iff_not, hiff]
    exact fun h => h1 h.1

/-- **C17** `isZero` of a dense matrix. -/
theorem dense_isZero_spec {R : Type} [LinearOrder R] [Zero R] (nrm : α → R)
    {r c : Nat} {d : Mat α} {M : Matrix (Fin r) (Fin c) α} (h : Dense.Represents d r c M) :
    Dense.isZero nrm d = some (decide (∀ i j, nrm (M i j) ≤ 0)) := by
  unfold Dense.isZero
  rw [h.nrow, h.ncol]
  rw [Dense.scan_double r c _ (fun i j => !decide (nrm (M i j) > 0)) (by
    intro i j b
    rw [h.entry i j]
    cases b <;> simp)]
  simp

example : Dense.isHermitian (fun x : Int => |x|) 0 (⟨2, 2, [1, 3, 3, 4]⟩ : Mat Int) = some true ∧
    Dense.isHermitian (fun x : Int => |x|) 0 (⟨2, 2, [1, 3, 5, 4]⟩ : Mat Int) = some false ∧
    isTheIdentity (fun x : Int => |x|) 0 (⟨[0, 1, 2], [0, 1], [1, 1], 2, 2⟩ : Crs Int) = some true ∧
    isTheIdentity (fun x : Int => |x|) 0 (⟨[0, 1, 2], [0, 1], [1, 3], 2, 2⟩ : Crs Int) = some false ∧
    isDiagonal (fun x : Int => |x|) 0 false (⟨[0, 1, 2], [0, 0], [1, 3], 2, 2⟩ : Crs Int) = some false := by
  decide

/-! ## C18 text format -/

theorem readNums_append (l : List Nat) (rest : List (Tok α)) :
    readNums l.length (l.map Tok.num ++ rest) = some (l, rest) := by
  induction l with
  | nil => rfl
  | cons a l ih => simp [readNums, ih]

theorem readVals_append (l : List α) (rest : List (Tok α)) :
    readVals l.length (l.map Tok.val ++ rest) = some (l, rest) := by
  induction l with
  | nil => rfl
  | cons a l ih => simp [readVals, ih]

theorem print_list {β : Type} (l : List β) (f : β → Tok α) (n : Nat) (hn : n = l.length) :
    loopN n (fun i acc => (l[i]?).map fun p => acc ++ [f p]) [] = some (l.map f) := by
  subst hn
  obtain ⟨s, h1, h2⟩ := loopN_inv (fun i (acc : List (Tok α)) => acc = (l.take i).map f) l.length
    (fun i acc => (l[i]?).map fun p => acc ++ [f p]) [] rfl (by
      rintro i acc hi rfl
      refine ⟨_, by rw [List.getElem?_eq_getElem hi]; rfl, ?_⟩
      rw [List.take_succ_eq_append_getElem hi, List.map_append]; rfl)
  rw [h1, h2, List.take_length]

/-- **C18** Printing a valid nonempty matrix and reading it back restores the same object,
whatever the reading variable held, and leaves the rest of the stream untouched. -/
theorem print_read [Zero α] (m old : Crs α) (h : Wf m) (hr : 0 < m.nrow) (hc : 0 < m.ncol)
    (rest : List (Tok α)) :
    ∃ toks, print m = some toks ∧ read old (toks ++ rest) = some (m, rest) := by
  have hp : print m = some ([.num m.nrow, .num m.ncol] ++ m.rowptr.map Tok.num ++ [.num m.colind.length] ++
      m.colind.map Tok.num ++ [.num m.colind.length] ++ m.values.map Tok.val) := by
    unfold print
    rw [if_neg (by omega)]
    rw [print_list m.rowptr Tok.num _ h.rowptr_length.symm, h.nonZeros]
    simp only [bind, Option.bind_some]
    rw [print_list m.colind Tok.num _ rfl, print_list m.values Tok.val _ h.values_length.symm]
    rfl
  refine ⟨_, hp, ?_⟩
  unfold read
  simp only [List.cons_append, List.append_assoc, List.nil_append, readNum, bind, Option.bind_some]
  rw [if_neg (by omega), ← h.rowptr_length, readNums_append]
  simp only [Option.bind_some, readNum]
  rw [readNums_append]
  simp only [Option.bind_some, readNum]
  rw [← h.values_length, readVals_append]
  rfl

/-- **C18** A matrix without columns is not restored: the reading variable keeps its old
contents (and the row pointers stay in the stream). -/
theorem print_read_empty_fails : ∃ (m old : Crs Int) (toks : List (Tok Int)), Wf m ∧ print m = some toks ∧
    read old toks = some (old, [.num 0, .num 0, .num 0, .num 0]) ∧ old ≠ m :=
  ⟨⟨[0, 0], [], [], 1, 0⟩, ⟨[0, 1], [0], [7], 1, 1⟩, _, ⟨rfl, rfl, rfl, rfl, by decide, by decide⟩, rfl, rfl,
    by decide⟩

example : print (⟨[0, 1, 2], [1, 0], [3, 5], 2, 2⟩ : Crs Int) =
    some [.num 2, .num 2, .num 0, .num 1, .num 2, .num 2, .num 1, .num 0, .num 2, .val 3, .val 5] := by decide

/-! ## Cases -/

example := (checkValidity_iff (m := (⟨[0, 1, 2], [1, 0], [3, 5], 2, 2⟩ : Crs Int)) rfl).2 ⟨swap_valid, by decide, by decide⟩
example := dense_isAntiHermitian_spec (fun x : Int => |x|) 0 Dense.square_rep
example := dense_isHermitian_spec (fun x : Int => |x|) 0 Dense.square_rep
example := dense_isTheIdentity_spec (fun x : Int => |x|) 0 Dense.square_rep
example := dense_isZero_spec (fun x : Int => |x|) Dense.six_rep
example := externalProductId_spec swap_rep swap_valid (by decide) Crs.empty 2 (by decide) [1, -1] false [0, 2, 1, 3] (by decide) (fun _ => rfl)
example := externalProduct_spec swap_rep swap_valid swap_rep swap_valid (by decide) (by decide) [1, -1] true [0, 2, 1, 3] (by decide) rfl
example := isDiagonal_spec (fun x : Int => |x|) 0 (by simp) swap_rep swap_valid
example := isHermitian_spec (fun x : Int => |x|) 0 swap_rep swap_valid
example := isAntiHermitian_spec (fun x : Int => |x|) 0 swap_rep swap_valid
example : isAntiHermitian (fun x : Int => |x|) 0 ⟨[0, 1, 2], [1, 0], [3, -3], 2, 2⟩ = some true ∧
    isAntiHermitian (fun x : Int => |x|) 0 ⟨[0, 1, 2], [1, 0], [3, 3], 2, 2⟩ = some false ∧
    isAntiHermitian (fun x : Int => |x|) 0 ⟨[0, 0], [], [], 1, 2⟩ = some false := by decide
example := isHermitian_nonsquare (fun x : Int => |x|) 0 ⟨[0, 1, 2], [2, 0], [1, 7], 2, 3⟩ (by decide)
example := isTheIdentity_partial (fun x : Int => |x|) 0 (by simp) (n := 2) (m := ⟨[0, 1, 2], [0, 1], [1, 3], 2, 2⟩) (M := !![1, 0; 0, 3])
  ⟨⟨rfl, rfl, rfl, rfl, by decide, by decide⟩, rfl, rfl, by intro i j; fin_cases i <;> fin_cases j <;> rfl⟩
  ⟨⟨rfl, rfl, rfl, rfl, by decide, by decide⟩, by decide⟩ (by decide)
example := isZero_spec (fun x : Int => |x|) 0 (by simp) wide_rep wide_valid
example := multiplyTc_spec (by decide) (by decide) wide_rep wide_rep
example := norm2_spec wide_rep wide_valid
example := ofCoo_partial 4 3 (by decide) (by decide) [2, 0, 1] [1, 2, 0] [1, 3, 0] [(10 : Int), 20, 30] (by decide) rfl (by decide) rfl rfl (by decide)
example := print_read (⟨[0, 1, 2], [1, 0], [3, 5], 2, 2⟩ : Crs Int) Crs.empty swap_rep.wf (by decide) (by decide) [.num 7]
example : ∃ m : Crs Int, Reachable (fun x : Int => |x|) m ∧ Valid m := by
  obtain ⟨d, hd, -⟩ := makeDiagonal_spec (Crs.empty : Crs Int) 3 2
  exact ⟨d, .makeDiagonal hd, reachable_valid_partial (fun x : Int => |x|) (fun x => abs_nonpos_iff) (.makeDiagonal hd)⟩

end Verif.Crs
