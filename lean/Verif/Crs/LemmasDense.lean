import Verif.Crs.Lemmas

namespace Verif.Crs

open Verif.Loop
open Verif.Dense (Mat)

variable {α σ : Type}

/-- Row `i` of the CSR form of the dense matrix `A`. -/
def denseRow {r c : Nat} (skip : α → Bool) (A : Matrix (Fin r) (Fin c) α) (i : Fin r) :
    List (Nat × α) :=
  ((List.finRange c).filter fun j => !skip (A i j)).map fun j => (j.1, A i j)

theorem fromDense_rows (skip : α → Bool) {r c : Nat} {A : Matrix (Fin r) (Fin c) α} {a : Mat α}
    (h : Dense.Represents a r c A) :
    ∃ m, fromDense skip a = some m ∧ IsRows m r c ((List.finRange r).map (denseRow skip A)) := by
  unfold fromDense
  rw [h.nrow, h.ncol]
  obtain ⟨⟨m, k⟩, h1, h2, h3⟩ := loopN_inv
    (fun i (s : Crs α × Nat) => Built s.1 r c (((List.finRange r).take i).map (denseRow skip A)) ∧
      s.2 = (((List.finRange r).take i).map (denseRow skip A)).flatten.length) r
    (fun i (s : Crs α × Nat) => do
      let c' ← setRow s.1 i s.2
      loopN c (fun j (s : Crs α × Nat) => do
        let x ← a.get i j
        if skip x then some s else some (push s.1 j x, s.2 + 1)) (c', s.2)) (resize2 r c, 0)
    ⟨by simpa using built_resize2 r c, by simp⟩ (by
      rintro i ⟨m, k⟩ hi ⟨hb, hk⟩
      simp only at hb hk
      obtain ⟨m1, e1, hb1⟩ := hb.newRow i (by simp; omega) hi k hk
      have hi' : i < (List.finRange r).length := by simpa using hi
      set done := ((List.finRange r).take i).map (denseRow skip A) with hdone
      obtain ⟨⟨m2, k2⟩, e2, hb2, hk2⟩ := loopN_inv
        (fun j (s : Crs α × Nat) =>
          Built s.1 r c (done ++ [(((List.finRange c).take j).filter
            fun j => !skip (A ⟨i, hi⟩ j)).map fun j => (j.1, A ⟨i, hi⟩ j)]) ∧
          s.2 = done.flatten.length + (((List.finRange c).take j).filter
            fun j => !skip (A ⟨i, hi⟩ j)).length) c
        (fun j (s : Crs α × Nat) => do
          let x ← a.get i j
          if skip x then some s else some (push s.1 j x, s.2 + 1)) (m1, k)
        ⟨by simpa using hb1, by simpa using hk⟩ (by
          rintro j ⟨m, k⟩ hj ⟨hb, hk⟩
          simp only at hb hk
          have hj' : j < (List.finRange c).length := by simpa using hj
          rw [h.get hi hj]
          simp only [bind, Option.bind_some, List.take_succ_eq_append_getElem hj', List.filter_append,
            List.getElem_finRange]
          by_cases hs : skip (A ⟨i, hi⟩ ⟨j, hj⟩) = true
          · refine ⟨(m, k), by simp [hs], ?_, ?_⟩
            · simpa [hs] using hb
            · simpa [hs] using hk
          · have hs' : skip (A ⟨i, hi⟩ ⟨j, hj⟩) = false := by simpa using hs
            refine ⟨(push m j (A ⟨i, hi⟩ ⟨j, hj⟩), k + 1), by simp [hs'], ?_, ?_⟩
            · have := hb.push j (A ⟨i, hi⟩ ⟨j, hj⟩)
              simpa [hs'] using this
            · simp [hs', hk]; omega)
      refine ⟨(m2, k2), ?_, ?_, ?_⟩
      · simp only [e1, bind, Option.bind_some]; exact e2
      · rw [List.take_succ_eq_append_getElem hi', List.map_append, ← hdone]
        simp only [List.getElem_finRange]
        rw [List.take_of_length_le (by simp)] at hb2
        exact hb2
      · rw [List.take_succ_eq_append_getElem hi', List.map_append, ← hdone]
        simp only [List.getElem_finRange]
        rw [List.take_of_length_le (by simp)] at hk2
        simp only at hk2
        rw [hk2]
        simp [denseRow])
  rw [h1]
  simp only [bind, Option.bind_some]
  rw [List.take_of_length_le (by simp)] at h2 h3
  exact h2.finish (by simp) k h3

theorem denseRow_lt {r c : Nat} (skip : α → Bool) (A : Matrix (Fin r) (Fin c) α) (i : Fin r) :
    ∀ p ∈ denseRow skip A i, p.1 < c := by
  intro p hp
  obtain ⟨j, -, rfl⟩ := List.mem_map.1 hp
  exact j.2

theorem denseRow_nodup {r c : Nat} (skip : α → Bool) (A : Matrix (Fin r) (Fin c) α) (i : Fin r) :
    ((denseRow skip A i).map fun p => p.1).Nodup := by
  unfold denseRow
  rw [List.map_map]
  refine List.Nodup.map_on ?_ ((List.nodup_finRange c).filter _)
  intro x _ y _ h
  exact Fin.ext h

theorem sumAt_denseRow [AddCommMonoid α] {r c : Nat} (skip : α → Bool)
    (hs : ∀ x, skip x = true ↔ x = 0) (A : Matrix (Fin r) (Fin c) α) (i : Fin r) (j : Fin c) :
    sumAt (denseRow skip A i) j = A i j := by
  by_cases h : A i j = 0
  · rw [h, sumAt_of_not_mem]
    intro hm
    obtain ⟨p, hp, he⟩ := List.mem_map.1 hm
    obtain ⟨k, hk, rfl⟩ := List.mem_map.1 hp
    have : k = j := Fin.ext he
    subst this
    have := (List.mem_filter.1 hk).2
    simp [(hs _).2 h] at this
  · have : ((j.1, A i j) : Nat × α) ∈ denseRow skip A i := by
      refine List.mem_map.2 ⟨j, List.mem_filter.2 ⟨List.mem_finRange j, ?_⟩, rfl⟩
      have : skip (A i j) = false := by
        by_contra hc
        exact h ((hs _).1 (by simpa using hc))
      simp [this]
    exact sumAt_eq_of_mem (denseRow_nodup skip A i) this

/-! ### To dense -/

theorem toDense_loop [AddCommMonoid α] {m : Crs α} (h : Valid m) {d : Mat α}
    (hd : Dense.Shape d m.nrow m.ncol)
    (h0 : ∀ i j, i < m.nrow → j < m.ncol → d.get i j = some 0) :
    ∃ d', loopN m.nrow (fun i d => rowLoop m i (fun j v d => d.set i j v) d) d = some d' ∧
      Dense.Represents d' m.nrow m.ncol (fun i j => entry m i j) := by
  obtain ⟨d', h1, h2, h3⟩ := loopN_inv
    (fun k (d : Mat α) => Dense.Shape d m.nrow m.ncol ∧ ∀ i j, i < m.nrow → j < m.ncol →
      d.get i j = some (if i < k then entry m i j else 0)) m.nrow
    (fun i d => rowLoop m i (fun j v d => d.set i j v) d) d ⟨hd, by simpa using h0⟩ (by
      rintro k d hk ⟨hs, hg⟩
      rw [h.toWf.rowLoop k hk]
      have hnd := h.nodup k hk
      obtain ⟨d', h1, h2, h3⟩ := foldlM_inv
        (fun (l : List (Nat × α)) (d : Mat α) => Dense.Shape d m.nrow m.ncol ∧
          ∀ i j, i < m.nrow → j < m.ncol →
          d.get i j = some (if i < k then entry m i j else if i = k then sumAt l j else 0)) (row m k)
        (fun d p => d.set k p.1 p.2) d ⟨hs, by
          intro i j hi hj
          rw [hg i j hi hj]; simp⟩ (by
          rintro l p r d hl ⟨hs, hg⟩
          have hpc : p.1 < m.ncol := h.toWf.col_lt (i := k) (by rw [hl]; simp)
          obtain ⟨d', e1, e2, e3, e4⟩ := hs.set hk hpc p.2
          refine ⟨d', e1, e2, ?_⟩
          intro i j hi hj
          by_cases he : i = k ∧ j = p.1
          · obtain ⟨rfl, rfl⟩ := he
            rw [e3, if_neg (by omega), if_pos rfl, sumAt_snoc, if_pos rfl, sumAt_of_not_mem, zero_add]
            intro hm
            rw [hl, List.map_append, List.map_cons] at hnd
            exact List.disjoint_of_nodup_append hnd hm (by simp)
          · rw [e4 i j hi hj (by omega), hg i j hi hj]
            by_cases hik : i = k
            · subst hik
              have hjp : ¬ p.1 = j := fun h => he ⟨rfl, h.symm⟩
              rw [sumAt_snoc, if_neg hjp, add_zero]
            · rw [if_neg hik, if_neg hik])
      refine ⟨d', h1, h2, ?_⟩
      intro i j hi hj
      rw [h3 i j hi hj]
      by_cases e : i = k
      · subst e; simp [entry]
      · by_cases e' : i < k
        · rw [if_pos e', if_pos (by omega)]
        · rw [if_neg e', if_neg e, if_neg (by omega)])
  refine ⟨d', h1, h2.nrow, h2.ncol, h2.size, ?_⟩
  intro i j
  rw [h3 i j i.2 j.2, if_pos i.2]

theorem toDense_rep [AddCommMonoid α] {m : Crs α} (h : Valid m) :
    ∃ d, toDense m = some d ∧ Dense.Represents d m.nrow m.ncol (fun i j => entry m i j) := by
  unfold toDense crsMatrixToFullMatrix
  have e : (Mat.resizeVal ⟨0, 0, []⟩ m.nrow m.ncol 0 : Mat α) = Mat.mk0 m.nrow m.ncol := by
    simp [Mat.resizeVal, Mat.mk0, resizeL_nil]
  rw [e]
  exact toDense_loop h (Dense.shape_mk0 _ _) (fun i j hi hj => Dense.shape_mk0_get hi hj)

/-! ### Matrix-vector product -/

theorem mvp_row [CommRing α] (l : List (Nat × α)) (y : List α) (hl : ∀ p ∈ l, p.1 < y.length)
    (x : List α) (i : Nat) (hi : i < x.length) :
    l.foldlM (fun x p => (y[p.1]?).bind fun b => updAt x i (· + p.2 * b)) x =
      some (x.set i (x[i] + (l.map fun p => p.2 * y.getD p.1 0).sum)) := by
  obtain ⟨x', h1, h2⟩ := foldlM_inv
    (fun d x' => x' = x.set i (x[i] + (d.map fun p => p.2 * y.getD p.1 0).sum)) l
    (fun x p => (y[p.1]?).bind fun b => updAt x i (· + p.2 * b)) x (by simp) (by
      rintro d p r x' hd rfl
      have hp : p.1 < y.length := hl p (by rw [hd]; simp)
      refine ⟨_, ?_, rfl⟩
      rw [List.getElem?_eq_getElem hp, Option.bind_some, updAt_some _ (by simpa using hi)]
      simp [hp, add_assoc])
  rw [h1, h2]

theorem sum_mul_sumAt [CommRing α] (l : List (Nat × α)) (n : Nat) (hl : ∀ p ∈ l, p.1 < n)
    (y : Fin n → α) :
    (l.map fun p => p.2 * (List.ofFn y).getD p.1 0).sum = ∑ j : Fin n, sumAt l j * y j := by
  induction l with
  | nil => simp
  | cons p l ih =>
    have hp : p.1 < n := hl p (by simp)
    rw [List.map_cons, List.sum_cons, ih (fun q hq => hl q (by simp [hq]))]
    simp only [sumAt_cons, add_mul, Finset.sum_add_distrib]
    congr 1
    rw [Finset.sum_eq_single (⟨p.1, hp⟩ : Fin n)]
    · simp [hp]
    · intro j _ hj
      rw [if_neg (fun h => hj (Fin.ext h.symm)), zero_mul]
    · simp

end Verif.Crs
