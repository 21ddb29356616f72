import Verif.SortM.Lemmas

/-! # C22: indirect sort -/

namespace Verif.SortM

variable {α : Type _} [LinearOrder α]

/-- C22: whatever `std::sort` does within its contract, after `sort(x, iperm)` the vector
is sorted and a rearrangement of the old one, `iperm` is a permutation of `0..n-1`, and
`x_new[i] = x_old[iperm[i]]`. -/
theorem sort_correct (x x' : List α) (iperm iperm' : List Nat)
    (hlen : iperm.length = x.length) (h : SortRun x iperm 0 x' iperm') :
    x'.Pairwise (· ≤ ·) ∧ x'.Perm x ∧ iperm'.Perm (List.range x.length) ∧
      ∀ i, i < x.length → ∃ k, iperm'[i]? = some k ∧ k < x.length ∧ x'[i]? = x[k]? := by
  unfold SortRun at h
  split at h
  · rename_i hx
    obtain ⟨rfl, rfl⟩ := h
    subst hx
    have : iperm' = [] := List.eq_nil_of_length_eq_zero hlen
    subst this
    simp
  · simp only [ne_eq, not_true_eq_false, if_false, List.drop_length, List.append_nil,
      pairsOf, List.take_length, le_refl, true_and] at h
    obtain ⟨-, q, ⟨hp, hs⟩, rfl, rfl⟩ := h
    refine ⟨?_, ?_, ?_, ?_⟩
    · rw [List.pairwise_map]
      exact hs.imp (fun h => not_lt.1 h)
    · simpa using hp.map Prod.fst
    · have := hp.map Prod.snd
      rwa [List.zipIdx_map_snd, ← List.range_eq_range'] at this
    · intro i hi
      have hql : q.length = x.length := by simpa using hp.length_eq
      have hm : q[i]'(by omega) ∈ x.zipIdx := hp.mem_iff.1 (List.getElem_mem _)
      have := List.mem_zipIdx hm
      refine ⟨(q[i]'(by omega)).2, ?_, by simpa using this.2.1, ?_⟩
      · simp [List.getElem?_eq_getElem (show i < q.length by omega)]
      · have h2 := List.mem_zipIdx_iff_getElem?.1 hm
        rw [h2]
        simp [List.getElem?_eq_getElem (show i < q.length by omega)]

/-- C22, with the `smallSize` argument: only the first `smallSize` elements are sorted,
the others stay where they are. -/
theorem sort_small_correct (x x' : List α) (iperm iperm' : List Nat) (small : Nat)
    (hs : small ≠ 0) (hx : x ≠ []) (h : SortRun x iperm small x' iperm') :
    (x'.take small).Pairwise (· ≤ ·) ∧ (x'.take small).Perm (x.take small) ∧
      x'.drop small = x.drop small ∧ iperm'.Perm (List.range small) ∧
      ∀ i, i < small → ∃ k, iperm'[i]? = some k ∧ k < small ∧ x'[i]? = x[k]? := by
  unfold SortRun at h
  simp only [hx, if_false, ne_eq, hs, not_false_eq_true, if_true, pairsOf] at h
  obtain ⟨hil, hsl, q, ⟨hp, hso⟩, rfl, rfl⟩ := h
  have hql : q.length = small := by
    have := hp.length_eq
    simp at this; omega
  have ht : (q.map Prod.fst ++ x.drop small).take small = q.map Prod.fst := by
    rw [List.take_append_of_le_length (by simp [hql]), List.take_of_length_le (by simp [hql])]
  have hd : (q.map Prod.fst ++ x.drop small).drop small = x.drop small := by
    rw [List.drop_append_of_le_length (by simp [hql]), List.drop_of_length_le (by simp [hql]),
      List.nil_append]
  refine ⟨?_, ?_, hd, ?_, ?_⟩
  · rw [ht, List.pairwise_map]
    exact hso.imp (fun h => not_lt.1 h)
  · rw [ht]; simpa using hp.map Prod.fst
  · have := hp.map Prod.snd
    rw [List.zipIdx_map_snd, ← List.range_eq_range'] at this
    simpa [hsl] using this
  · intro i hi
    have hm : q[i]'(by omega) ∈ (x.take small).zipIdx := hp.mem_iff.1 (List.getElem_mem _)
    have hlt := List.mem_zipIdx hm
    refine ⟨(q[i]'(by omega)).2, ?_, ?_, ?_⟩
    · simp [List.getElem?_eq_getElem (show i < q.length by omega)]
    · have := hlt.2.1; simp at this; omega
    · have h2 := List.mem_zipIdx_iff_getElem?.1 hm
      have hk : (q[i]'(by omega)).2 < small := by have := hlt.2.1; simp at this; omega
      rw [List.getElem?_take_of_lt hk] at h2
      rw [h2, List.getElem?_append_left (by simp [hql, hi])]
      simp [List.getElem?_eq_getElem (show i < q.length by omega)]

/-- The contract of `std::sort` can always be met, so `SortRun` always has a result when
the sizes match. -/
theorem sort_exists (x : List α) (iperm : List Nat) (hlen : iperm.length = x.length) :
    ∃ x' iperm', SortRun x iperm 0 x' iperm' := by
  unfold SortRun
  by_cases hx : x = []
  · simp [hx]
  · simp only [hx, if_false]
    exact ⟨_, _, by simpa using hlen, by simp, _, sortPairs_stdSort _, rfl, rfl⟩

example : SortRun [3, 1, 2, 1] [0, 0, 0, 0] 0 [1, 1, 2, 3] [3, 1, 2, 0] := by
  refine ⟨rfl, by simp, [(1, 3), (1, 1), (2, 2), (3, 0)], ⟨?_, ?_⟩, rfl, rfl⟩ <;> decide

theorem sorts_3121 : SortRun [3, 1, 2, 1] [0, 0, 0, 0] 0 [1, 1, 2, 3] [3, 1, 2, 0] := by
  refine ⟨rfl, by simp, [(1, 3), (1, 1), (2, 2), (3, 0)], ⟨?_, ?_⟩, rfl, rfl⟩ <;> decide

example := sort_correct [3, 1, 2, 1] [1, 1, 2, 3] [0, 0, 0, 0] [3, 1, 2, 0] rfl sorts_3121
example := sort_exists [3, 1, 2, 1] [0, 0, 0, 0] rfl
example : SortRun [3, 1, 2, 1] [0, 0] 2 [1, 3, 2, 1] [1, 0] := by
  refine ⟨rfl, by simp, [(1, 1), (3, 0)], ⟨?_, ?_⟩, rfl, rfl⟩ <;> decide

end Verif.SortM
