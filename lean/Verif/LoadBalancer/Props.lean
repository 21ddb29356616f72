import Verif.LoadBalancer.Lemmas

/-! # C03, C04: load balancers hand out every task exactly once -/

namespace Verif.LoadBalancer

/-- C03: with at least one thread, every task number below `ntasks` is the task of exactly
one (thread, slot) pair, the thread being one of the `min nthreads ntasks` working ones. -/
theorem default_partition (ntasks nthreads : Nat) (h : 0 < nthreads) :
    ∃ lb, default ntasks nthreads = some lb ∧
      ∀ t, t < ntasks → ∃ j p, (j < min nthreads ntasks ∧ p < lb.blockSize j ∧
          lb.taskNumber j p = t) ∧
        ∀ j' p', p' < lb.blockSize j' → lb.taskNumber j' p' = t → j' = j ∧ p' = p := by
  obtain ⟨bs, h1, h2, h3, h4⟩ := defaultBlockSize_eq ntasks nthreads h
  refine ⟨_, by simp [default, h1]; rfl, ?_⟩
  intro t ht
  simp only
  have hbs : 0 < bs := by
    rcases Nat.eq_zero_or_pos bs with h0 | h0
    · subst h0; simp at h2; omega
    · exact h0
  refine ⟨t / bs, t % bs, ⟨?_, Nat.mod_lt _ hbs, ?_⟩, ?_⟩
  · rw [Nat.div_lt_iff_lt_mul hbs, Nat.mul_comm]; omega
  · rw [Nat.mul_comm]; exact Nat.mod_add_div t bs
  · intro j' p' hp' he
    rw [← he]
    refine ⟨?_, ?_⟩
    · rw [Nat.add_mul_div_right _ _ hbs, Nat.div_eq_of_lt hp', Nat.zero_add]
    · rw [Nat.add_mul_mod_self_right, Nat.mod_eq_of_lt hp']

/-- C03: the block size is the number of tasks divided by the number of working threads,
rounded up; so no thread gets more than that many tasks. -/
theorem default_blockSize (ntasks nthreads : Nat) (h : 0 < nthreads) (hn : 0 < ntasks) :
    ∃ lb, default ntasks nthreads = some lb ∧
      ∀ j, lb.blockSize j = (ntasks + min nthreads ntasks - 1) / min nthreads ntasks := by
  obtain ⟨bs, h1, h2, h3, h4⟩ := defaultBlockSize_eq ntasks nthreads h
  refine ⟨_, by simp [default, h1]; rfl, ?_⟩
  intro j
  rcases h3 with h3 | h3
  · omega
  · exact h3

/-- C03: zero threads is a division by zero, and the only failure. -/
theorem default_zero_threads (ntasks nthreads : Nat) :
    default ntasks nthreads = none ↔ nthreads = 0 := by
  unfold default defaultBlockSize
  by_cases h : nthreads = 0 <;> simp [h]

example : ∃ lb, default 10 4 = some lb ∧ lb.blockSize 0 = 3 ∧ lb.taskNumber 3 0 = 9 :=
  ⟨_, rfl, rfl, rfl⟩

/-- C04: with at least one thread, whatever order the sort gives to equal weights, the
constructor succeeds, there is one task list per thread, and together the lists contain
every task exactly once. -/
theorem weights_partition (weights : List Nat) (nthreads : Nat) (hn : 0 < nthreads)
    (r : Option (List (List Nat) × List Nat)) (h : WeightsRun weights nthreads r) :
    ∃ lists loads, r = some (lists, loads) ∧ lists.length = nthreads ∧
      lists.flatten.Perm (List.range weights.length) := by
  obtain ⟨w2, iperm, hs, rfl⟩ := h
  obtain ⟨s, e, hi⟩ := weightsAssign_main weights iperm nthreads weights.sum hn
    (fun w hw => le_sum_of_mem hw) (sortRun_iperm _ _ _ hs)
  exact ⟨s.1, s.2, e, hi.len1, hi.perm⟩

/-- C04 (greedy bound): with `m = min nthreads ntasks` working threads and heaviest task
`wmax`, every thread's load satisfies `m * load ≤ total + (m-1) * wmax`, i.e. it is at
most the average load plus `(1 - 1/m)` of one task. -/
theorem weights_load_bound (weights : List Nat) (nthreads wmax : Nat) (hn : 0 < nthreads)
    (hmax : ∀ w ∈ weights, w ≤ wmax)
    (r : Option (List (List Nat) × List Nat)) (h : WeightsRun weights nthreads r) :
    ∃ lists loads, r = some (lists, loads) ∧
      ∀ tasks ∈ lists, min nthreads weights.length * loadOf weights tasks ≤
        weights.sum + (min nthreads weights.length - 1) * wmax := by
  obtain ⟨w2, iperm, hs, rfl⟩ := h
  obtain ⟨s, e, hi⟩ := weightsAssign_main weights iperm nthreads wmax hn hmax
    (sortRun_iperm _ _ _ hs)
  refine ⟨s.1, s.2, e, ?_⟩
  intro tasks ht
  by_cases hw0 : weights.length = 0
  · simp [hw0]
  have hm : (if weights.length < nthreads ∧ weights.length > 0 then weights.length
      else nthreads) = min nthreads weights.length := by split <;> omega
  rw [hm] at hi
  obtain ⟨k, hk, rfl⟩ := List.mem_iff_getElem.1 ht
  have hgd : s.1.getD k [] = s.1[k] := by simp [List.getD, List.getElem?_eq_getElem hk]
  have htot : s.2.sum = weights.sum := by
    rw [hi.tot, loadOf, getD_eq_getElem_range]
  by_cases hkm : k < min nthreads weights.length
  · have := hi.load k hkm
    rw [hgd] at this
    have := hi.bound _ (List.mem_of_getElem? this)
    rwa [htot] at this
  · have := hi.rest k (by omega)
    rw [hgd] at this
    simp [this, loadOf]

/-- C04 (balance, needs the heaviest task first): a thread is never ahead of another of the
`min nthreads ntasks` working threads by more than the weight of any one of its own tasks, in
particular of its lightest one. -/
theorem weights_balanced (weights : List Nat) (nthreads : Nat) (hn : 0 < nthreads)
    (r : Option (List (List Nat) × List Nat)) (h : WeightsRun weights nthreads r) :
    ∃ lists loads, r = some (lists, loads) ∧
      ∀ a b, a < min nthreads weights.length → b < min nthreads weights.length →
        ∃ la lb, lists[a]? = some la ∧ lists[b]? = some lb ∧
          ∀ t ∈ la, ∃ w, weights[t]? = some w ∧ loadOf weights la ≤ loadOf weights lb + w := by
  obtain ⟨w2, iperm, hs, rfl⟩ := h
  obtain ⟨s, e, hi⟩ := weightsAssign_main weights iperm nthreads weights.sum hn
    (fun w hw => le_sum_of_mem hw) (sortRun_iperm _ _ _ hs)
  have hb := weightsAssign_bal weights iperm nthreads hn (sortRun_iperm _ _ _ hs)
    (sortRun_sorted _ _ _ hs) s e
  refine ⟨s.1, s.2, e, ?_⟩
  intro a b ha hb'
  have hlen := hi.len1
  have hm : min nthreads weights.length ≤ (if weights.length < nthreads ∧ weights.length > 0
      then weights.length else nthreads) := by split <;> omega
  refine ⟨s.1[a]'(by omega), s.1[b]'(by omega), List.getElem?_eq_getElem _, List.getElem?_eq_getElem _, ?_⟩
  intro t ht
  have htl : t < weights.length := by
    have := hi.perm.mem_iff.1 (List.mem_flatten.2 ⟨_, List.getElem_mem _, ht⟩)
    simpa using this
  have ga : s.1.getD a [] = s.1[a]'(by omega) := by simp [List.getD, List.getElem?_eq_getElem (show a < s.1.length by omega)]
  have gb : s.1.getD b [] = s.1[b]'(by omega) := by simp [List.getD, List.getElem?_eq_getElem (show b < s.1.length by omega)]
  have := hb a b (by omega) (by omega) t (by rw [ga]; exact ht)
  rw [ga, gb] at this
  exact ⟨weights[t], List.getElem?_eq_getElem htl, by simpa [List.getD, List.getElem?_eq_getElem htl] using this⟩

/-- C04: zero threads with some task is an out-of-range access. -/
theorem weights_zero_threads (weights : List Nat) (hw : weights ≠ [])
    (r : Option (List (List Nat) × List Nat)) (h : WeightsRun weights 0 r) : r = none := by
  obtain ⟨w2, iperm, hs, rfl⟩ := h
  have hp := sortRun_iperm _ _ _ hs
  have hl : iperm.length = weights.length := by simpa using hp.length_eq
  have hpos : 0 < weights.length := List.length_pos_iff.2 hw
  unfold weightsAssign
  simp only [Nat.not_lt_zero, false_and, if_false, List.replicate_zero]
  match hr : iperm.reverse with
  | [] => simp at hr; simp [hr] at hl; omega
  | t :: ts => simp [assignLoop, assignStep, findThreadWithLightestWork]

example : weightsAssign [5, 1, 4, 4] [1, 2, 3, 0] 2 = some ([[0, 1], [3, 2]], [6, 8]) := by
  decide

example : ∃ r, WeightsRun [5, 1, 4, 4] 2 r := by
  obtain ⟨a, b, h⟩ := SortM.sort_exists [5, 1, 4, 4] [0, 0, 0, 0] rfl
  exact ⟨_, a, b, h, rfl⟩

end Verif.LoadBalancer
