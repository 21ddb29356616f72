import Verif.Parallel.ModelBalanced
import Verif.Parallel.Props

/-!
# C05, C06: the parallel loop with a balancer of the caller
-/

namespace Verif.Parallel

variable {Act Mem : Type}

theorem balanced_tasks (start nthreads : Nat) (weights : List Nat) (hn : 0 < nthreads) (lists : List (List Nat)) (loads : List Nat)
    (h : LoadBalancer.WeightsRun weights nthreads (some (lists, loads))) (body : Nat → Nat → List Act) :
    ((List.range nthreads).flatMap (threadTasks (balanced (LoadBalancer.ofTable lists) start (start + weights.length) nthreads body))).Perm
      (List.range' start (start + weights.length - start)) := by
  obtain ⟨l, q, e, h1, h2⟩ := LoadBalancer.weights_partition weights nthreads hn _ h
  cases e
  have hlt : ∀ t ∈ lists.flatten, t < weights.length := fun t ht => by simpa using h2.mem_iff.1 ht
  have ht : ∀ j, threadTasks (balanced (LoadBalancer.ofTable lists) start (start + weights.length) nthreads body) j =
      (lists.getD j []).map (· + start) := by
    intro j
    have h0 := ofTable_threadTasks nthreads weights.length lists body hlt j
    simp only [threadTasks, Nat.add_zero] at h0
    conv_rhs => rw [← h0]
    show ((List.range ((LoadBalancer.ofTable lists).blockSize j)).map fun p => (LoadBalancer.ofTable lists).taskNumber j p + start).takeWhile
      (fun t => decide (t < start + weights.length)) = _
    generalize List.range ((LoadBalancer.ofTable lists).blockSize j) = r
    induction r with
    | nil => rfl
    | cons a r ih =>
      simp only [List.map_cons, List.takeWhile_cons]
      by_cases hlt : (LoadBalancer.ofTable lists).taskNumber j a < weights.length
      · rw [if_pos (decide_eq_true (by omega)), if_pos (decide_eq_true (by omega)), List.map_cons, ih]
      · rw [if_neg (by rw [decide_eq_true_eq]; omega), if_neg (by rw [decide_eq_true_eq]; omega), List.map_nil]
  rw [List.flatMap_def, List.map_congr_left (fun j _ => ht j), ← List.flatMap_def]
  have e : (List.range nthreads).flatMap (fun j => (lists.getD j []).map (· + start)) = lists.flatten.map (· + start) := by
    rw [← flatMap_getD lists nthreads (by omega) (fun k hk => by simp [List.getD, List.getElem?_eq_none (by omega : lists.length ≤ k)]),
      List.map_flatMap]
  rw [e, Nat.add_sub_cancel_left]
  have e' : List.range' start weights.length = (List.range weights.length).map (· + start) := by
    rw [List.range'_eq_map_range]
    exact List.map_congr_left fun a _ => Nat.add_comm _ _
  rw [e']
  exact h2.map _

/-- **C05** `Parallelizer2` with a balancer that was made from one weight per task: under every schedule every task is run once, and the
loop returns. -/
theorem balanced_each_task_once (start nthreads : Nat) (weights : List Nat) (hn : 0 < nthreads) (lists : List (List Nat)) (loads : List Nat)
    (h : LoadBalancer.WeightsRun weights nthreads (some (lists, loads))) (body : Nat → Nat → List Act) :
    EachTaskOnce (balanced (LoadBalancer.ofTable lists) start (start + weights.length) nthreads body) start (start + weights.length) ∧
      AlwaysReturns (balanced (LoadBalancer.ofTable lists) start (start + weights.length) nthreads body) :=
  ⟨eachTaskOnce_of _ _ _ (balanced_tasks start nthreads weights hn lists loads h body), alwaysReturns _⟩

/-- **C06** If the tasks are independent, the memory at the end is that of the serial loop. -/
theorem balanced_equals_serial (start nthreads : Nat) (weights : List Nat) (hn : 0 < nthreads) (lists : List (List Nat)) (loads : List Nat)
    (h : LoadBalancer.WeightsRun weights nthreads (some (lists, loads))) (body : Nat → List Act) (run : Act → Mem → Mem)
    (hind : Independent run body start (start + weights.length)) (m0 : Mem) (n : Nat) (s : State Act Mem)
    (hs : Steps (balanced (LoadBalancer.ofTable lists) start (start + weights.length) nthreads fun t _ => body t) run n (init m0) s)
    (hr : Returned (balanced (LoadBalancer.ofTable lists) start (start + weights.length) nthreads fun t _ => body t) s) :
    s.mem = serialMem run body start (start + weights.length) m0 :=
  equalsSerial_of _ start (start + weights.length) (balanced_tasks start nthreads weights hn lists loads h fun t _ => body t) run m0 n s hs hr body
    rfl hind

/-- Two tasks for one thread: the heavy one first. -/
theorem heavy_first : LoadBalancer.WeightsRun [1, 5] 1 (some ([[1, 0]], [6])) := by
  refine ⟨[1, 5], [0, 1], ⟨rfl, Nat.le_refl _, [(1, 0), (5, 1)], ⟨?_, ?_⟩, rfl, rfl⟩, by decide⟩
  · simp [SortM.pairsOf]
  · simp

example : EachTaskOnce (balanced (LoadBalancer.ofTable [[1, 0]]) 7 9 1 fun t j => [(t, j)]) 7 9 :=
  (balanced_each_task_once 7 1 [1, 5] (by decide) _ _ heavy_first _).1

/-- **C05** (finding) With more weights than tasks a thread stops at the first task that is out of range, and the tasks it has after that
one are never run: two weights for one task, and no task is run. -/
theorem more_weights_fails :
    (∃ job : Job Unit, PthreadsNgWeights 1 1 [1, 5] (fun _ _ => []) job ∧
      ∀ (Mem : Type) (run : Unit → Mem → Mem) (m0 : Mem) (n : Nat) (s : State Unit Mem),
        Steps job run n (init m0) s → Returned job s → s.calls = []) ∧
    ∀ (Mem : Type) (run : Unit → Mem → Mem) (m0 : Mem) (n : Nat) (s : State Unit Mem),
      Steps (balanced (LoadBalancer.ofTable [[1, 0]]) 3 4 1 fun _ _ => []) run n (init m0) s →
        Returned (balanced (LoadBalancer.ofTable [[1, 0]]) 3 4 1 fun _ _ => ([] : List Unit)) s → s.calls = [] := by
  refine ⟨⟨_, ⟨[[1, 0]], [6], heavy_first, rfl⟩, ?_⟩, ?_⟩
  · intro Mem run m0 n s hs hr
    obtain ⟨hist, hinv⟩ := inv_steps _ run m0 n s hs
    have := returned_calls _ run m0 s hist hinv hr
    exact List.perm_nil.1 (this.trans (by decide))
  · intro Mem run m0 n s hs hr
    obtain ⟨hist, hinv⟩ := inv_steps _ run m0 n s hs
    have := returned_calls _ run m0 s hist hinv hr
    exact List.perm_nil.1 (this.trans (by decide))

end Verif.Parallel
