import Verif.Parallel.Lemmas

/-! # C05, C06: parallel loops run every task once and, if tasks are independent, equal
the serial loop, under every schedule -/

namespace Verif.Parallel

variable {Act Mem : Type}

/-! ## C05 -/

/-- C05, `Parallelizer` (pthreads back end) without weights. -/
theorem pthreadsNg_each_task_once (ntasks nthreads : Nat) (hn : 0 < nthreads)
    (body : Nat → Nat → List Act) :
    ∃ job, pthreadsNg ntasks nthreads body = some job ∧ EachTaskOnce job 0 ntasks ∧
      AlwaysReturns job ∧ job.nth ≤ nthreads := by
  obtain ⟨job, h1, -, -, -, h5⟩ := pthreadsNg_all ntasks nthreads hn body
  refine ⟨job, h1, eachTaskOnce_of job 0 ntasks (by rw [h5]; simp), alwaysReturns job, ?_⟩
  unfold pthreadsNg at h1
  obtain ⟨lb, -, rfl⟩ := Option.map_eq_some_iff.1 h1
  exact Nat.min_le_left _ _

/-- C05, `Parallelizer` with one weight per task (for every outcome of the unstable sort
inside `LoadBalancerWeights`). -/
theorem pthreadsNg_weights_each_task_once (nthreads : Nat) (weights : List Nat) (hn : 0 < nthreads)
    (body : Nat → Nat → List Act) (job : Job Act)
    (h : PthreadsNgWeights weights.length nthreads weights body job) :
    EachTaskOnce job 0 weights.length ∧ AlwaysReturns job :=
  ⟨eachTaskOnce_of job 0 weights.length (by
    simpa using (weights_all nthreads weights hn body job h).2), alwaysReturns job⟩

/-- C05, `Parallelizer2::parallelFor(start, end, lambda)`. -/
theorem parallelizer2_each_task_once (start stop nthreads : Nat) (hn : 0 < nthreads)
    (hs : start ≤ stop) (body : Nat → Nat → List Act) :
    ∃ job, parallelizer2 start stop nthreads body = some job ∧ EachTaskOnce job start stop ∧
      AlwaysReturns job := by
  obtain ⟨job, h1, -, -, -, h5⟩ := parallelizer2_all start stop nthreads hn hs body
  exact ⟨job, h1, eachTaskOnce_of job start stop (by rw [h5]), alwaysReturns job⟩

/-- C05, serial back ends: the calls are exactly the tasks in order, on thread 0. -/
theorem serial_each_task_once (start stop t : Nat) :
    ((serialCalls start stop).map Prod.fst).count t = (if start ≤ t ∧ t < stop then 1 else 0) ∧
    ∀ c ∈ serialCalls start stop, c.2 = 0 := by
  constructor
  · have e : (serialCalls start stop).map Prod.fst = List.range' start (stop - start) := by
      simp [serialCalls, Function.comp_def]
    rw [e]
    split
    · exact count_one_of_mem List.nodup_range' (List.mem_range'_1.2 (by omega))
    · exact List.count_eq_zero.2 (fun h => by have := List.mem_range'_1.1 h; omega)
  · intro c hc
    obtain ⟨i, -, rfl⟩ := List.mem_map.1 hc
    rfl

/-- C05, `InterNode::parallelFor`: over all ranks together every task is run exactly once. -/
theorem interNode_each_task_once (start stop size : Nat) (hn : 0 < size) (hs : start ≤ stop) :
    ∃ tasksOf : Nat → List Nat, (∀ rank, interNode start stop size rank = some (tasksOf rank)) ∧
      (List.range size).flatMap tasksOf = List.range' start (stop - start) := by
  obtain ⟨job, h1, -, h3, h4, h5⟩ :=
    parallelizer2_all (Act := Unit) start stop size hn hs (fun _ _ => [])
  refine ⟨threadTasks job, ?_, ?_⟩
  · intro rank
    have hns : ¬ stop < start := by omega
    simp only [parallelizer2, hns, if_false] at h1
    obtain ⟨lb, hlb, rfl⟩ := Option.map_eq_some_iff.1 h1
    simp only [interNode, hns, if_false, hlb, Option.map_some, rankLoop_eq, threadTasks,
      ← List.range_eq_range']
  · rw [← h5]
    simp only [parallelizer2] at h1
    split at h1
    · simp at h1
    · obtain ⟨lb, -, rfl⟩ := Option.map_eq_some_iff.1 h1
      rfl

/-- With zero threads the constructor of the load balancer divides by zero. -/
theorem pthreadsNg_zero_threads (ntasks : Nat) (body : Nat → Nat → List Act) :
    pthreadsNg ntasks 0 body = none := rfl

/-- A run of two tasks on two threads in which thread 1 goes first: the hypotheses of the
theorems above are met by schedules that differ from the serial order. -/
example : ∃ job, pthreadsNg 2 2 (fun t j => [(t, j)]) = some job ∧
    ∃ s : State (Nat × Nat) (List (Nat × Nat)),
      Steps job (fun a m => m ++ [a]) 10 (init []) s ∧ Returned job s ∧
      s.calls = [(1, 1), (0, 0)] ∧ s.mem = [(1, 1), (0, 0)] := by
  exact ⟨_, rfl, _, .tail _ _ _ _ (.tail _ _ _ _ (.tail _ _ _ _ (.tail _ _ _ _ (.tail _ _ _ _
      (.tail _ _ _ _ (.tail _ _ _ _ (.tail _ _ _ _ (.tail _ _ _ _ (.tail _ _ _ _ (.refl _)
      (.create _ (by decide))) (.create _ (by decide)))
      (.call _ 1 (by decide) (by rfl) (by rfl) (by decide) (by decide)))
      (.act _ 1 (1, 1) [] (by decide) (by rfl)))
      (.call _ 0 (by decide) (by rfl) (by rfl) (by decide) (by decide)))
      (.act _ 0 (0, 0) [] (by decide) (by rfl)))
      (.leave _ 0 (by decide) (by rfl) (by rfl) (by decide)))
      (.leave _ 1 (by decide) (by rfl) (by rfl) (by decide)))
      (.join _ (by rfl) (by decide) (by rfl)))
      (.join _ (by rfl) (by decide) (by rfl)), by exact ⟨rfl, rfl⟩, by rfl, by rfl⟩

/-- The weighted version needs one weight per task: with one weight for two tasks, every
schedule that returns has dropped task 1. -/
theorem weights_wrong_size_fails :
    ∃ job : Job Unit, PthreadsNgWeights 2 1 [5] (fun _ _ => []) job ∧
      ∀ (Mem : Type) (run : Unit → Mem → Mem) (m0 : Mem) (n : Nat) (s : State Unit Mem),
        Steps job run n (init m0) s → Returned job s → s.calls = [(0, 0)] := by
  refine ⟨_, ⟨[[0]], [5], ⟨[5], [0], ?_, by decide⟩, rfl⟩, ?_⟩
  · refine ⟨rfl, Nat.le_refl _, [(5, 0)], ⟨?_, ?_⟩, rfl, rfl⟩
    · simp [SortM.pairsOf]
    · simp
  · intro Mem run m0 n s hs hr
    obtain ⟨hist, hinv⟩ := inv_steps _ run m0 n s hs
    have := returned_calls _ run m0 s hist hinv hr
    exact List.perm_singleton.1 (this.trans (by decide))

/-! ## C06 -/

/-- C06, pthreads back end: if the tasks are independent, the memory when the call returns
is the memory after the serial loop, whatever the schedule. -/
theorem pthreadsNg_equals_serial (ntasks nthreads : Nat) (hn : 0 < nthreads)
    (body : Nat → List Act) (run : Act → Mem → Mem) (hind : Independent run body 0 ntasks) :
    ∃ job, pthreadsNg ntasks nthreads (fun t _ => body t) = some job ∧
      ∀ m0 n s, Steps job run n (init m0) s → Returned job s →
        s.mem = serialMem run body 0 ntasks m0 := by
  obtain ⟨job, h1, h2, -, -, h5⟩ := pthreadsNg_all ntasks nthreads hn (fun t _ => body t)
  exact ⟨job, h1, fun m0 n s hs hr => equalsSerial_of job 0 ntasks (by rw [h5]; simp) run m0 n s
    hs hr body h2 hind⟩

/-- C06, pthreads back end with weights. -/
theorem pthreadsNg_weights_equals_serial (nthreads : Nat) (weights : List Nat) (hn : 0 < nthreads)
    (body : Nat → List Act) (run : Act → Mem → Mem)
    (hind : Independent run body 0 weights.length) (job : Job Act)
    (h : PthreadsNgWeights weights.length nthreads weights (fun t _ => body t) job)
    (m0 : Mem) (n : Nat) (s : State Act Mem) (hs : Steps job run n (init m0) s)
    (hr : Returned job s) : s.mem = serialMem run body 0 weights.length m0 := by
  have hw := weights_all nthreads weights hn _ job h
  exact equalsSerial_of job 0 weights.length (by simpa using hw.2) run m0 n s hs hr body hw.1 hind

/-- C06, `Parallelizer2`. -/
theorem parallelizer2_equals_serial (start stop nthreads : Nat) (hn : 0 < nthreads)
    (hs : start ≤ stop) (body : Nat → List Act) (run : Act → Mem → Mem)
    (hind : Independent run body start stop) :
    ∃ job, parallelizer2 start stop nthreads (fun t _ => body t) = some job ∧
      ∀ m0 n s, Steps job run n (init m0) s → Returned job s →
        s.mem = serialMem run body start stop m0 := by
  obtain ⟨job, h1, h2, -, -, h5⟩ := parallelizer2_all start stop nthreads hn hs (fun t _ => body t)
  exact ⟨job, h1, fun m0 n s hs hr => equalsSerial_of job start stop (by rw [h5]) run m0 n s
    hs hr body h2 hind⟩

/-- C06 for per-thread accumulators: if every task adds its values to the accumulator of
the thread it runs on, the sum of the accumulators grows by the sum over all tasks,
whatever the schedule. -/
theorem pthreadsNg_accumulators {M : Type} [AddCommMonoid M] (ntasks nthreads : Nat)
    (hn : 0 < nthreads) (vals : Nat → List M) :
    ∃ job, pthreadsNg ntasks nthreads (fun t j => (vals t).map fun v => (j, v)) = some job ∧
      ∀ (m0 : Nat → M) n s, Steps job addTo n (init m0) s → Returned job s →
        ((List.range job.nth).map s.mem).sum =
          ((List.range job.nth).map m0).sum + ((List.range ntasks).map fun t => (vals t).sum).sum := by
  obtain ⟨job, h1, h2, -, -, h5⟩ := pthreadsNg_all ntasks nthreads hn
    (fun t j => (vals t).map fun v => (j, v))
  refine ⟨job, h1, fun m0 n s hs hr => ?_⟩
  have := sum_of job 0 ntasks (by rw [h5]; simp) m0 n s hs hr vals h2
  rw [Nat.sub_zero, ← List.range_eq_range'] at this
  exact this

/-- C06 for per-thread accumulators, `Parallelizer2`. -/
theorem parallelizer2_accumulators {M : Type} [AddCommMonoid M] (start stop nthreads : Nat)
    (hn : 0 < nthreads) (hs : start ≤ stop) (vals : Nat → List M) :
    ∃ job, parallelizer2 start stop nthreads (fun t j => (vals t).map fun v => (j, v)) = some job ∧
      ∀ (m0 : Nat → M) n s, Steps job addTo n (init m0) s → Returned job s →
        ((List.range job.nth).map s.mem).sum =
          ((List.range job.nth).map m0).sum +
          ((List.range' start (stop - start)).map fun t => (vals t).sum).sum := by
  obtain ⟨job, h1, h2, -, -, h5⟩ := parallelizer2_all start stop nthreads hn hs
    (fun t j => (vals t).map fun v => (j, v))
  exact ⟨job, h1, fun m0 n s hs hr => sum_of job start stop (by rw [h5]) m0 n s hs hr vals h2⟩

/-- Independence holds for tasks that only write their own slot. -/
example (f : Nat → Nat) (lo hi : Nat) :
    Independent (fun (a : Nat × Nat) (m : Nat → Nat) => fun k => if k = a.1 then a.2 else m k)
      (fun t => [(t, f t)]) lo hi := by
  intro t u _ _ _ _ hne a ha b hb m
  simp at ha hb
  subst ha; subst hb
  funext k
  by_cases h1 : k = t <;> by_cases h2 : k = u <;> simp_all

/-- Without independence the result does depend on the schedule (tasks appending to one
list): the schedule of the example above gives the reverse of the serial result. -/
example : serialMem (fun (a : Nat × Nat) m => m ++ [a]) (fun t => [(t, t)]) 0 2 [] =
    [(0, 0), (1, 1)] := rfl

end Verif.Parallel
