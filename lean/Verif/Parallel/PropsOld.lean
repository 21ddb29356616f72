import Verif.Parallel.Lemmas
import Verif.Parallel.ModelOld

/-!
# Property C91: OpenMP and the deprecated loops

Every loop of the other back ends does each task once under every schedule and every distribution of the iterations,
and equals the serial loop if tasks are independent.
-/

namespace Verif.Parallel

variable {Act Mem : Type}

theorem openMP_all (start stop nthreads : Nat) (body : Nat → Nat → List Act) (job : Job Act)
    (h : OpenMP start stop nthreads body job) : job.body = body ∧ job.nth ≤ nthreads ∧ 0 < job.nth ∧
    ((List.range job.nth).flatMap (threadTasks job)).Perm (List.range' start (stop - start)) := by
  obtain ⟨lists, h0, h1, h2, rfl⟩ := h
  refine ⟨rfl, h1, h0, ?_⟩
  have hlt : ∀ t ∈ lists.flatten, t < stop := by
    intro t ht
    have := List.mem_range'_1.1 (h2.mem_iff.1 ht)
    omega
  simp only
  rw [List.flatMap_def, List.map_congr_left (fun j _ => ofTable_threadTasks lists.length stop lists body hlt j),
    ← List.flatMap_def, flatMap_getD lists lists.length le_rfl]
  · exact h2
  · intro k hk
    simp [List.getD, List.getElem?_eq_none hk]

/-- OpenMP: whatever the distribution and the schedule, each iteration is done once, with a thread number below the
number of threads asked for, and the loop ends. -/
theorem openMP_each_task_once (start stop nthreads : Nat) (body : Nat → Nat → List Act) (job : Job Act)
    (h : OpenMP start stop nthreads body job) :
    EachTaskOnce job start stop ∧ AlwaysReturns job ∧ job.nth ≤ nthreads := by
  obtain ⟨-, h1, -, h2⟩ := openMP_all start stop nthreads body job h
  exact ⟨eachTaskOnce_of job start stop h2, alwaysReturns job, h1⟩

/-- OpenMP: independent iterations give the result of the serial loop. -/
theorem openMP_equals_serial (start stop nthreads : Nat) (body : Nat → List Act) (run : Act → Mem → Mem)
    (hind : Independent run body start stop) (job : Job Act)
    (h : OpenMP start stop nthreads (fun t _ => body t) job) (m0 : Mem) (n : Nat) (s : State Act Mem)
    (hs : Steps job run n (init m0) s) (hr : Returned job s) : s.mem = serialMem run body start stop m0 := by
  obtain ⟨hb, -, -, h2⟩ := openMP_all start stop nthreads _ job h
  exact equalsSerial_of job start stop h2 run m0 n s hs hr body hb hind

/-- There is always such a distribution. -/
theorem openMP_exists (start stop nthreads : Nat) (hn : 0 < nthreads) (body : Nat → Nat → List Act) :
    ∃ job, OpenMP start stop nthreads body job :=
  ⟨_, [List.range' start (stop - start)], by simp, (by simp; omega), by simp, rfl⟩

/-- Two threads that take the iterations 3, 5 and 4, 6. -/
example : OpenMP 3 7 2 (fun t j => [(t, j)])
    { nth := 2, lb := LoadBalancer.ofTable [[3, 5], [4, 6]], start := 0, stop := 7, body := fun t j => [(t, j)] } :=
  ⟨[[3, 5], [4, 6]], by decide, by decide, by decide, rfl⟩

/-- `numberOfThreads` is not a bound of the thread numbers: asked before the loop it says one, and there are
distributions and schedules in which thread 1 gets an iteration.  Storage of that size is overrun. -/
theorem openMP_numberOfThreads_fails :
    ∃ job : Job (Nat × Nat), OpenMP 0 2 2 (fun t j => [(t, j)]) job ∧
      ∃ (n : Nat) (s : State (Nat × Nat) (List (Nat × Nat))), Steps job (fun a m => m ++ [a]) n (init []) s ∧
        ∃ c ∈ s.calls, ¬ c.2 < ompNumberOfThreads :=
  ⟨_, ⟨[[0], [1]], by decide, by decide, by decide, rfl⟩, 3, _,
    .tail _ _ _ _ (.tail _ _ _ _ (.tail _ _ _ _ (.refl _) (.create _ (by decide))) (.create _ (by decide)))
      (.call _ 1 (by decide) (by rfl) (by rfl) (by decide) (by decide)), (1, 1), List.mem_singleton.2 rfl, by decide⟩

/-- The block size of the deprecated class is the smallest with which the threads cover all tasks. -/
theorem oldBlockSize_spec (total nthreads : Nat) (hn : 0 < nthreads) :
    total ≤ nthreads * oldBlockSize total nthreads ∧
    ∀ b, total ≤ nthreads * b → oldBlockSize total nthreads ≤ b := by
  have h1 := Nat.div_add_mod total nthreads
  have h2 := Nat.mod_lt total hn
  unfold oldBlockSize
  constructor
  · split_ifs with h
    · rw [Nat.mul_add, Nat.mul_one]; omega
    · omega
  · intro b hb
    split_ifs with h
    · have : nthreads * (total / nthreads) < nthreads * b := by omega
      have := Nat.lt_of_mul_lt_mul_left this
      omega
    · have : nthreads * (total / nthreads) ≤ nthreads * b := by omega
      exact Nat.le_of_mul_le_mul_left this hn

theorem oldPthreads_all (total nthreads : Nat) (hn : 0 < nthreads) (body : Nat → Nat → List Act) :
    (List.range (oldPthreads total nthreads body).nth).flatMap (threadTasks (oldPthreads total nthreads body)) =
      List.range' 0 total := by
  rw [default_all _ (oldBlockSize total nthreads) (Nat.zero_le _) (fun _ => rfl) (fun _ _ => rfl)]
  have h := (oldBlockSize_spec total nthreads hn).1
  simp only [oldPthreads, Nat.sub_zero]
  rw [Nat.min_eq_right h]

/-- The deprecated threads: each task once, for every schedule. -/
theorem oldPthreads_each_task_once (total nthreads : Nat) (hn : 0 < nthreads) (body : Nat → Nat → List Act) :
    EachTaskOnce (oldPthreads total nthreads body) 0 total ∧ AlwaysReturns (oldPthreads total nthreads body) :=
  ⟨eachTaskOnce_of _ 0 total (by rw [oldPthreads_all total nthreads hn]; simp), alwaysReturns _⟩

/-- The deprecated threads: independent tasks give the result of the serial loop. -/
theorem oldPthreads_equals_serial (total nthreads : Nat) (hn : 0 < nthreads) (body : Nat → List Act)
    (run : Act → Mem → Mem) (hind : Independent run body 0 total) (m0 : Mem) (n : Nat) (s : State Act Mem)
    (hs : Steps (oldPthreads total nthreads fun t _ => body t) run n (init m0) s)
    (hr : Returned (oldPthreads total nthreads fun t _ => body t) s) : s.mem = serialMem run body 0 total m0 :=
  equalsSerial_of _ 0 total (by rw [oldPthreads_all total nthreads hn]; simp) run m0 n s hs hr body rfl hind

/-- Without threads the serial class does the tasks in order, in thread 0. -/
theorem oldNoPthreads_spec (total : Nat) : oldNoPthreads total = (List.range total).map fun t => (t, 0) := by
  unfold oldNoPthreads
  simp

/-- With zero threads the deprecated class does nothing at all, and says nothing. -/
theorem oldPthreads_zero_fails :
    ∃ s : State Unit Unit, Steps (oldPthreads 5 0 fun _ _ => [()]) (fun _ m => m) 0 (init ()) s ∧
      Returned (oldPthreads 5 0 fun _ _ => [()]) s ∧ s.calls = [] :=
  ⟨_, .refl _, ⟨rfl, rfl⟩, rfl⟩

/-- Seven tasks for three threads are blocks of three. -/
example : oldBlockSize 7 3 = 3 ∧ threadTasks (oldPthreads 7 3 fun _ _ => [()]) 2 = [6] := by decide

end Verif.Parallel
