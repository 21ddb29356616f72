import Verif.Parallel.Props

/-!
# C06: sums of threads, at the level of single reads and writes

`x[i] += v` is a read of `x[i]` into a register of the thread and a write of it, and other threads may run in between.
-/

namespace Verif.Parallel

variable {Act Mem M : Type}

/-- The elements `x` and a register of each thread. -/
structure Regs (M : Type) where
  x : Nat → M
  reg : Nat → M

/-- The halves of `x[i] += v` in thread `j`. -/
inductive Half (M : Type)
  | read (j i : Nat)
  | write (j i : Nat) (v : M)

/-- What they do. -/
def Half.run [Add M] : Half M → Regs M → Regs M
  | .read j i, s => { s with reg := fun k => if k = j then s.x i else s.reg k }
  | .write j i v, s => { s with x := fun k => if k = i then s.reg j + v else s.x k }

/-- `x[i] += v` for some values, in thread `j`. -/
def addAll (vals : List M) (j i : Nat) : List (Half M) := vals.flatMap fun v => [.read j i, .write j i v]

/-- If actions of different threads do not disturb each other, the threads could have run one after the other. -/
theorem threads_apart (job : Job Act) (run : Act → Mem → Mem) (m0 : Mem) (n : Nat) (s : State Act Mem) (hs : Steps job run n (init m0) s)
    (hr : Returned job s)
    (hcomm : ∀ c ∈ allCalls job, ∀ d ∈ allCalls job, c.2 ≠ d.2 → ∀ a ∈ job.body c.1 c.2, ∀ b ∈ job.body d.1 d.2, ∀ m,
      run a (run b m) = run b (run a m)) :
    s.mem = (allCalls job).foldl (fun m c => (job.body c.1 c.2).foldl (fun m a => run a m) m) m0 := by
  obtain ⟨hist, hi⟩ := inv_steps job run m0 n s hs
  have hall := returned_hist job run m0 s hist hi hr
  have hmem : ∀ x ∈ hist, x.1 ∈ allCalls job ∧ x.2 ∈ job.body x.1.1 x.1.2 := by
    intro x hx
    have : x ∈ hist.filter (fun y => y.1.2 = x.1.2) := List.mem_filter.2 ⟨hx, by simp⟩
    rw [hall] at this
    exact mem_tagged (List.mem_filter.1 this).1
  have h1 : exec run hist m0 = exec run (tagged (allCalls job) (fun tj => job.body tj.1 tj.2)) m0 := by
    have := exec_eq_of_filter_eq run
      ((tagged (allCalls job) (fun tj => job.body tj.1 tj.2)).map fun x => (x.1.2, x.2))
      (hist.map fun x => (x.1.2, x.2)) ?_ ?_ m0
    · rwa [exec_retag (fun x : Nat × Nat => x.2) run hist, exec_retag (fun x : Nat × Nat => x.2) run] at this
    · intro a ha b hb' hne m
      obtain ⟨x, hx, rfl⟩ := List.mem_map.1 ha
      obtain ⟨y, hy, rfl⟩ := List.mem_map.1 hb'
      exact hcomm _ (hmem x hx).1 _ (hmem y hy).1 hne _ (hmem x hx).2 _ (hmem y hy).2 m
    · intro j
      rw [List.filter_map, List.filter_map]
      have := hall j
      simp only [Function.comp_def]
      rw [this]
  rw [hi.mem, h1]
  simp [exec, tagged, List.foldl_flatMap, List.foldl_map]

theorem half_comm [Add M] {i j : Nat} (hij : i ≠ j) (u v : List M) {a b : Half M} (ha : a ∈ addAll u i i) (hb : b ∈ addAll v j j) (m : Regs M) :
    a.run (b.run m) = b.run (a.run m) := by
  obtain ⟨k, _, ha⟩ := List.mem_flatMap.1 ha
  obtain ⟨l, _, hb⟩ := List.mem_flatMap.1 hb
  simp only [List.mem_cons, List.not_mem_nil, or_false] at ha hb
  have hji := hij.symm
  rcases ha with rfl | rfl <;> rcases hb with rfl | rfl <;> simp only [Half.run, Regs.mk.injEq, true_and, and_true, if_neg hij, if_neg hji]
  · funext x
    by_cases h : x = i
    · subst h; simp [hij]
    · simp [h]
  · funext x
    by_cases h : x = i
    · subst h; simp [hij]
    · simp [h]

theorem addAll_serial [AddCommMonoid M] (vals : List M) (j : Nat) (m : Regs M) :
    ((addAll vals j j).foldl (fun m a => Half.run a m) m).x = addTo (j, vals.sum) m.x := by
  unfold addAll
  induction vals generalizing m with
  | nil =>
    funext k
    by_cases h : k = j
    · subst h; simp [addTo]
    · simp [h, addTo]
  | cons v vals ih =>
    rw [List.flatMap_cons, List.foldl_append, ih]
    simp only [List.foldl_cons, List.foldl_nil, Half.run]
    funext k
    by_cases h : k = j
    · subst h; simp [addTo, add_assoc]
    · simp [h, addTo]

/-- The sums of all threads together, for any division of the tasks among them. -/
theorem halves_of [AddCommMonoid M] (job : Job (Half M)) (tasks : List Nat)
    (h : ((List.range job.nth).flatMap (threadTasks job)).Perm tasks) (m0 : Regs M) (n : Nat) (s : State (Half M) (Regs M))
    (hs : Steps job Half.run n (init m0) s) (hr : Returned job s) (vals : Nat → List M)
    (hb : job.body = fun t j => addAll (vals t) j j) :
    ((List.range job.nth).map s.mem.x).sum = ((List.range job.nth).map m0.x).sum + (tasks.map fun t => (vals t).sum).sum := by
  rw [threads_apart job Half.run m0 n s hs hr ?_]
  · have key : ∀ (calls : List (Nat × Nat)) (_ : ∀ c ∈ calls, c.2 < job.nth) (m : Regs M),
        ((List.range job.nth).map (calls.foldl (fun m c => (job.body c.1 c.2).foldl (fun m a => Half.run a m) m) m).x).sum =
          ((List.range job.nth).map m.x).sum + ((calls.map Prod.fst).map fun t => (vals t).sum).sum := by
      intro calls
      induction calls with
      | nil => intro _ m; simp
      | cons c calls ih =>
        intro hc m
        rw [List.foldl_cons, ih (fun d hd => hc d (List.mem_cons_of_mem _ hd)), hb]
        simp only [addAll_serial, List.map_cons, List.sum_cons]
        rw [sum_addTo (c.2, (vals c.1).sum) m.x job.nth (hc c List.mem_cons_self), add_assoc]
    rw [key, allCalls_map_fst, (h.map fun t => (vals t).sum).sum_eq]
    intro c hc
    obtain ⟨j, hj, hc⟩ := List.mem_flatMap.1 hc
    obtain ⟨t, _, rfl⟩ := List.mem_map.1 hc
    exact List.mem_range.1 hj
  · intro c _ d _ hne a ha b hb' m
    rw [hb] at ha hb'
    exact half_comm hne _ _ ha hb' m

/-- **C06** Sums of threads, pthreads back end: if every task adds its values to the element of the thread it runs on, each addition being
a read and a write, the sum of the elements grows by the sum over all tasks, whatever the schedule. -/
theorem pthreadsNg_sums [AddCommMonoid M] (ntasks nthreads : Nat) (hn : 0 < nthreads) (vals : Nat → List M) :
    ∃ job, pthreadsNg ntasks nthreads (fun t j => addAll (vals t) j j) = some job ∧
      ∀ (m0 : Regs M) n s, Steps job Half.run n (init m0) s → Returned job s →
        ((List.range job.nth).map s.mem.x).sum =
          ((List.range job.nth).map m0.x).sum + ((List.range ntasks).map fun t => (vals t).sum).sum := by
  obtain ⟨job, h1, h2, -, -, h5⟩ := pthreadsNg_all ntasks nthreads hn fun t j => addAll (vals t) j j
  refine ⟨job, h1, fun m0 n s hs hr => halves_of job _ ?_ m0 n s hs hr vals h2⟩
  rw [h5, List.range_eq_range' (n := ntasks)]

/-- **C06** The same with weights, whatever the balancer makes of equal ones. -/
theorem pthreadsNg_weights_sums [AddCommMonoid M] (nthreads : Nat) (weights : List Nat) (hn : 0 < nthreads) (vals : Nat → List M)
    (job : Job (Half M)) (h : PthreadsNgWeights weights.length nthreads weights (fun t j => addAll (vals t) j j) job)
    (m0 : Regs M) (n : Nat) (s : State (Half M) (Regs M)) (hs : Steps job Half.run n (init m0) s) (hr : Returned job s) :
    ((List.range job.nth).map s.mem.x).sum =
      ((List.range job.nth).map m0.x).sum + ((List.range weights.length).map fun t => (vals t).sum).sum := by
  obtain ⟨h2, h5⟩ := weights_all nthreads weights hn _ job h
  refine halves_of job _ ?_ m0 n s hs hr vals h2
  rw [List.range_eq_range' (n := weights.length)]
  exact h5

/-- **C06** The same for `Parallelizer2`. -/
theorem parallelizer2_sums [AddCommMonoid M] (start stop nthreads : Nat) (hn : 0 < nthreads) (hs : start ≤ stop) (vals : Nat → List M) :
    ∃ job, parallelizer2 start stop nthreads (fun t j => addAll (vals t) j j) = some job ∧
      ∀ (m0 : Regs M) n s, Steps job Half.run n (init m0) s → Returned job s →
        ((List.range job.nth).map s.mem.x).sum =
          ((List.range job.nth).map m0.x).sum + ((List.range' start (stop - start)).map fun t => (vals t).sum).sum := by
  obtain ⟨job, h1, h2, -, -, h5⟩ := parallelizer2_all start stop nthreads hn hs fun t j => addAll (vals t) j j
  exact ⟨job, h1, fun m0 n s hs hr => halves_of job _ (by rw [h5]) m0 n s hs hr vals h2⟩

/-- **C06** (finding) With one and the same element for all threads additions can be lost: two tasks in two threads that add one each. -/
theorem one_element_fails : ∃ job, pthreadsNg 2 2 (fun _ j => addAll [1] j 0) = some job ∧
    ∃ n s, Steps job Half.run n (init (⟨fun _ => 0, fun _ => 0⟩ : Regs Nat)) s ∧ Returned job s ∧ s.mem.x 0 = 1 := by
  exact ⟨_, rfl, 12, _, .tail _ _ _ _ (.tail _ _ _ _ (.tail _ _ _ _ (.tail _ _ _ _ (.tail _ _ _ _ (.tail _ _ _ _ (.tail _ _ _ _
      (.tail _ _ _ _ (.tail _ _ _ _ (.tail _ _ _ _ (.tail _ _ _ _ (.tail _ _ _ _ (.refl _)
      (.create _ (by decide))) (.create _ (by decide)))
      (.call _ 1 (by decide) (by rfl) (by rfl) (by decide) (by decide)))
      (.act _ 1 (.read 1 0) [.write 1 0 1] (by decide) (by rfl)))
      (.call _ 0 (by decide) (by rfl) (by rfl) (by decide) (by decide)))
      (.act _ 0 (.read 0 0) [.write 0 0 1] (by decide) (by rfl)))
      (.act _ 0 (.write 0 0 1) [] (by decide) (by rfl)))
      (.act _ 1 (.write 1 0 1) [] (by decide) (by rfl)))
      (.leave _ 0 (by decide) (by rfl) (by rfl) (by decide)))
      (.leave _ 1 (by decide) (by rfl) (by rfl) (by decide)))
      (.join _ (by rfl) (by decide) (by rfl)))
      (.join _ (by rfl) (by decide) (by rfl)), by exact ⟨rfl, rfl⟩, by rfl⟩

/-- The same schedule with an element for each thread. -/
example : ∃ job, pthreadsNg 2 2 (fun _ j => addAll [1] j j) = some job ∧
    ∃ n s, Steps job Half.run n (init (⟨fun _ => 0, fun _ => 0⟩ : Regs Nat)) s ∧ Returned job s ∧ s.mem.x 0 + s.mem.x 1 = 2 := by
  exact ⟨_, rfl, 12, _, .tail _ _ _ _ (.tail _ _ _ _ (.tail _ _ _ _ (.tail _ _ _ _ (.tail _ _ _ _ (.tail _ _ _ _ (.tail _ _ _ _
      (.tail _ _ _ _ (.tail _ _ _ _ (.tail _ _ _ _ (.tail _ _ _ _ (.tail _ _ _ _ (.refl _)
      (.create _ (by decide))) (.create _ (by decide)))
      (.call _ 1 (by decide) (by rfl) (by rfl) (by decide) (by decide)))
      (.act _ 1 (.read 1 1) [.write 1 1 1] (by decide) (by rfl)))
      (.call _ 0 (by decide) (by rfl) (by rfl) (by decide) (by decide)))
      (.act _ 0 (.read 0 0) [.write 0 0 1] (by decide) (by rfl)))
      (.act _ 0 (.write 0 0 1) [] (by decide) (by rfl)))
      (.act _ 1 (.write 1 1 1) [] (by decide) (by rfl)))
      (.leave _ 0 (by decide) (by rfl) (by rfl) (by decide)))
      (.leave _ 1 (by decide) (by rfl) (by rfl) (by decide)))
      (.join _ (by rfl) (by decide) (by rfl)))
      (.join _ (by rfl) (by decide) (by rfl)), by exact ⟨rfl, rfl⟩, by rfl⟩

end Verif.Parallel
