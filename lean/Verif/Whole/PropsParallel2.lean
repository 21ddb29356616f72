import Verif.Whole.ModelParallel2
import Verif.Whole.PropsRange
import Verif.Parallel.Props
import Verif.Parallel.PropsOld

/-!
# C133: the program examples/testParallelizer2.cpp
-/

namespace Verif.Whole.Parallel2

open Verif.Parallel Verif.Whole.Range

theorem returns_exists {Act Mem : Type} (job : Job Act) (run : Act → Mem → Mem) (m0 : Mem) : ∃ k s, Steps job run k (init m0) s ∧ Returned job s := by
  obtain ⟨N, h⟩ := alwaysReturns job
  have key : ∀ d k s, Steps job run k (init m0) s → N - k ≤ d → ∃ k s, Steps job run k (init m0) s ∧ Returned job s := by
    intro d
    induction d with
    | zero =>
      intro k s hs hk
      by_cases hr : Returned job s
      · exact ⟨k, s, hs, hr⟩
      · obtain ⟨t, ht⟩ := (h Mem run m0 k s hs).2 hr
        have h1 := (h Mem run m0 _ t (.tail k _ s t hs ht)).1
        omega
    | succ d ih =>
      intro k s hs hk
      by_cases hr : Returned job s
      · exact ⟨k, s, hs, hr⟩
      · obtain ⟨t, ht⟩ := (h Mem run m0 k s hs).2 hr
        exact ih (k + 1) t (.tail k _ s t hs ht) (by omega)
  exact key N 0 _ (.refl _) (by omega)

theorem task_independent (n : Nat) : Independent store task 0 n := by
  intro t u _ _ _ _ htu a ha b hb m
  simp only [task, List.mem_singleton] at ha hb
  subst ha hb
  funext i
  simp only [store]
  by_cases h1 : i = t
  · subst h1; simp [htu]
  · simp [h1]

theorem serial_mem (n : Nat) (m : Nat → Nat) (i : Nat) : serialMem store task 0 n m i = if i < n then i + 42 else m i := by
  unfold serialMem
  rw [Nat.sub_zero, ← List.range_eq_range']
  induction n with
  | zero => simp
  | succ n ih =>
    rw [List.range_succ, List.foldl_append]
    simp only [List.foldl_cons, List.foldl_nil, task, store]
    by_cases h : i = n
    · subst h; simp
    · have e : i < n + 1 ↔ i < n := by omega
      simp only [if_neg h, e]
      exact ih

/-- Every run of the loop leaves 42, 43, … -/
theorem ends_spec (b : Backend) (n threads : Nat) (v : Nat → Nat) (h : Ends b n threads v) (hb : 0 < threads) :
    ∀ i, v i = if i < n then i + 42 else 0 := by
  intro i
  rw [← serial_mem n (fun _ => 0) i]
  cases b with
  | pthread =>
    obtain ⟨job, k, s, h1, h2, h3, rfl⟩ := h
    obtain ⟨job', e, he⟩ := parallelizer2_equals_serial 0 n threads hb (by omega) task store (task_independent n)
    rw [h1] at e
    cases e
    rw [he _ k s h2 h3]
  | openmp =>
    obtain ⟨job, k, s, h1, h2, h3, rfl⟩ := h
    rw [openMP_equals_serial 0 n threads task store (task_independent n) job h1 _ k s h2 h3]
  | serial =>
    unfold Ends at h
    subst h
    unfold serialMem serialCalls
    rw [List.foldl_map]

/-- The text expected: the numbers of the first and of the last task plus 42. -/
def expected (b : Backend) (pr : Nat → List Char) (n threads : Nat) : List Char :=
  "Testing Parallelizer2 with ".toList ++ b.name ++ " and ".toList ++ Nat.toDigits 10 (match b with | .pthread => threads | _ => 1) ++
    " threads.\n".toList ++ pr 42 ++ " ".toList ++ pr (n + 41) ++ "\n".toList

/-- **C133** For every number of tasks and threads and for each version of `Parallelizer2`, some run of the loop ends, and every run
that does prints the numbers 42 and `n + 41`, whatever the schedule. -/
theorem parallel2_prints (b : Backend) (pr : Nat → List Char) (limit n threads : Nat) (more : List (List Char)) (hn : 0 < n) (ht : 0 < threads)
    (hb : b = .serial → threads = 1) (hn2 : n ≤ 2147483647) (ht2 : threads ≤ 2147483647) (hl : n ≤ limit) :
    start b limit (Nat.toDigits 10 n :: Nat.toDigits 10 threads :: more) = .ok (some (n, threads)) ∧
      (∃ v, Ends b n threads v) ∧ ∀ v, Ends b n threads v → printed b pr n threads v = .ok (expected b pr n threads) := by
  refine ⟨?_, ?_, ?_⟩
  · have e1 := number_digits n (by omega)
    have e2 := number_digits threads (by omega)
    unfold start
    simp only [e1, e2]
    show (if n > limit then _ else _) = _
    rw [if_neg (by omega)]
    cases b with
    | serial =>
      show (if threads ≠ 1 then _ else _) = _
      rw [if_neg (by simpa using hb rfl)]
      rfl
    | _ => rfl
  · cases b with
    | serial => exact ⟨_, rfl⟩
    | pthread =>
      obtain ⟨job, e, _⟩ := parallelizer2_each_task_once 0 n threads ht (by omega) (fun t _ => task t)
      obtain ⟨k, s, h1, h2⟩ := returns_exists job store fun _ => 0
      exact ⟨_, job, k, s, e, h1, h2, rfl⟩
    | openmp =>
      obtain ⟨job, e⟩ := openMP_exists 0 n threads ht (fun t _ => task t)
      obtain ⟨k, s, h1, h2⟩ := returns_exists job store fun _ => 0
      exact ⟨_, job, k, s, e, h1, h2, rfl⟩
  · intro v hv
    have h := ends_spec b n threads v hv ht
    unfold printed
    rw [if_neg (by omega), h 0, h (n - 1), if_pos hn, if_pos (by omega), show n - 1 + 42 = n + 41 by omega]
    cases b <;> rfl

/-- **C133** The loop never gets stuck and always ends. -/
theorem parallel2_ends (n threads : Nat) (ht : 0 < threads) :
    (∃ job, parallelizer2 0 n threads (fun t _ => task t) = some job ∧ AlwaysReturns job) ∧
      ∀ job, OpenMP 0 n threads (fun t _ => task t) job → AlwaysReturns job := by
  obtain ⟨job, e, _, h⟩ := parallelizer2_each_task_once 0 n threads ht (by omega) (fun t _ => task t)
  exact ⟨⟨job, e, h⟩, fun job h => (openMP_each_task_once 0 n threads _ job h).2.1⟩

/-- **C133** With fewer than two arguments nothing is done. -/
theorem parallel2_usage (b : Backend) (limit : Nat) (args : List (List Char)) (h : args.length < 2) : start b limit args = .ok none := by
  match args, h with
  | [], _ => rfl
  | [_], _ => rfl

/-- **C133** Without threads compiled in, any other number of threads is refused. -/
theorem parallel2_refused (limit n threads : Nat) (more : List (List Char)) (hn2 : n ≤ 2147483647) (ht2 : threads ≤ 2147483647)
    (h : threads ≠ 1) : start .serial limit (Nat.toDigits 10 n :: Nat.toDigits 10 threads :: more) = throwOut := by
  have e1 := number_digits n (by omega)
  have e2 := number_digits threads (by omega)
  unfold start
  simp only [e1, e2]
  show (if n > limit then _ else (if threads ≠ 1 then _ else _)) = _
  rw [if_pos h]
  split <;> rfl

/-- **C133, violated part** With no tasks the program reads the first element of an empty vector. -/
theorem parallel2_empty_fails (b : Backend) (pr : Nat → List Char) (threads : Nat) (v : Nat → Nat) : printed b pr 0 threads v = ubOut := rfl

/-- **C133, violated part** With pthreads and no threads the balancer divides by zero. -/
theorem parallel2_zero_fails (n : Nat) : parallelizer2 0 n 0 (fun t _ => task t) = none := by
  unfold parallelizer2
  rw [if_neg (by omega)]
  rfl

/-- The hypotheses are met. -/
example : start .openmp 1000 ["10".toList, "4".toList] = .ok (some (10, 4)) ∧ ∀ v, Ends .openmp 10 4 v →
    printed .openmp (Nat.toDigits 10) 10 4 v = .ok "Testing Parallelizer2 with openmp and 1 threads.\n42 51\n".toList := by
  obtain ⟨h1, _, h3⟩ := parallel2_prints .openmp (Nat.toDigits 10) 1000 10 4 [] (by decide) (by decide) (by simp) (by decide) (by decide) (by decide)
  refine ⟨h1, fun v hv => (h3 v hv).trans ?_⟩
  decide +kernel

end Verif.Whole.Parallel2
