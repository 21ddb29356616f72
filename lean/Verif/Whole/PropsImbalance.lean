import Verif.Whole.ModelImbalance
import Verif.Whole.PropsRange
import Verif.Random.Props48
import Verif.SortM.Props
import Verif.LoadBalancer.Props
import Mathlib.Algebra.Order.BigOperators.Group.Finset
import Mathlib.Algebra.Order.Floor.Semifield

/-!
# C130: the program examples/loadImbalance.cpp under all schedules
-/

namespace Verif.Whole.Imbalance

open Verif.Parallel Verif.Concurrency Verif.LoadBalancer Finset

/-- The weight of a task, from the number of 48 bits that the generator gives for it. -/
def weightAt (t : Nat) : Nat := 1 + 10 * Random.lcg^[t + 1] (Random.srand48 1234) / 2 ^ 48

/-- The sum of all tasks. -/
def total (ntasks : Nat) : Nat := ∑ t ∈ range ntasks, ∑ i ∈ range (weightAt t), (t + i)

/-- What the program should print, but for the number of bits of the sum. -/
def expected (b : Build) (nthreads ntasks : Nat) (sum : Int) : List Char :=
  ((List.range ntasks).flatMap fun t => Nat.toDigits 10 (weightAt t) ++ " ".toList) ++ "\n".toList ++ "Using ".toList ++
    (if b.usePthreads then "PthreadsNg".toList else "NoPthreadsNg".toList) ++ " with ".toList ++ Nat.toDigits 10 nthreads ++
    " threads.\n".toList ++ "Sum of all tasks= ".toList ++ StrUtil.decimal sum ++ "\n".toList

/-- What is assumed of the rounding: it keeps the numbers that need at most 53 bits. -/
def Keeps (rnd : ℚ → ℚ) : Prop := ∀ k : Nat, k < 2 ^ 53 → rnd ((k : ℚ) / 2 ^ 48) = (k : ℚ) / 2 ^ 48

theorem keeps_id : Keeps id := fun _ _ => rfl

/-- Ten times a number of 48 bits is not rounded. -/
theorem weight_eq (rnd : ℚ → ℚ) (hr : Keeps rnd) (x : Nat) :
    1 + ⌊rnd (10 * (Random.drand48 x).1)⌋₊ = 1 + 10 * Random.lcg x / 2 ^ 48 := by
  have h := Random.lcg_lt x
  have e : (10 : ℚ) * (Random.drand48 x).1 = ((10 * Random.lcg x : Nat) : ℚ) / 2 ^ 48 := by
    unfold Random.drand48
    push_cast
    norm_num
    ring
  rw [e, hr _ (by omega)]
  have e2 : ((10 * Random.lcg x : Nat) : ℚ) / 2 ^ 48 = ((10 * Random.lcg x : Nat) : ℚ) / ((2 ^ 48 : Nat) : ℚ) := by push_cast; rfl
  rw [e2, Nat.floor_div_eq_div]

theorem weights_eq (rnd : ℚ → ℚ) (hr : Keeps rnd) (n : Nat) (x : Nat) :
    weightsFrom rnd n x = (List.range n).map fun t => 1 + 10 * Random.lcg^[t + 1] x / 2 ^ 48 := by
  induction n generalizing x with
  | zero => rfl
  | succ n ih =>
    rw [weightsFrom, ih, List.range_succ_eq_map, List.map_cons, List.map_map, weight_eq rnd hr]
    refine congrArg₂ List.cons rfl (List.map_congr_left fun t _ => ?_)
    simp only [Function.comp_apply, Random.drand48, Function.iterate_succ_apply]

/-- **C130** All weights are from one to ten. -/
theorem weight_range (t : Nat) : 1 ≤ weightAt t ∧ weightAt t ≤ 10 := by
  unfold weightAt
  rw [Function.iterate_succ_apply']
  have h := Random.lcg_lt (Random.lcg^[t] (Random.srand48 1234))
  omega

/-- One task, alone. -/
theorem task_serial (weights : List Nat) (t j : Nat) (m : Mem) :
    ((doTask weights t j).foldl (fun m a => Act.run a m) m).x =
      fun k => if k = j then m.x j + BitVec.ofNat 64 (∑ i ∈ range (weights.getD t 0), (t + i)) else m.x k := by
  unfold doTask
  generalize weights.getD t 0 = w
  induction w with
  | zero =>
    funext k
    by_cases h : k = j
    · subst h; simp
    · simp [h]
  | succ w ih =>
    rw [List.range_succ, List.flatMap_append, List.foldl_append, Finset.sum_range_succ]
    simp only [List.flatMap_cons, List.flatMap_nil, List.append_nil, List.foldl_cons, List.foldl_nil]
    generalize (List.flatMap (fun i => [Act.load j j, Act.store j j (t + i)]) (List.range w)).foldl (fun m a => Act.run a m) m = m1 at ih ⊢
    simp only [Act.run]
    funext k
    by_cases h : k = j
    · subst h
      simp only [if_true, ih, BitVec.ofNat_add]
      rw [add_assoc]
    · simp only [if_neg h, ih]

theorem calls_serial (weights : List Nat) (slots : Nat) : ∀ (calls : List (Nat × Nat)) (_ : ∀ c ∈ calls, c.2 < slots) (m : Mem),
    ((List.range slots).map (calls.foldl (fun m c => (doTask weights c.1 c.2).foldl (fun m a => Act.run a m) m) m).x).sum =
      ((List.range slots).map m.x).sum +
        (calls.map fun c => BitVec.ofNat 64 (∑ i ∈ range (weights.getD c.1 0), (c.1 + i))).sum := by
  intro calls
  induction calls with
  | nil => intro _ m; simp
  | cons c calls ih =>
    intro hc m
    rw [List.foldl_cons, ih (fun d hd => hc d (List.mem_cons_of_mem _ hd)), List.map_cons, List.sum_cons, ← add_assoc, task_serial,
      sum_bump m.x slots c.2 (hc c List.mem_cons_self)]

/-- Threads use different places, and their own registers. -/
theorem acts_comm (weights : List Nat) {t u i j : Nat} (hij : i ≠ j) {a b : Act} (ha : a ∈ doTask weights t i) (hb : b ∈ doTask weights u j)
    (m : Mem) : a.run (b.run m) = b.run (a.run m) := by
  obtain ⟨k, _, ha⟩ := List.mem_flatMap.1 ha
  obtain ⟨l, _, hb⟩ := List.mem_flatMap.1 hb
  simp only [List.mem_cons, List.not_mem_nil, or_false] at ha hb
  have hji := hij.symm
  rcases ha with rfl | rfl <;> rcases hb with rfl | rfl <;> simp only [Act.run, Mem.mk.injEq, true_and, and_true, if_neg hij, if_neg hji]
  · funext x
    by_cases h : x = i
    · subst h; simp [hij]
    · simp [h]
  · funext x
    by_cases h : x = i
    · subst h; simp [hij]
    · simp [h]

theorem sum_ofNat (l : List Nat) (f : Nat → Nat) : (l.map fun t => BitVec.ofNat 64 (f t)).sum = BitVec.ofNat 64 (l.map f).sum := by
  induction l with
  | nil => rfl
  | cons x l ih => rw [List.map_cons, List.sum_cons, List.map_cons, List.sum_cons, ih, BitVec.ofNat_add]

/-- How the loop ends. -/
theorem loop_ends (b : Build) (n : Nat) (weights : List Nat) (hn : 0 < n) (hb : b.usePthreads = true ∨ n = 1)
    (q : Option (List (List Nat) × List Nat)) (hq : WeightsRun weights (if b.usePthreads then n else 1) q) :
    ∃ x, q = some x ∧
      (∃ N, ∀ k q m', (loopOf b n weights x.1).Steps Act.run k zero q m' → k ≤ N) ∧
      (∀ k q m', (loopOf b n weights x.1).Steps Act.run k zero q m' → q ≠ .done → ∃ q' m'', q.Step Act.run m' q' m'') ∧
      (∃ k m', (loopOf b n weights x.1).Steps Act.run k zero .done m') ∧
      ∀ k m', (loopOf b n weights x.1).Steps Act.run k zero .done m' →
        ((List.range n).map m'.x).sum =
          BitVec.ofNat 64 (((List.range weights.length).map fun t => ∑ i ∈ range (weights.getD t 0), (t + i)).sum) := by
  obtain ⟨lists, loads, rfl, _, _⟩ := weights_partition weights _ (by split <;> omega) q hq
  refine ⟨_, rfl, ?_⟩
  have key : ∃ calls : List (Nat × Nat), (loopOf b n weights lists).RaceFree Act.run ∧
      (calls.map Prod.fst).Perm (List.range weights.length) ∧ (∀ c ∈ calls, c.2 < n) ∧
      ∀ m, (loopOf b n weights lists).serial Act.run m = calls.foldl (fun m c => (doTask weights c.1 c.2).foldl (fun m a => Act.run a m) m) m := by
    cases hup : b.usePthreads with
    | true =>
      rw [if_pos hup] at hq
      obtain ⟨_, hperm⟩ := weights_all n weights hn (fun _ _ => ([] : List Unit)) (jobOf weights.length n lists) ⟨lists, loads, hq, rfl⟩
      obtain ⟨f1, f2, _, f4, f5⟩ := job_facts Act.run (jobOf weights.length n lists) weights.length hperm
        fun t j => Prog.ofList (doTask weights t j)
      have e : loopOf b n weights lists = jobProg (jobOf weights.length n lists) fun t j => Prog.ofList (doTask weights t j) := by
        unfold loopOf
        rw [if_pos hup]
        rfl
      rw [e]
      refine ⟨allCalls (jobOf weights.length n lists), ?_, f1, fun c hc => lt_of_lt_of_le (f2 c hc) (Nat.min_le_left _ _), fun m => ?_⟩
      · refine f5 (fun c _ => ofList_raceFree _ _) ?_
        intro c _ d _ _ h2 a ha b hb m
        rw [ofList_acts] at ha hb
        exact acts_comm weights h2 ha hb m
      · rw [f4]
        simp only [ofList_serial]
    | false =>
      have hn1 : n = 1 := by simpa [hup] using hb
      have e : loopOf b n weights lists = Prog.seqAll ((List.range weights.length).map fun t => Prog.ofList (doTask weights t 0)) := by
        unfold loopOf
        rw [if_neg (by simp [hup])]
      rw [e]
      refine ⟨(List.range weights.length).map fun t => (t, 0), ?_, by simp [List.map_map, Function.comp_def], by simp [hn1], fun m => ?_⟩
      · refine seqAll_raceFree ?_
        intro p hp
        obtain ⟨t, _, rfl⟩ := List.mem_map.1 hp
        exact ofList_raceFree _ _
      · rw [seqAll_serial]
        simp only [List.foldl_map, ofList_serial]
  obtain ⟨calls, e1, e2, e3, e4⟩ := key
  obtain ⟨f1, f2, f3, f4⟩ := fork_join Act.run _ e1 zero
  refine ⟨⟨_, f1⟩, f2, f4, fun k m' h => ?_⟩
  rw [f3 k m' h, e4, calls_serial weights n calls e3]
  have z : ((List.range n).map zero.x).sum = 0 := by
    refine List.sum_eq_zero ?_
    intro x hx
    obtain ⟨k, _, rfl⟩ := List.mem_map.1 hx
    rfl
  rw [z, zero_add, ← sum_ofNat]
  have := (e2.map fun t => BitVec.ofNat 64 (∑ i ∈ range (weights.getD t 0), (t + i))).sum_eq
  rw [← this, List.map_map]
  rfl

/-- The numbers of the weights of the program. -/
theorem total_eq (ntasks : Nat) (weights : List Nat) (h : weights = (List.range ntasks).map weightAt) :
    ((List.range weights.length).map fun t => ∑ i ∈ range (weights.getD t 0), (t + i)).sum = total ntasks := by
  subst h
  have e : total ntasks = ((List.range ntasks).map fun t => ∑ i ∈ range (weightAt t), (t + i)).sum := by
    unfold total
    simp [Finset.sum, Finset.range_val, Multiset.range]
  rw [e, List.length_map, List.length_range]
  refine congrArg List.sum (List.map_congr_left fun t ht => ?_)
  have := List.mem_range.1 ht
  simp [List.getD, this]

/-- The beginning of the program. -/
theorem prepare_eq (b : Build) (rnd : ℚ → ℚ) (hr : Keeps rnd) (limit n ntasks : Nat) (hb : b.usePthreads = true ∨ n = 1)
    (hn2 : n ≤ 2147483647) (ht : ntasks ≤ 2147483647) (hl : n ≤ limit) (hl2 : ntasks ≤ limit) :
    ∃ conf, conf.npthreads = n ∧
      prepare b rnd limit [Nat.toDigits 10 n, Nat.toDigits 10 ntasks] = .ok (some (conf, (List.range ntasks).map weightAt)) := by
  have hcon : ∃ conf, construct b n = .ok conf ∧ conf.npthreads = n := by
    unfold construct
    rcases hb with hb | hb
    · rw [if_pos hb]; exact ⟨_, rfl, rfl⟩
    · by_cases hp : b.usePthreads = true
      · rw [if_pos hp]; exact ⟨_, rfl, rfl⟩
      · rw [if_neg hp, if_neg (by simp [hb])]; exact ⟨_, rfl, rfl⟩
  obtain ⟨conf, hcon, hcn⟩ := hcon
  refine ⟨conf, hcn, ?_⟩
  unfold prepare
  simp only [bind, Except.bind, Range.number_digits n hn2, Range.number_digits ntasks ht, hcon, Range.ofRes]
  rw [if_neg, if_neg (by omega), weights_eq rnd hr]
  · rfl
  · rintro ⟨h1, h2⟩
    rcases hb with hb | hb
    · rw [h1] at hb; cases hb
    · omega

/-- **C130** For any number of tasks and of threads, with or without the pthreads library, whatever the balancer makes of equal weights
and however the threads are scheduled, even between the reading and the writing of a sum: the program ends, never gets stuck, and
prints the weights and the lower 32 bits of the sum over all tasks. -/
theorem imbalance_prints (b : Build) (rnd : ℚ → ℚ) (hr : Keeps rnd) (limit n ntasks : Nat) (hn : 0 < n)
    (hb : b.usePthreads = true ∨ n = 1) (hn2 : n ≤ 2147483647) (ht : ntasks ≤ 2147483647) (hl : n ≤ limit) (hl2 : ntasks ≤ limit) :
    (∃ r, Start b rnd limit [Nat.toDigits 10 n, Nat.toDigits 10 ntasks] r) ∧
    ∀ r, Start b rnd limit [Nat.toDigits 10 n, Nat.toDigits 10 ntasks] r → ∃ p, r = .ok (some p) ∧
      (∃ N, ∀ k q m', p.loop.Steps Act.run k zero q m' → k ≤ N) ∧
      (∀ k q m', p.loop.Steps Act.run k zero q m' → q ≠ .done → ∃ q' m'', q.Step Act.run m' q' m'') ∧
      (∃ k m', p.loop.Steps Act.run k zero .done m') ∧
      ∀ k m', p.loop.Steps Act.run k zero .done m' → printed b p m' = .ok (expected b n ntasks (Int.bmod (total ntasks) (2 ^ 32))) := by
  obtain ⟨conf, hcn, hp⟩ := prepare_eq b rnd hr limit n ntasks hb hn2 ht hl hl2
  unfold Start
  rw [hp]
  constructor
  · obtain ⟨w2, iperm, hs⟩ := SortM.sort_exists ((List.range ntasks).map weightAt) (List.replicate ((List.range ntasks).map weightAt).length 0)
      (by simp)
    exact ⟨_, _, ⟨w2, iperm, hs, rfl⟩, rfl⟩
  · rintro r ⟨q, hq, rfl⟩
    simp only at hq
    rw [hcn] at hq
    obtain ⟨x, rfl, f1, f2, f3, f4⟩ := loop_ends b n _ hn hb q hq
    refine ⟨_, rfl, ?_⟩
    simp only [hcn]
    refine ⟨f1, f2, f3, fun k m' h => ?_⟩
    have hsum := f4 k m' h
    rw [total_eq ntasks _ rfl] at hsum
    unfold printed
    simp only [hcn]
    rw [if_neg (by omega)]
    refine congrArg Except.ok ?_
    have hi : ((syncSum m'.x n).setWidth 32).toInt = Int.bmod (total ntasks) (2 ^ 32) := by
      rw [syncSum_eq _ _ hn, hsum, BitVec.setWidth_ofNat_of_le (by omega), BitVec.toInt_ofNat']
    unfold expected
    rw [hi, List.flatMap_map]

/-- The sum is at least that of the numbers of the tasks. -/
theorem total_ge (n : Nat) : n * (n - 1) / 2 ≤ total n := by
  rw [← Finset.sum_range_id]
  refine Finset.sum_le_sum fun t _ => ?_
  have h := (weight_range t).1
  have : ∑ i ∈ range 1, (t + i) ≤ ∑ i ∈ range (weightAt t), (t + i) :=
    Finset.sum_le_sum_of_subset (Finset.range_subset_range.2 h)
  simpa using this

theorem total_le (n : Nat) : total n ≤ 5 * (n * (n - 1)) + 45 * n := by
  have h : total n ≤ ∑ t ∈ range n, (10 * t + 45) := by
    refine Finset.sum_le_sum fun t _ => ?_
    have h := (weight_range t).2
    refine le_trans (Finset.sum_le_sum_of_subset (Finset.range_subset_range.2 h)) (le_of_eq ?_)
    simp [Finset.sum_range_succ]
    ring
  refine le_trans h (le_of_eq ?_)
  rw [Finset.sum_add_distrib, ← Finset.mul_sum, Finset.sum_const, Finset.card_range, smul_eq_mul]
  have := Finset.sum_range_id_mul_two n
  rw [← this]
  ring

/-- **C130** For up to 20000 tasks the whole sum is printed. -/
theorem imbalance_exact (n : Nat) (h : n ≤ 20000) : Int.bmod (total n) (2 ^ 32) = total n := by
  have h1 := total_le n
  have h2 : n * (n - 1) ≤ 20000 * 19999 := Nat.mul_le_mul h (by omega)
  rw [Int.bmod_eq_of_le (by omega) (by omega)]

/-- **C130, violated part** For more than 65536 tasks what is printed is not the sum, which does not fit into the `int` of the result. -/
theorem imbalance_overflow_fails (n : Nat) (h : 65536 < n) : Int.bmod (total n) (2 ^ 32) ≠ total n := by
  have h1 := total_ge n
  have h2 : 65537 * 65536 ≤ n * (n - 1) := Nat.mul_le_mul h (by omega)
  have h3 := Int.bmod_lt (x := (total n : Int)) (m := 2 ^ 32) (by norm_num)
  intro e
  rw [e] at h3
  omega

/-- **C130, violated part** With no threads the program has undefined behaviour for any tasks, and for none. -/
theorem imbalance_zero_fails (m : Bool) (rnd : ℚ → ℚ) (hr : Keeps rnd) (limit ntasks : Nat) (ht : ntasks ≤ 2147483647) (hl : ntasks ≤ limit)
    (r : Out (Option Run)) (h : Start ⟨true, m⟩ rnd limit [['0'], Nat.toDigits 10 ntasks] r) :
    r = ubOut ∨ ntasks = 0 ∧ ∃ p, r = .ok (some p) ∧ ∀ mem, printed ⟨true, m⟩ p mem = ubOut := by
  obtain ⟨conf, hcn, hp⟩ := prepare_eq ⟨true, m⟩ rnd hr limit 0 ntasks (.inl rfl) (by omega) ht (by omega) hl
  unfold Start at h
  rw [show [['0'], Nat.toDigits 10 ntasks] = [Nat.toDigits 10 0, Nat.toDigits 10 ntasks] from rfl, hp] at h
  obtain ⟨q, hq, rfl⟩ := h
  simp only [if_true, hcn] at hq
  by_cases h0 : ntasks = 0
  · cases q with
    | none => exact .inl rfl
    | some x =>
      refine .inr ⟨h0, _, rfl, fun mem => ?_⟩
      unfold printed
      rw [if_pos hcn]
  · rw [weights_zero_threads _ (by simpa using h0) q hq]
    exact .inl rfl

/-- **C130** Any other number of arguments ends the program with the value one. -/
theorem imbalance_usage (b : Build) (rnd : ℚ → ℚ) (limit : Nat) (args : List (List Char)) (h : args.length ≠ 2) (r : Out (Option Run)) :
    Start b rnd limit args r ↔ r = .ok none := by
  have e : prepare b rnd limit args = .ok none := by
    unfold prepare
    split
    · simp at h
    · rfl
  unfold Start
  rw [e]

/-- **C130** Without the pthreads library any number of threads but one ends the program with an exception. -/
theorem imbalance_refused (b : Build) (hb : b.usePthreads = false) (rnd : ℚ → ℚ) (limit n ntasks : Nat) (h1 : n ≠ 1) (hn : n ≤ 2147483647)
    (ht : ntasks ≤ 2147483647) (r : Out (Option Run)) :
    Start b rnd limit [Nat.toDigits 10 n, Nat.toDigits 10 ntasks] r ↔ r = throwOut := by
  have e : prepare b rnd limit [Nat.toDigits 10 n, Nat.toDigits 10 ntasks] = throwOut := by
    unfold prepare
    simp only [bind, Except.bind, Range.number_digits n hn, Range.number_digits ntasks ht, Concurrency.no_pthreads_refused b hb n h1,
      Range.ofRes, throwOut]
  unfold Start
  rw [e]
  rfl

example (rnd : ℚ → ℚ) (r : Out (Option Run)) : Start ⟨false, true⟩ rnd 100 [['2'], ['3']] r ↔ r = throwOut :=
  imbalance_refused ⟨false, true⟩ rfl rnd 100 2 3 (by decide) (by decide) (by decide) r

/-- The first weights are 8, 3 and 4; with three tasks the sum is (0 + … + 7) + (1 + 2 + 3) + (2 + 3 + 4 + 5). -/
theorem first_weights : (List.range 3).map weightAt = [8, 3, 4] ∧ total 3 = 48 := by decide +kernel

/-- Three tasks in two threads. -/
example : ∃ r, Start ⟨true, false⟩ id 100 [['2'], ['3']] r ∧ ∃ p, r = .ok (some p) ∧
    ∃ k m', p.loop.Steps Act.run k zero .done m' ∧
      printed ⟨true, false⟩ p m' = .ok "8 3 4 \nUsing PthreadsNg with 2 threads.\nSum of all tasks= 48\n".toList := by
  obtain ⟨⟨r, h⟩, h2⟩ := imbalance_prints ⟨true, false⟩ id keeps_id 100 2 3 (by omega) (.inl rfl) (by omega) (by omega) (by omega) (by omega)
  obtain ⟨p, e, _, _, ⟨k, m', hs⟩, h3⟩ := h2 r h
  refine ⟨r, h, p, e, k, m', hs, ?_⟩
  rw [h3 k m' hs]
  decide +kernel

end Verif.Whole.Imbalance
