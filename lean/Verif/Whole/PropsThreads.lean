import Verif.Whole.ModelThreads
import Verif.Whole.PropsRange

/-!
# C137: the program examples/threads.cpp under all schedules
-/

namespace Verif.Whole.Threads

open Verif.Parallel Verif.Concurrency Verif.Whole.Range

/-- The text with a number as the sum. -/
def expected (b : Build) (threads : Nat) (sum : Int) : List Char :=
  "Using ".toList ++ (if b.usePthreads then "PthreadsNg".toList else "NoPthreadsNg".toList) ++ " with ".toList ++
    Nat.toDigits 10 threads ++ " threads.\n".toList ++ "Sum of all tasks= ".toList ++ StrUtil.decimal sum ++ "\n".toList

/-- The memory after calls of the tasks in some threads, one after the other. -/
theorem calls_run (threads : Nat) : ∀ (calls : List (Nat × Nat)) (_ : ∀ c ∈ calls, c.2 < threads) (m : Mem),
    let m' := calls.foldl (fun m c => Act.run (.add c.2 c.1) (Act.run (.load c.2) m)) m
    ((List.range threads).map m'.x).sum = ((List.range threads).map m.x).sum + (calls.map fun c => BitVec.ofNat 64 c.1).sum := by
  intro calls
  induction calls with
  | nil => intro _ m; simp
  | cons c calls ih =>
    intro hc m
    have h1 := ih (fun d hd => hc d (List.mem_cons_of_mem _ hd)) (Act.run (.add c.2 c.1) (Act.run (.load c.2) m))
    simp only [List.foldl_cons]
    rw [h1, List.map_cons, List.sum_cons, ← add_assoc]
    congr 1
    have := sum_bump m.x threads c.2 (hc c List.mem_cons_self) (BitVec.ofNat 64 c.1)
    rw [← this]
    congr 1
    refine List.map_congr_left fun i _ => ?_
    simp only [Act.run]
    by_cases h : i = c.2
    · subst h; simp
    · simp [h]

theorem acts_comm {i j t u : Nat} (hij : i ≠ j) {a b : Act} (ha : a ∈ doTask t i) (hb : b ∈ doTask u j) (m : Mem) :
    a.run (b.run m) = b.run (a.run m) := by
  simp only [doTask, List.mem_cons, List.not_mem_nil, or_false] at ha hb
  have hji := hij.symm
  rcases ha with rfl | rfl <;> rcases hb with rfl | rfl <;>
    simp only [Act.run, Mem.mk.injEq, true_and, and_true, if_neg hij, if_neg hji]
  · funext x
    by_cases h : x = i
    · subst h; simp [hij]
    · simp [h]
  · funext x
    by_cases h : x = i
    · subst h; simp [hij]
    · simp [h]

theorem sync_eq (x : Nat → BitVec 64) (n : Nat) (hn : 0 < n) : sync n x = ((List.range n).map x).sum := by
  have : ∀ (l : List Nat) (s : BitVec 64), l.foldl (fun s i => s + x i) s = s + (l.map x).sum := by
    intro l
    induction l with
    | nil => intro s; simp
    | cons i l ih => intro s; rw [List.foldl_cons, ih, List.map_cons, List.sum_cons, add_assoc]
  unfold sync
  rw [this]
  obtain ⟨k, rfl⟩ : ∃ k, n = k + 1 := ⟨n - 1, by omega⟩
  rw [List.range_eq_range' (n := k + 1), List.range'_succ, List.map_cons, List.sum_cons]
  simp

/-- How the loop ends. -/
theorem loop_sum (b : Build) (conf : Conf) (tasks : Nat) (hc : Reachable b conf) (hn : 0 < conf.npthreads) :
    ∃ p, loopOf b conf tasks = .ok p ∧
      (∀ k q m', p.Steps Act.run k zero q m' → k ≤ p.size) ∧
      (∀ k q m', p.Steps Act.run k zero q m' → q ≠ .done → ∃ q' m'', q.Step Act.run m' q' m'') ∧
      (∃ k m', p.Steps Act.run k zero .done m') ∧
      ∀ k m', p.Steps Act.run k zero .done m' →
        sync conf.npthreads m'.x = ((List.range tasks).map fun t => BitVec.ofNat 64 t).sum := by
  obtain ⟨_, hp⟩ := reachable_mode b conf hc
  have key : ∃ (p : Prog Act) (calls : List (Nat × Nat)), loopOf b conf tasks = .ok p ∧ p.RaceFree Act.run ∧
      calls.map Prod.fst = List.range tasks ∧ (∀ c ∈ calls, c.2 < conf.npthreads) ∧
      ∀ m, p.serial Act.run m = calls.foldl (fun m c => Act.run (.add c.2 c.1) (Act.run (.load c.2) m)) m := by
    cases hup : b.usePthreads with
    | true =>
      obtain ⟨p, calls, e1, e2, e3, e4, e5, e6⟩ := loop_facts Act.run tasks conf.npthreads hn
        fun t j => Prog.ofList (doTask t j)
      refine ⟨p, calls, ?_, ?_, e2, e3, ?_⟩
      · unfold loopOf
        rw [if_pos hup, e1]
      · refine e6 (fun c _ => ofList_raceFree _ _) ?_
        intro c _ d _ h1 h2 a ha b hb m
        rw [ofList_acts] at ha hb
        exact acts_comm h2 ha hb m
      · intro m
        rw [e5]
        simp only [ofList_serial, doTask, List.foldl_cons, List.foldl_nil]
    | false =>
      have hn1 := hp hup
      refine ⟨_, (List.range tasks).map fun t => (t, 0), by unfold loopOf; rw [if_neg (by simp [hup]), if_neg (by simp [hn1])],
        ?_, by simp [List.map_map, Function.comp_def], by simp [hn1], ?_⟩
      · refine seqAll_raceFree ?_
        intro p hp
        obtain ⟨t, _, rfl⟩ := List.mem_map.1 hp
        exact ofList_raceFree _ _
      · intro m
        rw [seqAll_serial]
        simp only [List.foldl_map, ofList_serial, doTask, List.foldl_cons, List.foldl_nil]
  obtain ⟨p, calls, e3, e4, e5, e6, e7⟩ := key
  obtain ⟨f1, f2, f3, f4⟩ := fork_join Act.run p e4 zero
  refine ⟨p, e3, f1, f2, f4, fun k m' h => ?_⟩
  have g1 := calls_run conf.npthreads calls e6 zero
  rw [sync_eq _ _ hn, f3 k m' h, e7, g1]
  have z : ((List.range conf.npthreads).map zero.x).sum = 0 := by
    refine List.sum_eq_zero ?_
    intro x hx
    obtain ⟨k, _, rfl⟩ := List.mem_map.1 hx
    rfl
  rw [z, zero_add, ← e5, List.map_map]
  rfl

/-- The sum as an `int`. -/
theorem result_sum (n : Nat) (h : n ≤ 2147483647) :
    result ((List.range n).map fun t => BitVec.ofNat 64 t).sum = (BitVec.ofNat 32 (n * (n - 1) / 2)).toInt := by
  unfold result
  have e := sum_below n h
  have : ((List.range n).map fun t => BitVec.ofNat 64 t).sum = BitVec.ofNat 64 (n * (n - 1) / 2) := by
    apply BitVec.eq_of_toNat_eq
    rw [e, BitVec.toNat_ofNat]
    refine (Nat.mod_eq_of_lt (lt_of_le_of_lt (Nat.div_le_self _ _) ?_)).symm
    calc n * (n - 1) ≤ 2147483647 * 2147483647 := Nat.mul_le_mul h (by omega)
      _ < 2 ^ 64 := by norm_num
  rw [this]
  congr 1
  apply BitVec.eq_of_toNat_eq
  simp only [BitVec.truncate_eq_setWidth, BitVec.toNat_setWidth, BitVec.toNat_ofNat]
  omega

/-- The program, for all numbers of tasks that fit into an `int`: the sum is printed modulo `2^32`. -/
theorem threads_wrapped (b : Build) (limit tasks n : Nat) (hn : 0 < n) (hb : b.usePthreads = true ∨ n = 1) (ht : tasks ≤ 2147483647)
    (hn2 : n ≤ 2147483647) (hl : n ≤ limit) :
    ∃ r, start b limit [Nat.toDigits 10 n, Nat.toDigits 10 tasks] = .ok (some r) ∧
      (∃ N, ∀ k q m', r.loop.Steps Act.run k zero q m' → k ≤ N) ∧
      (∀ k q m', r.loop.Steps Act.run k zero q m' → q ≠ .done → ∃ q' m'', q.Step Act.run m' q' m'') ∧
      (∃ k m', r.loop.Steps Act.run k zero .done m') ∧
      ∀ k m', r.loop.Steps Act.run k zero .done m' →
        printed b r m' = expected b n (BitVec.ofNat 32 (tasks * (tasks - 1) / 2)).toInt := by
  have hcon : ∃ conf, construct b n = .ok conf ∧ conf.npthreads = n := by
    unfold construct
    rcases hb with hb | hb
    · rw [if_pos hb]; exact ⟨_, rfl, rfl⟩
    · by_cases hp : b.usePthreads = true
      · rw [if_pos hp]; exact ⟨_, rfl, rfl⟩
      · rw [if_neg hp, if_neg (by simp [hb])]; exact ⟨_, rfl, rfl⟩
  obtain ⟨conf, hcon, hcn⟩ := hcon
  obtain ⟨p, e1, e2, e3, e4, e5⟩ := loop_sum b conf tasks (.construct n conf hcon) (by omega)
  refine ⟨⟨n, p⟩, ?_, ⟨_, e2⟩, e3, e4, fun k m' h => ?_⟩
  · simp only [start, number_digits n hn2, number_digits tasks ht, bind, Except.bind, hcon, ofRes, e1]
    rw [if_neg (by omega)]
    rfl
  · have := e5 k m' h
    rw [hcn] at this
    unfold printed
    simp only [this, result_sum tasks ht]
    rfl

/-- **C137** Up to 65536 tasks and any number of threads, with or without the pthreads library, however the threads are scheduled, the
program ends, never gets stuck, and prints the sum of the numbers of the tasks. -/
theorem threads_prints (b : Build) (limit tasks n : Nat) (hn : 0 < n) (hb : b.usePthreads = true ∨ n = 1) (ht : tasks ≤ 65536)
    (hn2 : n ≤ 2147483647) (hl : n ≤ limit) :
    ∃ r, start b limit [Nat.toDigits 10 n, Nat.toDigits 10 tasks] = .ok (some r) ∧
      (∃ N, ∀ k q m', r.loop.Steps Act.run k zero q m' → k ≤ N) ∧
      (∀ k q m', r.loop.Steps Act.run k zero q m' → q ≠ .done → ∃ q' m'', q.Step Act.run m' q' m'') ∧
      (∃ k m', r.loop.Steps Act.run k zero .done m') ∧
      ∀ k m', r.loop.Steps Act.run k zero .done m' → printed b r m' = expected b n ((List.range tasks).sum : Nat) := by
  obtain ⟨r, h1, h2, h3, h4, h5⟩ := threads_wrapped b limit tasks n hn hb (by omega) hn2 hl
  refine ⟨r, h1, h2, h3, h4, fun k m' h => ?_⟩
  have hs : (List.range tasks).sum = tasks * (tasks - 1) / 2 := by
    rw [← Finset.sum_range_id]
    simp [Finset.sum, Finset.range_val, Multiset.range]
  have hlt : tasks * (tasks - 1) / 2 < 2 ^ 31 := by
    have : tasks * (tasks - 1) ≤ 65536 * 65535 := Nat.mul_le_mul ht (by omega)
    omega
  rw [h5 k m' h, hs]
  congr 1
  rw [BitVec.toInt_ofNat', Int.bmod_eq_of_le (by omega) (by omega)]

/-- **C137, violated part** One task more, and what is printed is negative. -/
theorem threads_negative_fails (b : Build) (limit n : Nat) (hn : 0 < n) (hb : b.usePthreads = true ∨ n = 1)
    (hn2 : n ≤ 2147483647) (hl : n ≤ limit) :
    ∃ r, start b limit [Nat.toDigits 10 n, Nat.toDigits 10 65537] = .ok (some r) ∧
      (∃ k m', r.loop.Steps Act.run k zero .done m') ∧
      ∀ k m', r.loop.Steps Act.run k zero .done m' → printed b r m' = expected b n (-2147450880) := by
  obtain ⟨r, h1, _, _, h4, h5⟩ := threads_wrapped b limit 65537 n hn hb (by omega) hn2 hl
  refine ⟨r, h1, h4, fun k m' h => ?_⟩
  rw [h5 k m' h]
  rfl

/-- **C137** Any other number of arguments than two: no loop is started. -/
theorem threads_usage (b : Build) (limit : Nat) (args : List (List Char)) (h : args.length ≠ 2) : start b limit args = .ok none := by
  match args, h with
  | [], _ => rfl
  | [_], _ => rfl
  | _ :: _ :: _ :: _, _ => rfl

/-- **C137, violated part** No threads: division by zero. -/
theorem threads_zero_fails (m : Bool) (limit tasks : Nat) (ht : tasks ≤ 2147483647) :
    start ⟨true, m⟩ limit [['0'], Nat.toDigits 10 tasks] = ubOut := by
  have e : ∀ c : Conf, c.npthreads = 0 → loopOf ⟨true, m⟩ c tasks = ubOut := by
    intro c hc
    unfold loopOf loopCreate
    rw [if_pos rfl, hc, pthreadsNg_zero_threads]
    rfl
  have h1 : number ['0'] = .ok 0 := number_digits 0 (by omega)
  simp only [start, h1, number_digits tasks ht, bind, Except.bind, construct, if_true, ofRes]
  rw [if_neg (by omega), e _ rfl]
  rfl

/-- The hypotheses are met. -/
example : ∃ r, start ⟨true, false⟩ 1000 ["3".toList, "7".toList] = .ok (some r) ∧
    (∃ k m', r.loop.Steps Act.run k zero .done m') ∧
    ∀ k m', r.loop.Steps Act.run k zero .done m' → printed ⟨true, false⟩ r m' =
      "Using PthreadsNg with 3 threads.\nSum of all tasks= 21\n".toList := by
  obtain ⟨r, h1, _, _, h4, h5⟩ := threads_prints ⟨true, false⟩ 1000 7 3 (by omega) (Or.inl rfl) (by omega) (by omega) (by omega)
  exact ⟨r, h1, h4, fun k m' h => by rw [h5 k m' h]; decide +kernel⟩

end Verif.Whole.Threads
