import Verif.Whole.ModelRange
import Verif.Parallel.PropsNested
import Verif.Parallel.Props
import Verif.Collective.Props
import Verif.Concurrency.Props
import Verif.Host.PropsRunId
import Mathlib.Algebra.BigOperators.Intervals

/-!
# C127: the program examples/range.cpp under all schedules
-/

namespace Verif.Whole.Range

open Verif.Parallel Verif.Concurrency

/-- The text the program should print: the first line, the sum, and the squares. -/
def expected (b : Build) (threads total : Nat) : List Char :=
  "Using ".toList ++ (if b.usePthreads then "PthreadsNg".toList else "NoPthreadsNg".toList) ++ " mode= ".toList ++
    (if b.usePthreads then ['1'] else ['0']) ++ " with ".toList ++ Nat.toDigits 10 threads ++ " threads or mpi procs.\n".toList ++
    "sum=".toList ++ Nat.toDigits 10 (total * (total - 1) / 2) ++ "\n".toList ++
    (Nat.toDigits 10 total ++ "\n".toList ++ (List.range total).flatMap fun t => Nat.toDigits 10 (t * t) ++ "\n".toList)

theorem number_digits (n : Nat) (h : n ≤ 2147483647) : number (Nat.toDigits 10 n) = .ok n := by
  unfold number Host.atoi
  rw [Host.leading_nat, if_pos (by omega)]
  refine congrArg Except.ok ?_
  unfold toSize
  omega

theorem sumOf_eq (x : Nat → BitVec 64) (n : Nat) : sumOf x n = ((List.range n).map x).sum := by
  have : ∀ (l : List Nat) (s : BitVec 64), l.foldl (fun s i => s + x i) s = s + (l.map x).sum := by
    intro l
    induction l with
    | nil => intro s; simp
    | cons i l ih => intro s; rw [List.foldl_cons, ih, List.map_cons, List.sum_cons, add_assoc]
  unfold sumOf
  rw [this, zero_add]

/-- The memory after calls of the tasks in some threads, one after the other. -/
theorem calls_serial (slots : Nat) (slot : Nat → Nat) : ∀ (calls : List (Nat × Nat)) (_ : ∀ c ∈ calls, slot c.2 < slots) (m : Mem),
    let m' := calls.foldl (fun m c => Act.run (.store c.1) (Act.run (.add c.2 (slot c.2) c.1) (Act.run (.load c.2 (slot c.2)) m))) m
    ((List.range slots).map m'.sum).sum = ((List.range slots).map m.sum).sum + (calls.map fun c => BitVec.ofNat 64 c.1).sum ∧
    ∀ t, m'.v t = if t ∈ calls.map Prod.fst then BitVec.ofNat 64 t * BitVec.ofNat 64 t else m.v t := by
  intro calls
  induction calls with
  | nil => intro _ m; simp
  | cons c calls ih =>
    intro hc m
    obtain ⟨h1, h2⟩ := ih (fun d hd => hc d (List.mem_cons_of_mem _ hd)) (Act.run (.store c.1) (Act.run (.add c.2 (slot c.2) c.1) (Act.run (.load c.2 (slot c.2)) m)))
    simp only [List.foldl_cons]
    refine ⟨?_, fun t => ?_⟩
    · rw [h1, List.map_cons, List.sum_cons, ← add_assoc]
      congr 1
      have := sum_bump m.sum slots (slot c.2) (hc c List.mem_cons_self) (BitVec.ofNat 64 c.1)
      rw [← this]
      congr 1
      refine List.map_congr_left fun i _ => ?_
      simp only [Act.run]
      by_cases h : i = slot c.2
      · subst h; simp
      · simp [h]
    · rw [h2 t]
      by_cases ht : t ∈ calls.map Prod.fst
      · rw [if_pos ht, if_pos (by rw [List.map_cons]; exact List.mem_cons_of_mem _ ht)]
      · rw [if_neg ht]
        by_cases e : t = c.1
        · subst e
          rw [if_pos (by simp)]
          simp [Act.run]
        · rw [if_neg (by rw [List.map_cons, List.mem_cons]; push_neg; exact ⟨e, ht⟩)]
          simp [Act.run, e]

theorem acts_comm {i j t u : Nat} (hij : i ≠ j) (htu : t ≠ u) {a b : Act} (ha : a ∈ [Act.load i i, Act.add i i t, Act.store t])
    (hb : b ∈ [Act.load j j, Act.add j j u, Act.store u]) (m : Mem) : a.run (b.run m) = b.run (a.run m) := by
  simp only [List.mem_cons, List.not_mem_nil, or_false] at ha hb
  have hji := hij.symm
  rcases ha with rfl | rfl | rfl <;> rcases hb with rfl | rfl | rfl <;>
    simp only [Act.run, Mem.mk.injEq, true_and, and_true, if_neg hij, if_neg hji]
  · funext x
    by_cases h : x = i
    · subst h; simp [hij]
    · simp [h]
  · funext x
    by_cases h : x = i
    · subst h; simp [hij]
    · simp [h]
  · funext x
    by_cases h : x = t
    · subst h; simp [htu]
    · simp [h]

/-- How the loop ends: `slot` is the place of the sum of a thread. -/
theorem loop_ends (debug : Bool) (b : Build) (conf : Conf) (total : Nat) (hc : Reachable b conf) (hn : 0 < conf.npthreads) :
    ∃ slots p, storageSize debug conf.mode conf.npthreads = .ok slots ∧ 0 < slots ∧ loopOf debug b conf total = .ok p ∧
      (∀ k q m', p.Steps Act.run k zero q m' → k ≤ p.size) ∧
      (∀ k q m', p.Steps Act.run k zero q m' → q ≠ .done → ∃ q' m'', q.Step Act.run m' q' m'') ∧
      (∃ k m', p.Steps Act.run k zero .done m') ∧
      ∀ k m', p.Steps Act.run k zero .done m' →
        ((List.range slots).map m'.sum).sum = ((List.range total).map fun t => BitVec.ofNat 64 t).sum ∧
        ∀ t < total, m'.v t = BitVec.ofNat 64 t * BitVec.ofNat 64 t := by
  obtain ⟨hm, hp⟩ := reachable_mode b conf hc
  -- the calls of the tasks
  have key : ∃ (slots : Nat) (slot : Nat → Nat) (p : Prog Act) (calls : List (Nat × Nat)),
      storageSize debug conf.mode conf.npthreads = .ok slots ∧ 0 < slots ∧ loopOf debug b conf total = .ok p ∧ p.RaceFree Act.run ∧
      calls.map Prod.fst = List.range total ∧ (∀ c ∈ calls, slot c.2 < slots) ∧
      ∀ m, p.serial Act.run m = calls.foldl (fun m c => Act.run (.store c.1) (Act.run (.add c.2 (slot c.2) c.1) (Act.run (.load c.2 (slot c.2)) m))) m := by
    cases hup : b.usePthreads with
    | true =>
      have hs : storageSize debug conf.mode conf.npthreads = .ok conf.npthreads := by
        rw [hm, hup]
        cases b.hasMpi <;> rfl
      have hi : ∀ t j, doTask debug conf.mode t j = [.load j j, .add j j t, .store t] := by
        intro t j
        unfold doTask
        rw [hm, hup]
        cases b.hasMpi <;> rfl
      obtain ⟨p, calls, e1, e2, e3, e4, e5, e6⟩ := loop_facts Act.run total conf.npthreads hn
        fun t j => Prog.ofList (doTask debug conf.mode t j)
      refine ⟨conf.npthreads, id, p, calls, hs, hn, ?_, ?_, e2, e3, ?_⟩
      · unfold loopOf
        rw [if_pos hup, e1]
      · refine e6 (fun c _ => ofList_raceFree _ _) ?_
        intro c _ d _ h1 h2 a ha b hb m
        rw [ofList_acts, hi] at ha hb
        exact acts_comm h2 h1 ha hb m
      · intro m
        rw [e5]
        simp only [ofList_serial, hi, List.foldl_cons, List.foldl_nil, id]
    | false =>
      have hn1 := hp hup
      have hs : storageSize debug conf.mode conf.npthreads = .ok 1 := by
        rw [hm, hup, hn1]
        cases b.hasMpi <;> simp [storageSize]
      have hi : ∀ t, doTask debug conf.mode t 0 = [.load 0 0, .add 0 0 t, .store t] := by
        intro t
        unfold doTask
        rw [hm, hup]
        cases b.hasMpi <;> simp [storageIndex]
      refine ⟨1, id, _, (List.range total).map fun t => (t, 0), hs, by omega, by unfold loopOf; rw [if_neg (by simp [hup]), if_neg (by simp [hn1])],
        ?_, by simp [List.map_map, Function.comp_def], by simp, ?_⟩
      · refine seqAll_raceFree ?_
        intro p hp
        obtain ⟨t, _, rfl⟩ := List.mem_map.1 hp
        exact ofList_raceFree _ _
      · intro m
        rw [seqAll_serial]
        simp only [List.foldl_map, ofList_serial, hi, List.foldl_cons, List.foldl_nil, id]
  obtain ⟨slots, slot, p, calls, e1, e2, e3, e4, e5, e6, e7⟩ := key
  obtain ⟨f1, f2, f3, f4⟩ := fork_join Act.run p e4 zero
  refine ⟨slots, p, e1, e2, e3, f1, f2, f4, fun k m' h => ?_⟩
  obtain ⟨g1, g2⟩ := calls_serial slots slot calls e6 zero
  rw [f3 k m' h, e7]
  refine ⟨?_, fun t ht => ?_⟩
  · rw [g1]
    have z : ((List.range slots).map zero.sum).sum = 0 := by
      refine List.sum_eq_zero ?_
      intro x hx
      obtain ⟨k, _, rfl⟩ := List.mem_map.1 hx
      rfl
    rw [z, zero_add, ← e5, List.map_map]
    rfl
  · rw [g2 t, if_pos (by rw [e5]; exact List.mem_range.2 ht)]

/-- The numbers below `n` as 64-bit numbers. -/
theorem sum_below (n : Nat) (h : n ≤ 2147483647) : (((List.range n).map fun t => BitVec.ofNat 64 t).sum).toNat = n * (n - 1) / 2 := by
  have e : ∀ l : List Nat, (l.map fun t => BitVec.ofNat 64 t).sum = BitVec.ofNat 64 l.sum := by
    intro l
    induction l with
    | nil => rfl
    | cons x l ih => rw [List.map_cons, List.sum_cons, List.sum_cons, ih, BitVec.ofNat_add]
  have hs : (List.range n).sum = n * (n - 1) / 2 := by
    rw [← Finset.sum_range_id]
    simp [Finset.sum, Finset.range_val, Multiset.range]
  rw [e, hs, BitVec.toNat_ofNat]
  refine Nat.mod_eq_of_lt (lt_of_le_of_lt (Nat.div_le_self _ _) ?_)
  calc n * (n - 1) ≤ 2147483647 * 2147483647 := Nat.mul_le_mul h (by omega)
    _ < 2 ^ 64 := by norm_num

theorem square_small (t : Nat) (h : t ≤ 2147483647) : (BitVec.ofNat 64 t * BitVec.ofNat 64 t).toNat = t * t := by
  rw [BitVec.toNat_mul, BitVec.toNat_ofNat, Nat.mod_eq_of_lt (show t < 2 ^ 64 by omega)]
  refine Nat.mod_eq_of_lt ?_
  calc t * t ≤ 2147483647 * 2147483647 := Nat.mul_le_mul h h
    _ < 2 ^ 64 := by norm_num

/-- The beginning of the program. -/
theorem start_eq (debug : Bool) (b : Build) (limit total n : Nat) (args : List (List Char)) (hn : 0 < n)
    (hb : b.usePthreads = true ∨ n = 1) (ht : total ≤ 2147483647) (hn2 : n ≤ 2147483647) (hl : total ≤ limit) (hl2 : n ≤ limit)
    (ha : args = [Nat.toDigits 10 total, Nat.toDigits 10 n] ∨ n = 1 ∧ args = [Nat.toDigits 10 total]) :
    ∃ conf slots p, Reachable b conf ∧ conf.npthreads = n ∧ start debug b limit args = .ok (some ⟨conf, slots, total, p⟩) ∧
      storageSize debug conf.mode conf.npthreads = .ok slots ∧ loopOf debug b conf total = .ok p ∧
      0 < slots ∧ (∀ k q m', p.Steps Act.run k zero q m' → k ≤ p.size) ∧
      (∀ k q m', p.Steps Act.run k zero q m' → q ≠ .done → ∃ q' m'', q.Step Act.run m' q' m'') ∧
      (∃ k m', p.Steps Act.run k zero .done m') ∧
      ∀ k m', p.Steps Act.run k zero .done m' →
        ((List.range slots).map m'.sum).sum = ((List.range total).map fun t => BitVec.ofNat 64 t).sum ∧
        ∀ t < total, m'.v t = BitVec.ofNat 64 t * BitVec.ofNat 64 t := by
  have hcon : ∃ conf, construct b n = .ok conf ∧ conf.npthreads = n := by
    unfold construct
    rcases hb with hb | hb
    · rw [if_pos hb]; exact ⟨_, rfl, rfl⟩
    · by_cases hp : b.usePthreads = true
      · rw [if_pos hp]; exact ⟨_, rfl, rfl⟩
      · rw [if_neg hp, if_neg (by simp [hb])]; exact ⟨_, rfl, rfl⟩
  obtain ⟨conf, hcon, hcn⟩ := hcon
  have hr : Reachable b conf := .construct n conf hcon
  obtain ⟨slots, p, e1, e2, e3, e4⟩ := loop_ends debug b conf total hr (by omega)
  have hsl : slots ≤ limit := by
    obtain ⟨hm, _⟩ := reachable_mode b conf hr
    have : slots ≤ n := by
      rw [hm, hcn] at e1
      cases hup : b.usePthreads <;> cases hmp : b.hasMpi <;> simp only [hup, hmp, storageSize] at e1
      · revert e1
        show (if debug = true ∧ n ≠ 1 then Res.abort else Res.ok n) = Res.ok slots → _
        split
        · intro h; cases h
        · intro h; cases h; exact le_refl _
      all_goals (cases e1; omega)
    omega
  have htot := number_digits total ht
  have hth : threadsOf args = .ok n := by
    rcases ha with rfl | ⟨rfl, rfl⟩
    · exact number_digits n hn2
    · rfl
  refine ⟨conf, slots, p, hr, hcn, ?_, e1, e3, e2, e4⟩
  have hstart : startLoop debug b limit conf total = .ok (some ⟨conf, slots, total, p⟩) := by
    unfold startLoop
    rw [e1, e3]
    show (if slots > limit ∨ total > limit then _ else _) = _
    rw [if_neg (by omega)]
    rfl
  unfold start
  rw [hth]
  simp only [bind, Except.bind, hcon, ofRes]
  rcases ha with rfl | ⟨rfl, rfl⟩ <;> simp only [htot, hstart]

/-- **C127** Without MPI: for any number of tasks and of threads that fit into an `int`, with or without the pthreads library, however
the threads are scheduled, the program ends, it never gets stuck, and prints the sum of the numbers below the number of tasks and
their squares. -/
theorem range_prints (debug : Bool) (b : Build) (limit total n : Nat) (args : List (List Char)) (hm : b.hasMpi = false) (hn : 0 < n)
    (hb : b.usePthreads = true ∨ n = 1) (ht : total ≤ 2147483647) (hn2 : n ≤ 2147483647) (hl : total ≤ limit) (hl2 : n ≤ limit)
    (ha : args = [Nat.toDigits 10 total, Nat.toDigits 10 n] ∨ n = 1 ∧ args = [Nat.toDigits 10 total]) :
    ∃ r, start debug b limit args = .ok (some r) ∧
      (∃ N, ∀ k q m', r.loop.Steps Act.run k zero q m' → k ≤ N) ∧
      (∀ k q m', r.loop.Steps Act.run k zero q m' → q ≠ .done → ∃ q' m'', q.Step Act.run m' q' m'') ∧
      (∃ k m', r.loop.Steps Act.run k zero .done m') ∧
      ∀ k m', r.loop.Steps Act.run k zero .done m' → printed b r [m'] = .ok (expected b n total) := by
  obtain ⟨conf, slots, p, hr, hcn, e0, e1, _, e2, f1, f2, f3, f4⟩ := start_eq debug b limit total n args hn hb ht hn2 hl hl2 ha
  refine ⟨_, e0, ⟨_, f1⟩, f2, f3, fun k m' h => ?_⟩
  obtain ⟨g1, g2⟩ := f4 k m' h
  obtain ⟨hmode, hp⟩ := reachable_mode b conf hr
  have hsum : (syncThreads ⟨conf, slots, total, p⟩ m').toNat = total * (total - 1) / 2 := by
    rw [← sum_below total ht, ← g1]
    unfold syncThreads
    cases hup : b.usePthreads with
    | true =>
      rw [if_pos (by simp only [hmode, hup, hm]; decide), sumOf_eq]
    | false =>
      rw [if_neg (by simp only [hmode, hup, hm]; decide)]
      have : slots = 1 := by
        rw [hmode, hup, hm, hp hup] at e1
        simpa [storageSize] using e1.symm
      subst this
      simp
  have hv : ((List.range total).map m'.v).flatMap (fun y => digits y.toNat ++ "\n".toList) =
      (List.range total).flatMap fun t => Nat.toDigits 10 (t * t) ++ "\n".toList := by
    rw [List.flatMap_map]
    refine List.flatMap_congr ?_
    intro t htt
    have htl := List.mem_range.1 htt
    rw [g2 t htl, square_small t (by omega)]
    rfl
  have hsync : sync ⟨conf, slots, total, p⟩ [m'] =
      .ok [(syncThreads ⟨conf, slots, total, p⟩ m', (List.range total).map m'.v)] := by
    unfold sync
    rw [if_neg (by simp only [hmode, hm]; cases b.usePthreads <;> decide)]
    rfl
  have hmd : digits conf.mode = if b.usePthreads then ['1'] else ['0'] := by
    rw [hmode, hm]
    cases b.usePthreads <;> rfl
  unfold printed
  rw [hsync]
  show Except.ok (text b _ _) = _
  refine congrArg Except.ok ?_
  unfold text expected
  simp only [hsum, hv, hmd, hcn, List.length_map, List.length_range]
  rfl

/-- **C127, violated part** With MPI, on any number of processes and whatever their threads do, the sum of a 64-bit number is written
into a 32-bit variable. -/
theorem range_mpi_fails (b : Build) (r : Run) (hr : Reachable b r.conf) (hm : b.hasMpi = true) (world : List Mem) :
    printed b r world = ubOut := by
  obtain ⟨hmode, _⟩ := reachable_mode b r.conf hr
  unfold printed sync
  rw [if_pos (by simp only [hmode, hm]; cases b.usePthreads <;> decide), Collective.allReduceOne_fails (by omega)]
  rfl

/-- **C127, violated part** With MPI every process runs the whole loop, so that the squares are multiplied by the number of processes. -/
theorem range_mpi_squares_fails (debug : Bool) (b : Build) (limit total n : Nat) (args : List (List Char)) (hn : 0 < n)
    (hb : b.usePthreads = true ∨ n = 1) (ht : total ≤ 2147483647) (hn2 : n ≤ 2147483647) (hl : total ≤ limit) (hl2 : n ≤ limit)
    (ha : args = [Nat.toDigits 10 total, Nat.toDigits 10 n] ∨ n = 1 ∧ args = [Nat.toDigits 10 total])
    (world : List Mem) (hw : world ≠ []) :
    ∃ r, start debug b limit args = .ok (some r) ∧
      ((∀ m ∈ world, ∃ k, r.loop.Steps Act.run k zero .done m) →
        ∃ w, Collective.allReduce (Collective.Op.signed .sum) (world.map fun m => (List.range r.total).map m.v) =
            .ok (List.replicate world.length w) ∧ w.length = total ∧
          ∀ t < total, w[t]? = some (BitVec.ofNat 64 (world.length * (t * t)))) := by
  obtain ⟨conf, slots, p, hr, hcn, e0, e1, _, e2, f1, f2, f3, f4⟩ := start_eq debug b limit total n args hn hb ht hn2 hl hl2 ha
  refine ⟨_, e0, fun hends => ?_⟩
  obtain ⟨w, h1, h2, h3⟩ := Collective.allReduce_sum (α := BitVec 64) (n := total)
    (world := world.map fun m => (List.range total).map m.v) (by simpa using hw) (by simp) (by omega)
  refine ⟨w, by rw [← List.length_map (as := world) (f := fun m => (List.range total).map m.v)]; exact h1, h2, fun t htt => ?_⟩
  rw [h3 t htt, List.map_map]
  have : ∀ l : List Mem, (∀ m ∈ l, ∃ k, p.Steps Act.run k zero .done m) →
      (l.map ((fun v : List (BitVec 64) => v.getD t 0) ∘ fun m => (List.range total).map m.v)).sum = BitVec.ofNat 64 (l.length * (t * t)) := by
    intro l
    induction l with
    | nil => intro _; simp
    | cons m l ih =>
      intro hl
      obtain ⟨k, hk⟩ := hl m List.mem_cons_self
      rw [List.map_cons, List.sum_cons, ih (fun x hx => hl x (List.mem_cons_of_mem _ hx)), List.length_cons, Nat.succ_mul,
        Nat.add_comm, BitVec.ofNat_add]
      congr 1
      simp [htt, (f4 k m hk).2 t htt, BitVec.ofNat_mul]
  rw [this world hends]

/-- **C127, violated part** A number of threads of zero divides by zero. -/
theorem range_zero_fails (debug : Bool) (m : Bool) (limit total : Nat) (ht : total ≤ 2147483647) (hl : total ≤ limit) :
    start debug ⟨true, m⟩ limit [Nat.toDigits 10 total, ['0']] = ubOut := by
  have e : loopOf debug ⟨true, m⟩ ⟨0 ||| 1 ||| (if m then 2 else 0), 0⟩ total = ubOut := by
    unfold loopOf loopCreate
    rw [if_pos rfl, pthreadsNg_zero_threads]
    rfl
  have h1 : threadsOf [Nat.toDigits 10 total, ['0']] = .ok 0 := number_digits 0 (by omega)
  have h2 : storageSize debug (0 ||| 1 ||| (if m then 2 else 0)) 0 = .ok 0 := by cases m <;> rfl
  unfold start
  rw [h1]
  simp only [bind, Except.bind, construct, if_true, ofRes, number_digits total ht]
  unfold startLoop
  rw [h2]
  show (if 0 > limit ∨ total > limit then _ else _) = _
  rw [if_neg (by omega), e]
  rfl

/-- The hypotheses are met. -/
example : ∃ r, start true ⟨true, false⟩ 1000 ["7".toList, "3".toList] = .ok (some r) ∧
    (∃ k m', r.loop.Steps Act.run k zero .done m') ∧
    ∀ k m', r.loop.Steps Act.run k zero .done m' → printed ⟨true, false⟩ r [m'] = .ok
      "Using PthreadsNg mode= 1 with 3 threads or mpi procs.\nsum=21\n7\n0\n1\n4\n9\n16\n25\n36\n".toList := by
  obtain ⟨r, h1, _, _, h4, h5⟩ := range_prints true ⟨true, false⟩ 1000 7 3 ["7".toList, "3".toList] rfl (by omega) (Or.inl rfl) (by omega)
    (by omega) (by omega) (by omega) (Or.inl (by decide))
  exact ⟨r, h1, h4, fun k m' h => by rw [h5 k m' h]; decide +kernel⟩

end Verif.Whole.Range
