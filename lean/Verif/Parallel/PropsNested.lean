import Verif.Parallel.ModelNested
import Mathlib.Algebra.BigOperators.Group.List.Basic

/-!
# C121: parallel loops within parallel loops
-/

namespace Verif.Parallel

variable {Act Mem : Type}

/-! ## Specification -/

/-- What comes out if the threads run one after the other. -/
def Prog.serial (run : Act → Mem → Mem) : Prog Act → Mem → Mem
  | .done, m => m
  | .act a n, m => n.serial run (run a m)
  | .par p q n, m => n.serial run (q.serial run (p.serial run m))

/-- All actions. -/
def Prog.acts : Prog Act → List Act
  | .done => []
  | .act a n => a :: n.acts
  | .par p q n => p.acts ++ q.acts ++ n.acts

/-- Whatever one does commutes with whatever the other does. -/
def Apart (run : Act → Mem → Mem) (p q : Prog Act) : Prop := ∀ a ∈ p.acts, ∀ b ∈ q.acts, ∀ m, run a (run b m) = run b (run a m)

/-- Threads that run at the same time do not disturb each other. -/
def Prog.RaceFree (run : Act → Mem → Mem) : Prog Act → Prop
  | .done => True
  | .act _ n => n.RaceFree run
  | .par p q n => p.RaceFree run ∧ q.RaceFree run ∧ n.RaceFree run ∧ Apart run p q

/-! ## Any schedule -/

def Prog.size : Prog Act → Nat
  | .done => 0
  | .act _ n => n.size + 1
  | .par p q n => p.size + q.size + n.size + 1

theorem serial_comm {run : Act → Mem → Mem} {a : Act} : ∀ {p : Prog Act}, (∀ b ∈ p.acts, ∀ m, run a (run b m) = run b (run a m)) →
    ∀ m, p.serial run (run a m) = run a (p.serial run m) := by
  intro p
  induction p with
  | done => intro _ m; rfl
  | act b n ih =>
    intro h m
    simp only [Prog.serial]
    rw [← h b (by simp [Prog.acts]) m, ih fun c hc => h c (by simp [Prog.acts, hc])]
  | par p q n ihp ihq ihn =>
    intro h m
    simp only [Prog.serial]
    rw [ihp fun c hc => h c (by simp [Prog.acts, hc]), ihq fun c hc => h c (by simp [Prog.acts, hc]),
      ihn fun c hc => h c (by simp [Prog.acts, hc])]

/-- What a step is: an action of the program, or nothing. -/
theorem step_kind {run : Act → Mem → Mem} {p p' : Prog Act} {m m' : Mem} (h : p.Step run m p' m') (hr : p.RaceFree run) :
    p'.RaceFree run ∧ p'.acts ⊆ p.acts ∧ p.size = p'.size + 1 ∧
    ((m' = m ∧ ∀ x, p'.serial run x = p.serial run x) ∨
      ∃ a ∈ p.acts, m' = run a m ∧ ∀ x, p'.serial run (run a x) = p.serial run x) := by
  induction h with
  | act a n m =>
    exact ⟨hr, by simp [Prog.acts], rfl, .inr ⟨a, by simp [Prog.acts], rfl, fun x => rfl⟩⟩
  | left p q n m p' m' _ ih =>
    obtain ⟨r1, r2, r3, r4⟩ := hr
    obtain ⟨h1, h2, h3, h4⟩ := ih r1
    refine ⟨⟨h1, r2, r3, fun a ha => r4 a (h2 ha)⟩, ?_, by simp only [Prog.size]; omega, ?_⟩
    · intro a ha
      simp only [Prog.acts, List.mem_append] at ha ⊢
      rcases ha with (ha | ha) | ha
      · exact .inl (.inl (h2 ha))
      · exact .inl (.inr ha)
      · exact .inr ha
    · rcases h4 with ⟨e, h4⟩ | ⟨a, ha, e, h4⟩
      · exact .inl ⟨e, fun x => by simp only [Prog.serial, h4]⟩
      · exact .inr ⟨a, by simp [Prog.acts, ha], e, fun x => by simp only [Prog.serial, h4]⟩
  | right p q n m q' m' _ ih =>
    obtain ⟨r1, r2, r3, r4⟩ := hr
    obtain ⟨h1, h2, h3, h4⟩ := ih r2
    refine ⟨⟨r1, h1, r3, fun a ha b hb => r4 a ha b (h2 hb)⟩, ?_, by simp only [Prog.size]; omega, ?_⟩
    · intro a ha
      simp only [Prog.acts, List.mem_append] at ha ⊢
      rcases ha with (ha | ha) | ha
      · exact .inl (.inl ha)
      · exact .inl (.inr (h2 ha))
      · exact .inr ha
    · rcases h4 with ⟨e, h4⟩ | ⟨a, ha, e, h4⟩
      · exact .inl ⟨e, fun x => by simp only [Prog.serial, h4]⟩
      · refine .inr ⟨a, by simp [Prog.acts, ha], e, fun x => ?_⟩
        simp only [Prog.serial]
        rw [serial_comm (fun b hb m => (r4 b hb a ha m).symm), h4]
  | join n m => exact ⟨hr.2.2.1, by simp [Prog.acts], by simp only [Prog.size]; omega, .inl ⟨rfl, fun x => rfl⟩⟩

theorem steps_serial {run : Act → Mem → Mem} {k : Nat} {p q : Prog Act} {m m' : Mem} (h : p.Steps run k m q m') (hr : p.RaceFree run) :
    q.serial run m' = p.serial run m ∧ p.size = q.size + k ∧ q.RaceFree run := by
  induction h with
  | refl => exact ⟨rfl, by omega, hr⟩
  | head k p m p' m' q m'' h _ ih =>
    obtain ⟨h1, _, h3, h4⟩ := step_kind h hr
    obtain ⟨i1, i2, i3⟩ := ih h1
    refine ⟨?_, by omega, i3⟩
    rw [i1]
    rcases h4 with ⟨e, h4⟩ | ⟨a, _, e, h4⟩
    · rw [e, h4]
    · rw [e, h4]

theorem size_pos {p : Prog Act} (h : p.size = 0) : p = .done := by
  cases p with
  | done => rfl
  | act a n => simp [Prog.size] at h
  | par p q n => simp [Prog.size] at h

theorem can_step (run : Act → Mem → Mem) (p : Prog Act) (h : p ≠ .done) (m : Mem) : ∃ p' m', p.Step run m p' m' := by
  induction p with
  | done => exact absurd rfl h
  | act a n _ => exact ⟨_, _, .act a n m⟩
  | par p q n ihp ihq _ =>
    by_cases hp : p = .done
    · by_cases hq : q = .done
      · subst hp hq
        exact ⟨_, _, .join n m⟩
      · obtain ⟨q', m', e⟩ := ihq hq
        exact ⟨_, _, .right p q n m q' m' e⟩
    · obtain ⟨p', m', e⟩ := ihp hp
      exact ⟨_, _, .left p q n m p' m' e⟩

/-- **C121** Threads at any depth that do not disturb each other: every schedule ends, none gets stuck, and whatever the schedule the
memory is in the end as if the threads had run one after the other. -/
theorem fork_join (run : Act → Mem → Mem) (p : Prog Act) (hr : p.RaceFree run) (m : Mem) :
    (∀ k q m', p.Steps run k m q m' → k ≤ p.size) ∧
    (∀ k q m', p.Steps run k m q m' → q ≠ .done → ∃ q' m'', q.Step run m' q' m'') ∧
    (∀ k m', p.Steps run k m .done m' → m' = p.serial run m) ∧ ∃ k m', p.Steps run k m .done m' := by
  refine ⟨fun k q m' h => ?_, fun k q m' _ hq => can_step run q hq m', fun k m' h => ?_, ?_⟩
  · have := (steps_serial h hr).2.1
    omega
  · exact (steps_serial h hr).1
  · have : ∀ (n : Nat) (p : Prog Act), p.size = n → p.RaceFree run → ∀ m, ∃ k m', p.Steps run k m .done m' := by
      intro n
      induction n with
      | zero =>
        intro p hp _ m
        rw [size_pos hp]
        exact ⟨0, m, .refl _ _⟩
      | succ n ih =>
        intro p hp hr m
        obtain ⟨p', m1, e⟩ := can_step run p (by rintro rfl; simp [Prog.size] at hp) m
        obtain ⟨r1, _, r3, _⟩ := step_kind e hr
        obtain ⟨k, m2, h⟩ := ih p' (by omega) r1 m1
        exact ⟨k + 1, m2, .head k p m p' m1 _ _ e h⟩
    exact this _ p rfl hr m

/-! ## Loops -/

theorem seq_serial (run : Act → Mem → Mem) (p q : Prog Act) (m : Mem) : (p.seq q).serial run m = q.serial run (p.serial run m) := by
  induction p generalizing m with
  | done => rfl
  | act a n ih => simp only [Prog.seq, Prog.serial, ih]
  | par p q n _ _ ih => simp only [Prog.seq, Prog.serial, ih]

theorem seq_acts (p q : Prog Act) : (p.seq q).acts = p.acts ++ q.acts := by
  induction p with
  | done => rfl
  | act a n ih => simp [Prog.seq, Prog.acts, ih]
  | par p q n _ _ ih => simp [Prog.seq, Prog.acts, ih]

theorem seq_raceFree {run : Act → Mem → Mem} {p q : Prog Act} (hp : p.RaceFree run) (hq : q.RaceFree run) : (p.seq q).RaceFree run := by
  induction p with
  | done => exact hq
  | act a n ih => exact ih hp
  | par p q n _ _ ih => exact ⟨hp.1, hp.2.1, ih hp.2.2.1, hp.2.2.2⟩

theorem seqAll_raceFree {run : Act → Mem → Mem} {ps : List (Prog Act)} (h : ∀ p ∈ ps, p.RaceFree run) : (Prog.seqAll ps).RaceFree run := by
  induction ps with
  | nil => trivial
  | cons p ps ih => exact seq_raceFree (h p List.mem_cons_self) (ih fun q hq => h q (List.mem_cons_of_mem _ hq))

theorem seqAll_acts {ps : List (Prog Act)} {a : Act} : a ∈ (Prog.seqAll ps).acts ↔ ∃ p ∈ ps, a ∈ p.acts := by
  induction ps with
  | nil => simp [Prog.seqAll, Prog.acts]
  | cons p ps ih => simp [Prog.seqAll, seq_acts, ih]

theorem seqAll_serial (run : Act → Mem → Mem) (ps : List (Prog Act)) (m : Mem) :
    (Prog.seqAll ps).serial run m = ps.foldl (fun m p => p.serial run m) m := by
  induction ps generalizing m with
  | nil => rfl
  | cons p ps ih => rw [Prog.seqAll, seq_serial, ih]; rfl

theorem forkAll_acts {ps : List (Prog Act)} {a : Act} : a ∈ (Prog.forkAll ps).acts ↔ ∃ p ∈ ps, a ∈ p.acts := by
  induction ps with
  | nil => simp [Prog.forkAll, Prog.acts]
  | cons p ps ih => simp [Prog.forkAll, Prog.acts, ih]

theorem forkAll_raceFree {run : Act → Mem → Mem} {ps : List (Prog Act)} (h : ∀ p ∈ ps, p.RaceFree run)
    (h2 : ps.Pairwise (Apart run)) : (Prog.forkAll ps).RaceFree run := by
  induction ps with
  | nil => trivial
  | cons p ps ih =>
    obtain ⟨a1, a2⟩ := List.pairwise_cons.1 h2
    refine ⟨h p List.mem_cons_self, ih (fun q hq => h q (List.mem_cons_of_mem _ hq)) a2, trivial, ?_⟩
    intro a ha b hb
    obtain ⟨q, hq, hb⟩ := forkAll_acts.1 hb
    exact a1 q hq a ha b hb

theorem forkAll_serial (run : Act → Mem → Mem) (ps : List (Prog Act)) (m : Mem) :
    (Prog.forkAll ps).serial run m = ps.foldl (fun m p => p.serial run m) m := by
  induction ps generalizing m with
  | nil => rfl
  | cons p ps ih => rw [Prog.forkAll, Prog.serial, ih]; rfl

/-- The program of a job. -/
def jobProg (job : Job Unit) (body : Nat → Nat → Prog Act) : Prog Act :=
  Prog.forkAll ((List.range job.nth).map fun j => Prog.seqAll ((threadTasks job j).map fun t => body t j))

/-- A job: its threads do not disturb each other if its tasks do not, and one after the other means thread by thread. -/
theorem job_facts (run : Act → Mem → Mem) (job : Job Unit) (ntasks : Nat)
    (h5 : ((List.range job.nth).flatMap (threadTasks job)).Perm (List.range' 0 ntasks)) (body : Nat → Nat → Prog Act) :
    ((allCalls job).map Prod.fst).Perm (List.range ntasks) ∧ (∀ c ∈ allCalls job, c.2 < job.nth) ∧
      (∀ a, a ∈ (jobProg job body).acts ↔ ∃ c ∈ allCalls job, a ∈ (body c.1 c.2).acts) ∧
      (∀ m, (jobProg job body).serial run m = (allCalls job).foldl (fun m c => (body c.1 c.2).serial run m) m) ∧
      ((∀ c ∈ allCalls job, (body c.1 c.2).RaceFree run) →
        (∀ c ∈ allCalls job, ∀ d ∈ allCalls job, c.1 ≠ d.1 → c.2 ≠ d.2 → Apart run (body c.1 c.2) (body d.1 d.2)) →
          (jobProg job body).RaceFree run) := by
  unfold jobProg
  refine ⟨?_, ?_, ?_, ?_, ?_⟩
  · rw [allCalls_map_fst, List.range_eq_range' (n := ntasks)]
    exact h5
  · intro c hc
    obtain ⟨j, hj, hc⟩ := List.mem_flatMap.1 hc
    obtain ⟨t, _, rfl⟩ := List.mem_map.1 hc
    exact List.mem_range.1 hj
  · intro a
    rw [forkAll_acts]
    constructor
    · rintro ⟨p, hp, ha⟩
      obtain ⟨j, hj, rfl⟩ := List.mem_map.1 hp
      obtain ⟨q, hq, ha⟩ := seqAll_acts.1 ha
      obtain ⟨t, ht, rfl⟩ := List.mem_map.1 hq
      exact ⟨(t, j), List.mem_flatMap.2 ⟨j, hj, List.mem_map.2 ⟨t, ht, rfl⟩⟩, ha⟩
    · rintro ⟨c, hc, ha⟩
      obtain ⟨j, hj, hc⟩ := List.mem_flatMap.1 hc
      obtain ⟨t, ht, rfl⟩ := List.mem_map.1 hc
      exact ⟨_, List.mem_map.2 ⟨j, hj, rfl⟩, seqAll_acts.2 ⟨_, List.mem_map.2 ⟨t, ht, rfl⟩, ha⟩⟩
  · intro m
    rw [forkAll_serial]
    unfold allCalls
    generalize List.range job.nth = js
    induction js generalizing m with
    | nil => rfl
    | cons j js ih =>
      rw [List.map_cons, List.foldl_cons, ih, List.flatMap_cons, List.foldl_append, seqAll_serial, List.foldl_map, List.foldl_map]
  · intro hr ha
    refine forkAll_raceFree ?_ ?_
    · intro p hp
      obtain ⟨j, hj, rfl⟩ := List.mem_map.1 hp
      refine seqAll_raceFree fun q hq => ?_
      obtain ⟨t, ht, rfl⟩ := List.mem_map.1 hq
      exact hr (t, j) (List.mem_flatMap.2 ⟨j, hj, List.mem_map.2 ⟨t, ht, rfl⟩⟩)
    · rw [List.pairwise_map]
      refine List.Pairwise.imp_of_mem ?_ (List.pairwise_lt_range (n := job.nth))
      intro j j' hj hj' hlt a ha' b hb'
      obtain ⟨q, hq, ha'⟩ := seqAll_acts.1 ha'
      obtain ⟨t, ht, rfl⟩ := List.mem_map.1 hq
      obtain ⟨q, hq, hb'⟩ := seqAll_acts.1 hb'
      obtain ⟨t', ht', rfl⟩ := List.mem_map.1 hq
      have m1 : (t, j) ∈ allCalls job := List.mem_flatMap.2 ⟨j, hj, List.mem_map.2 ⟨t, ht, rfl⟩⟩
      have m2 : (t', j') ∈ allCalls job := List.mem_flatMap.2 ⟨j', hj', List.mem_map.2 ⟨t', ht', rfl⟩⟩
      refine ha (t, j) m1 (t', j') m2 ?_ (by show j ≠ j'; omega) a ha' b hb'
      intro e
      have hnd : ((allCalls job).map Prod.fst).Nodup := by
        rw [allCalls_map_fst]
        exact h5.nodup_iff.2 List.nodup_range'
      have := inj_of_nodup_map Prod.fst _ hnd _ _ m1 m2 e
      simp only [Prod.mk.injEq] at this
      omega

/-- A loop: its threads do not disturb each other if its tasks do not, and one after the other means thread by thread. -/
theorem loop_facts (run : Act → Mem → Mem) (ntasks nthreads : Nat) (hn : 0 < nthreads) (body : Nat → Nat → Prog Act) :
    ∃ (p : Prog Act) (calls : List (Nat × Nat)), loopCreate ntasks nthreads body = some p ∧
      calls.map Prod.fst = List.range ntasks ∧ (∀ c ∈ calls, c.2 < nthreads) ∧
      (∀ a, a ∈ p.acts ↔ ∃ c ∈ calls, a ∈ (body c.1 c.2).acts) ∧
      (∀ m, p.serial run m = calls.foldl (fun m c => (body c.1 c.2).serial run m) m) ∧
      ((∀ c ∈ calls, (body c.1 c.2).RaceFree run) →
        (∀ c ∈ calls, ∀ d ∈ calls, c.1 ≠ d.1 → c.2 ≠ d.2 → Apart run (body c.1 c.2) (body d.1 d.2)) → p.RaceFree run) := by
  obtain ⟨job, h1, _, h3, h4, h5⟩ := pthreadsNg_all ntasks nthreads hn fun _ _ => ([] : List Unit)
  have hnth : job.nth ≤ nthreads := by
    unfold pthreadsNg at h1
    obtain ⟨lb, _, rfl⟩ := Option.map_eq_some_iff.1 h1
    exact Nat.min_le_left _ _
  obtain ⟨_, f2, f3, f4, f5⟩ := job_facts run job ntasks (by rw [h5]) body
  refine ⟨jobProg job body, allCalls job, by unfold loopCreate jobProg; rw [h1]; rfl, ?_, fun c hc => lt_of_lt_of_le (f2 c hc) hnth, f3, f4, f5⟩
  rw [allCalls_map_fst, h5, List.range_eq_range']

theorem ofList_serial (run : Act → Mem → Mem) (l : List Act) (m : Mem) : (Prog.ofList l).serial run m = l.foldl (fun m a => run a m) m := by
  induction l generalizing m with
  | nil => rfl
  | cons a l ih => exact ih _

theorem ofList_acts (l : List Act) : (Prog.ofList l).acts = l := by
  induction l with
  | nil => rfl
  | cons a l ih => simp [Prog.ofList, Prog.acts, ih]

theorem ofList_raceFree (run : Act → Mem → Mem) (l : List Act) : (Prog.ofList l).RaceFree run := by
  induction l with
  | nil => trivial
  | cons a l ih => exact ih

theorem foldl_fst {β γ : Type} (l : List (Nat × γ)) (f : β → Nat → β) (m : β) : l.foldl (fun m c => f m c.1) m = (l.map Prod.fst).foldl f m := by
  rw [List.foldl_map]

/-- **C121** A parallel loop each task of which is a parallel loop, with any numbers of tasks and threads: if the tasks of the inner loops
do not disturb each other, then every schedule ends, none gets stuck, and the memory is in the end as after two loops without threads. -/
theorem nested_equals_serial (run : Act → Mem → Mem) (threadsOuter tasksOuter threadsInner tasksInner : Nat) (h1 : 0 < threadsOuter)
    (h2 : 0 < threadsInner) (body : Nat → Nat → List Act)
    (hc : ∀ t u t' u', t < tasksOuter → t' < tasksOuter → u < tasksInner → u' < tasksInner → (t, u) ≠ (t', u') →
      ∀ a ∈ body t u, ∀ b ∈ body t' u', ∀ m, run a (run b m) = run b (run a m)) :
    ∃ (inner : Nat → Prog Act) (p : Prog Act),
      (∀ t, loopCreate tasksInner threadsInner (fun u _ => Prog.ofList (body t u)) = some (inner t)) ∧
      loopCreate tasksOuter threadsOuter (fun t _ => inner t) = some p ∧
      ∀ m, (∃ N, ∀ k q m', p.Steps run k m q m' → k ≤ N) ∧
        (∀ k q m', p.Steps run k m q m' → q ≠ .done → ∃ q' m'', q.Step run m' q' m'') ∧
        ∀ k m', p.Steps run k m .done m' → m' = (List.range tasksOuter).foldl (fun m t =>
          (List.range tasksInner).foldl (fun m u => (body t u).foldl (fun m a => run a m) m) m) m := by
  have hin : ∀ t, ∃ q : Prog Act, loopCreate tasksInner threadsInner (fun u _ => Prog.ofList (body t u)) = some q ∧
      (∀ a, a ∈ q.acts → ∃ u < tasksInner, a ∈ body t u) ∧ (t < tasksOuter → q.RaceFree run) ∧
      ∀ m, q.serial run m = (List.range tasksInner).foldl (fun m u => (body t u).foldl (fun m a => run a m) m) m := by
    intro t
    obtain ⟨q, calls, e1, e2, _, e4, e5, e6⟩ := loop_facts run tasksInner threadsInner h2 fun u _ => Prog.ofList (body t u)
    have hlt : ∀ c ∈ calls, c.1 < tasksInner := by
      intro c hc
      have := List.mem_map_of_mem (f := Prod.fst) hc
      rw [e2] at this
      exact List.mem_range.1 this
    refine ⟨q, e1, ?_, ?_, ?_⟩
    · intro a ha
      obtain ⟨c, hc, ha⟩ := (e4 a).1 ha
      rw [ofList_acts] at ha
      exact ⟨c.1, hlt c hc, ha⟩
    · intro ht
      refine e6 (fun c _ => ofList_raceFree run _) ?_
      intro c hc' d hd hne _ a ha b hb
      rw [ofList_acts] at ha hb
      exact hc t c.1 t d.1 ht ht (hlt c hc') (hlt d hd) (by simp [hne]) a ha b hb
    · intro m
      rw [e5, ← e2, ← foldl_fst]
      simp only [ofList_serial]
  choose inner i1 i2 i3 i4 using hin
  obtain ⟨p, calls, e1, e2, _, e4, e5, e6⟩ := loop_facts run tasksOuter threadsOuter h1 fun t _ => inner t
  have hlt : ∀ c ∈ calls, c.1 < tasksOuter := by
    intro c hc
    have := List.mem_map_of_mem (f := Prod.fst) hc
    rw [e2] at this
    exact List.mem_range.1 this
  have hr : p.RaceFree run := by
    refine e6 (fun c hc' => i3 _ (hlt c hc')) ?_
    intro c hc' d hd hne _ a ha b hb
    obtain ⟨u, hu, ha⟩ := i2 _ a ha
    obtain ⟨u', hu', hb⟩ := i2 _ b hb
    exact hc c.1 u d.1 u' (hlt c hc') (hlt d hd) hu hu' (by simp [hne]) a ha b hb
  refine ⟨inner, p, i1, e1, fun m => ?_⟩
  obtain ⟨f1, f2, f3, _⟩ := fork_join run p hr m
  refine ⟨⟨p.size, f1⟩, f2, fun k m' h => ?_⟩
  rw [f3 k m' h, e5, ← e2, ← foldl_fst]
  simp only [i4]

/-! ## The program -/

/-- The action is one of task `t` in thread `j`. -/
def SumAct.On (t j : Nat) : SumAct → Prop
  | .load t' _ _ => t' = t
  | .store t' _ _ _ => t' = t
  | .sync t' _ => t' = t
  | .read j' i => j' = j ∧ i = j
  | .result t' j' i => t' = t ∧ j' = j ∧ i = j

/-- Such an action uses the sums of the inner loop of the task and the sum of the thread, and changes only those. -/
theorem on_form {t j : Nat} {a : SumAct} (ha : a.On t j) : ∃ (f : (Nat → Cell) → Nat → Cell) (g : (Nat → Cell) → Cell → Cell),
    ∀ s, a.run s = ⟨fun j' => if j' = j then g (s.inner t) (s.outer j) else s.outer j',
      fun t' => if t' = t then f (s.inner t) else s.inner t'⟩ := by
  have outer_same : ∀ s : Sums, s.outer = fun j' => if j' = j then s.outer j else s.outer j' := by
    intro s
    funext x
    by_cases h : x = j
    · subst h; simp
    · simp [h]
  have inner_same : ∀ s : Sums, s.inner = fun t' => if t' = t then s.inner t else s.inner t' := by
    intro s
    funext x
    by_cases h : x = t
    · subst h; simp
    · simp [h]
  cases a with
  | load t' k i =>
    have : t' = t := ha
    subst this
    refine ⟨fun x k' => if k' = k then ⟨(x k).x, (x i).x⟩ else x k', fun _ c => c, fun s => ?_⟩
    simp only [SumAct.run, Sums.mk.injEq]
    refine ⟨outer_same s, ?_⟩
    funext x y
    by_cases h : x = t'
    · subst h; simp
    · simp [h]
  | store t' k i v =>
    have : t' = t := ha
    subst this
    refine ⟨fun x k' => if k' = i then ⟨(x k).reg + v, (x i).reg⟩ else x k', fun _ c => c, fun s => ?_⟩
    simp only [SumAct.run, Sums.mk.injEq]
    refine ⟨outer_same s, ?_⟩
    funext x y
    by_cases h : x = t'
    · subst h; simp
    · simp [h]
  | sync t' n =>
    have : t' = t := ha
    subst this
    refine ⟨fun x k' => if k' = 0 then ⟨syncSum (fun i => (x i).x) n, (x 0).reg⟩ else x k', fun _ c => c, fun s => ?_⟩
    simp only [SumAct.run, Sums.mk.injEq]
    refine ⟨outer_same s, ?_⟩
    funext x y
    by_cases h : x = t'
    · subst h; simp
    · simp [h]
  | read j' i =>
    obtain ⟨h1, h2⟩ : j' = j ∧ i = j := ha
    subst h1 h2
    refine ⟨id, fun _ c => ⟨c.x, c.x⟩, fun s => ?_⟩
    simp only [SumAct.run, Sums.mk.injEq]
    exact ⟨trivial, inner_same s⟩
  | result t' j' i =>
    obtain ⟨h1, h2, h3⟩ : t' = t ∧ j' = j ∧ i = j := ha
    subst h1 h2 h3
    refine ⟨id, fun x c => ⟨c.reg + (((x 0).x).setWidth 32).signExtend 64, c.reg⟩, fun s => ?_⟩
    simp only [SumAct.run, Sums.mk.injEq]
    exact ⟨trivial, inner_same s⟩

theorem on_comm {t j t' j' : Nat} (ht : t ≠ t') (hj : j ≠ j') {a b : SumAct} (ha : a.On t j) (hb : b.On t' j') (s : Sums) :
    a.run (b.run s) = b.run (a.run s) := by
  obtain ⟨f, g, h⟩ := on_form ha
  obtain ⟨f', g', h'⟩ := on_form hb
  rw [h (b.run s), h' (a.run s), h s, h' s]
  simp only [Sums.mk.injEq, if_neg ht, if_neg hj, if_neg ht.symm, if_neg hj.symm]
  constructor
  · funext x
    by_cases h1 : x = j
    · subst h1; simp [hj]
    · simp [h1]
  · funext x
    by_cases h1 : x = t
    · subst h1; simp [ht]
    · simp [h1]

theorem syncSum_eq (x : Nat → BitVec 64) (n : Nat) (hn : 0 < n) : syncSum x n = ((List.range n).map x).sum := by
  have : ∀ (l : List Nat) (s : BitVec 64), l.foldl (fun s i => s + x i) s = s + (l.map x).sum := by
    intro l
    induction l with
    | nil => intro s; simp
    | cons i l ih => intro s; rw [List.foldl_cons, ih, List.map_cons, List.sum_cons, add_assoc]
  unfold syncSum
  rw [this, List.range_eq_range']
  obtain ⟨k, rfl⟩ : ∃ k, n = k + 1 := ⟨n - 1, by omega⟩
  rw [List.range'_succ]
  simp

/-- Something added to one of the sums. -/
theorem sum_bump (x : Nat → BitVec 64) (n k : Nat) (hk : k < n) (v : BitVec 64) :
    ((List.range n).map fun i => if i = k then x k + v else x i).sum = ((List.range n).map x).sum + v := by
  have := sum_addTo (k, v) x n hk
  simp only [addTo] at this
  rw [← this]
  congr 1
  refine List.map_congr_left fun i _ => ?_
  by_cases h : i = k
  · subst h; simp [addTo]
  · simp [h, addTo]

/-- The sum that the inner loop of a task finds. -/
def innerSum (tasksInner t : Nat) : BitVec 64 :=
  ((List.range tasksInner).map fun u => BitVec.ofNat 64 u + BitVec.ofNat 64 (t * tasksInner)).sum

theorem adds_serial (t n : Nat) (val : Nat → BitVec 64) (calls : List (Nat × Nat)) (hc : ∀ c ∈ calls, c.2 < n) (s : Sums) :
    let s' := calls.foldl (fun s c => SumAct.run (.store t c.2 c.2 (val c.1)) (SumAct.run (.load t c.2 c.2) s)) s
    s'.outer = s.outer ∧ (∀ t', t' ≠ t → s'.inner t' = s.inner t') ∧
      ((List.range n).map fun i => (s'.inner t i).x).sum = ((List.range n).map fun i => (s.inner t i).x).sum + (calls.map fun c => val c.1).sum := by
  induction calls generalizing s with
  | nil => simp
  | cons c calls ih =>
    obtain ⟨h1, h2, h3⟩ := ih (fun d hd => hc d (List.mem_cons_of_mem _ hd))
      (SumAct.run (.store t c.2 c.2 (val c.1)) (SumAct.run (.load t c.2 c.2) s))
    simp only [List.foldl_cons]
    refine ⟨h1, fun t' ht' => ?_, ?_⟩
    · rw [h2 t' ht']
      simp only [SumAct.run]
      funext k
      simp [ht']
    · rw [h3, List.map_cons, List.sum_cons, ← add_assoc]
      congr 1
      have := sum_bump (fun i => (s.inner t i).x) n c.2 (hc c List.mem_cons_self) (val c.1)
      rw [← this]
      congr 1
      refine List.map_congr_left fun i _ => ?_
      simp only [SumAct.run, true_and]
      by_cases h : i = c.2
      · subst h; simp
      · simp [h]

theorem inner_comm (t : Nat) {k l : Nat} (h : k ≠ l) (v w : BitVec 64) {a b : SumAct} (ha : a ∈ [SumAct.load t k k, .store t k k v])
    (hb : b ∈ [SumAct.load t l l, .store t l l w]) (s : Sums) : a.run (b.run s) = b.run (a.run s) := by
  have h' := h.symm
  simp only [List.mem_cons, List.not_mem_nil, or_false] at ha hb
  rcases ha with rfl | rfl <;> rcases hb with rfl | rfl <;> simp only [SumAct.run, Sums.mk.injEq, true_and] <;> funext x y <;>
    by_cases hx : x = t
  · subst hx
    by_cases hy : y = k
    · subst hy; simp [h]
    · simp [hy, h']
  · simp [hx]
  · subst hx
    by_cases hy : y = k
    · subst hy; simp [h]
    · simp [hy, h']
  · simp [hx]
  · subst hx
    by_cases hy : y = k
    · subst hy; simp [h]
    · simp [hy, h']
  · simp [hx]
  · subst hx
    by_cases hy : y = k
    · subst hy; simp [h]
    · simp [hy, h']
  · simp [hx]

theorem task_facts (tasksInner threadsInner : Nat) (hn : 0 < threadsInner) (t j : Nat) :
    ∃ q, nestedTask tasksInner threadsInner t j = some q ∧ q.RaceFree SumAct.run ∧ (∀ a ∈ q.acts, a.On t j) ∧
      ∀ s : Sums, (∀ k, (s.inner t k).x = 0) →
        (fun j' => ((q.serial SumAct.run s).outer j').x) =
          (fun j' => if j' = j then (s.outer j).x + ((innerSum tasksInner t).setWidth 32).signExtend 64 else (s.outer j').x) ∧
        ∀ t', t' ≠ t → (q.serial SumAct.run s).inner t' = s.inner t' := by
  obtain ⟨q, calls, e1, e2, e3, e4, e5, e6⟩ := loop_facts SumAct.run tasksInner threadsInner hn
    fun u k => .act (.load t k k) (.act (.store t k k (BitVec.ofNat 64 u + BitVec.ofNat 64 (t * tasksInner))) .done)
  refine ⟨q.seq (.act (.sync t threadsInner) (.act (.read j j) (.act (.result t j j) .done))), by unfold nestedTask; rw [e1]; rfl, ?_, ?_, ?_⟩
  · refine seq_raceFree (e6 (fun c _ => trivial) ?_) trivial
    intro c _ d _ _ hne a ha b hb s
    exact inner_comm t hne _ _ ha hb s
  · intro a ha
    rw [seq_acts] at ha
    rcases List.mem_append.1 ha with ha | ha
    · obtain ⟨c, _, ha⟩ := (e4 a).1 ha
      simp only [Prog.acts, List.mem_cons, List.not_mem_nil, or_false] at ha
      rcases ha with rfl | rfl <;> rfl
    · simp only [Prog.acts, List.mem_cons, List.not_mem_nil, or_false] at ha
      rcases ha with rfl | rfl | rfl
      · rfl
      · exact ⟨rfl, rfl⟩
      · exact ⟨rfl, rfl, rfl⟩
  · intro s h0
    rw [seq_serial, e5]
    simp only [Prog.serial]
    obtain ⟨h1, h2, h3⟩ := adds_serial t threadsInner (fun u => BitVec.ofNat 64 u + BitVec.ofNat 64 (t * tasksInner)) calls e3 s
    generalize List.foldl _ s calls = s' at h1 h2 h3
    have hs : syncSum (fun i => (s'.inner t i).x) threadsInner = innerSum tasksInner t := by
      rw [syncSum_eq _ _ hn, h3]
      have z : ((List.range threadsInner).map fun i => (s.inner t i).x).sum = 0 := by
        refine List.sum_eq_zero ?_
        intro x hx
        obtain ⟨k, _, rfl⟩ := List.mem_map.1 hx
        exact h0 k
      rw [z, zero_add]
      unfold innerSum
      rw [← e2, List.map_map]
      rfl
    simp only [SumAct.run, h1]
    refine ⟨?_, ?_⟩
    · funext j'
      by_cases h : j' = j
      · subst h; simp [hs]
      · simp [h]
    · intro t' ht'
      funext k
      simp only [ht', false_and, if_false]
      rw [h2 t' ht']

theorem low_sum (l : List (BitVec 64)) : (l.sum).setWidth 32 = (l.map fun x => x.setWidth 32).sum := by
  induction l with
  | nil => rfl
  | cons x l ih => rw [List.sum_cons, List.map_cons, List.sum_cons, ← ih, BitVec.setWidth_add _ _ (by omega)]

theorem ofNat_sum (l : List Nat) : BitVec.ofNat 32 l.sum = (l.map fun n => BitVec.ofNat 32 n).sum := by
  induction l with
  | nil => rfl
  | cons x l ih => rw [List.sum_cons, List.map_cons, List.sum_cons, ← ih, BitVec.ofNat_add]

theorem low_ext (x : BitVec 32) : (x.signExtend 64).setWidth 32 = x := by
  ext i hi
  rw [BitVec.getElem_setWidth, BitVec.getLsbD_signExtend]
  simp [hi]
  omega

theorem range_mul (n k : Nat) : (List.range n).flatMap (fun t => (List.range k).map fun u => u + t * k) = List.range (n * k) := by
  induction n with
  | zero => simp
  | succ n ih =>
    rw [List.range_succ, List.flatMap_append, ih, Nat.succ_mul, List.range_add]
    simp [Nat.add_comm]

theorem sum_blocks (l : List Nat) (f : Nat → List Nat) : (l.flatMap f).sum = (l.map fun x => (f x).sum).sum := by
  induction l with
  | nil => rfl
  | cons x l ih => rw [List.flatMap_cons, List.sum_append, ih, List.map_cons, List.sum_cons]

theorem low_inner (tasksInner t : Nat) : (innerSum tasksInner t).setWidth 32 =
    BitVec.ofNat 32 ((List.range tasksInner).map fun u => u + t * tasksInner).sum := by
  unfold innerSum
  rw [low_sum, ofNat_sum, List.map_map, List.map_map]
  congr 1
  refine List.map_congr_left fun u _ => ?_
  show BitVec.setWidth 32 (BitVec.ofNat 64 u + BitVec.ofNat 64 (t * tasksInner)) = BitVec.ofNat 32 (u + t * tasksInner)
  rw [BitVec.setWidth_add _ _ (by omega), BitVec.setWidth_ofNat_of_le (by omega), BitVec.setWidth_ofNat_of_le (by omega), BitVec.ofNat_add]

/-- **C121** The program with nested loops: with any positive numbers of threads and any numbers of tasks, every schedule ends and prints
the sum `0 + 1 + … + (outer tasks × inner tasks - 1)`, as an `int`: reduced modulo `2 ^ 32` if it does not fit. -/
theorem nested_sum (threadsOuter tasksOuter threadsInner tasksInner : Nat) (h1 : 0 < threadsOuter) (h2 : 0 < threadsInner) :
    ∃ p, nestedLoop threadsOuter tasksOuter threadsInner tasksInner = some p ∧
      (∃ N, ∀ k q m', p.Steps SumAct.run k Sums.zero q m' → k ≤ N) ∧
      (∀ k q m', p.Steps SumAct.run k Sums.zero q m' → q ≠ .done → ∃ q' m'', q.Step SumAct.run m' q' m'') ∧
      ∀ k m', p.Steps SumAct.run k Sums.zero .done m' →
        nestedPrinted threadsOuter m' = ((List.range (tasksOuter * tasksInner)).sum : Int).bmod (2 ^ 32) := by
  have ht := task_facts tasksInner threadsInner h2
  have hbody : ∀ t j, ∃ q, (nestedTask tasksInner threadsInner t j).getD .done = q ∧ q.RaceFree SumAct.run ∧ (∀ a ∈ q.acts, a.On t j) ∧
      ∀ s : Sums, (∀ k, (s.inner t k).x = 0) →
        (fun j' => ((q.serial SumAct.run s).outer j').x) =
          (fun j' => if j' = j then (s.outer j).x + ((innerSum tasksInner t).setWidth 32).signExtend 64 else (s.outer j').x) ∧
        ∀ t', t' ≠ t → (q.serial SumAct.run s).inner t' = s.inner t' := by
    intro t j
    obtain ⟨q, e, h⟩ := ht t j
    exact ⟨q, by rw [e]; rfl, h⟩
  obtain ⟨p, calls, e1, e2, e3, e4, e5, e6⟩ := loop_facts SumAct.run tasksOuter threadsOuter h1
    fun t j => (nestedTask tasksInner threadsInner t j).getD .done
  have hr : p.RaceFree SumAct.run := by
    refine e6 ?_ ?_
    · intro c _
      obtain ⟨q, e, h, _⟩ := hbody c.1 c.2
      rw [e]
      exact h
    · intro c _ d _ hne hne2 a ha b hb s
      obtain ⟨q, e, _, h, _⟩ := hbody c.1 c.2
      obtain ⟨q', e', _, h', _⟩ := hbody d.1 d.2
      rw [e] at ha
      rw [e'] at hb
      exact on_comm hne hne2 (h a ha) (h' b hb) s
  obtain ⟨q0, e0, _⟩ := ht 0 0
  obtain ⟨f1, f2, f3, _⟩ := fork_join SumAct.run p hr Sums.zero
  refine ⟨p, by unfold nestedLoop; rw [e0]; exact e1, ⟨p.size, f1⟩, f2, fun k m' h => ?_⟩
  rw [f3 k m' h, e5]
  have key : ∀ (calls : List (Nat × Nat)) (_ : (calls.map Prod.fst).Nodup) (_ : ∀ c ∈ calls, c.2 < threadsOuter) (s : Sums)
      (_ : ∀ c ∈ calls, ∀ k, (s.inner c.1 k).x = 0),
      ((List.range threadsOuter).map fun j => ((calls.foldl (fun m c =>
        ((nestedTask tasksInner threadsInner c.1 c.2).getD .done).serial SumAct.run m) s).outer j).x).sum =
      ((List.range threadsOuter).map fun j => (s.outer j).x).sum +
        (calls.map fun c => ((innerSum tasksInner c.1).setWidth 32).signExtend 64).sum := by
    intro calls
    induction calls with
    | nil => intro _ _ s _; simp
    | cons c calls ih =>
      intro hnd hlt s hs
      rw [List.map_cons, List.nodup_cons] at hnd
      obtain ⟨q, e, _, _, h⟩ := hbody c.1 c.2
      obtain ⟨g1, g2⟩ := h s (hs c List.mem_cons_self)
      rw [List.foldl_cons, ih hnd.2 (fun d hd => hlt d (List.mem_cons_of_mem _ hd)), List.map_cons, List.sum_cons, ← add_assoc, e, g1,
        sum_bump (fun j => (s.outer j).x) _ _ (hlt c List.mem_cons_self)]
      intro d hd k
      have hne : d.1 ≠ c.1 := by
        intro e
        exact hnd.1 (e ▸ List.mem_map_of_mem hd)
      rw [e, g2 d.1 hne]
      exact hs d (List.mem_cons_of_mem _ hd) k
  unfold nestedPrinted
  rw [syncSum_eq _ _ h1, key calls (by rw [e2]; exact List.nodup_range) e3 _ (fun _ _ _ => rfl)]
  have z : ((List.range threadsOuter).map fun j => (Sums.zero.outer j).x).sum = 0 := by
    refine List.sum_eq_zero ?_
    intro x hx
    obtain ⟨_, _, rfl⟩ := List.mem_map.1 hx
    rfl
  rw [z, zero_add, low_sum, List.map_map]
  have : (calls.map ((fun x : BitVec 64 => x.setWidth 32) ∘ fun c => ((innerSum tasksInner c.1).setWidth 32).signExtend 64)) =
      (List.range tasksOuter).map fun t => BitVec.ofNat 32 ((List.range tasksInner).map fun u => u + t * tasksInner).sum := by
    rw [← e2, List.map_map]
    refine List.map_congr_left fun c _ => ?_
    show BitVec.setWidth 32 (BitVec.signExtend 64 (BitVec.setWidth 32 (innerSum tasksInner c.1))) = _
    rw [low_ext, low_inner]
    rfl
  rw [this, ← range_mul, sum_blocks]
  rw [show (fun t => BitVec.ofNat 32 ((List.range tasksInner).map fun u => u + t * tasksInner).sum) =
    (fun n => BitVec.ofNat 32 n) ∘ fun t => ((List.range tasksInner).map fun u => u + t * tasksInner).sum from rfl, ← List.map_map,
    ← ofNat_sum, BitVec.toInt_eq_toNat_bmod, BitVec.toNat_ofNat, Int.natCast_emod]
  exact Int.emod_bmod ..

/-- Nothing is lost if the sum fits. -/
example : ((List.range (6 * 7)).sum : Int).bmod (2 ^ 32) = 861 := by decide +kernel

/-- Inner tasks that each write a place of their own do not disturb each other. -/
example (f : Nat → Nat → Nat) (t u t' u' : Nat) (h : (t, u) ≠ (t', u')) (m : Nat × Nat → Nat) :
    let run := fun (a : Nat × Nat) (m : Nat × Nat → Nat) => fun x => if x = a then f a.1 a.2 else m x
    run (t, u) (run (t', u') m) = run (t', u') (run (t, u) m) := by
  intro run
  funext x
  simp only [run]
  by_cases h1 : x = (t, u)
  · have h2 : x ≠ (t', u') := fun e => h (h1.symm.trans e)
    rw [if_pos h1, if_neg h2, if_pos h1]
  · rw [if_neg h1]
    split <;> simp_all

/-- A shared sum and what a thread has read of it. -/
structure Shared where
  sum : Nat
  read : Nat → Nat
  deriving Inhabited

/-- `sum += 1` is two actions: to read and to write. -/
inductive Inc
  | load (j : Nat)
  | store (j : Nat)

def Inc.run : Inc → Shared → Shared
  | .load j, s => { s with read := fun k => if k = j then s.sum else s.read k }
  | .store j, s => { s with sum := s.read j + 1 }

/-- **C121** (finding) Tasks must not add to one and the same number: with two tasks in two threads there is a schedule after which the
sum has grown by one only. -/
theorem shared_fails : ∃ p, loopCreate 2 2 (fun _ j => .act (.load j) (.act (.store j) .done)) = some p ∧
    (p.serial Inc.run ⟨0, fun _ => 0⟩).sum = 2 ∧ ∃ k m, p.Steps Inc.run k ⟨0, fun _ => 0⟩ .done m ∧ m.sum = 1 := by
  have e : loopCreate 2 2 (fun _ j => Prog.act (Inc.load j) (.act (.store j) .done)) =
      some (.par (.act (.load 0) (.act (.store 0) .done)) (.par (.act (.load 1) (.act (.store 1) .done)) .done .done) .done) := rfl
  refine ⟨_, e, rfl, 6, (Inc.store 1).run ((Inc.store 0).run ((Inc.load 1).run ((Inc.load 0).run ⟨0, fun _ => 0⟩))), ?_, rfl⟩
  · refine .head _ _ _ _ _ _ _ (.left _ _ _ _ _ _ (.act _ _ _)) ?_
    refine .head _ _ _ _ _ _ _ (.right _ _ _ _ _ _ (.left _ _ _ _ _ _ (.act _ _ _))) ?_
    refine .head _ _ _ _ _ _ _ (.left _ _ _ _ _ _ (.act _ _ _)) ?_
    refine .head _ _ _ _ _ _ _ (.right _ _ _ _ _ _ (.left _ _ _ _ _ _ (.act _ _ _))) ?_
    refine .head _ _ _ _ _ _ _ (.right _ _ _ _ _ _ (.join _ _)) ?_
    refine .head _ _ _ _ _ _ _ (.join _ _) ?_
    exact .refl _ _

end Verif.Parallel
