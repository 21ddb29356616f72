import Verif.Parallel.Spec
import Verif.LoadBalancer.Props
import Mathlib.Algebra.BigOperators.Group.List.Basic
import Mathlib.Tactic.ByContra

namespace Verif.Parallel

open Verif.LoadBalancer (Balancer)

/-! ### Interleavings of commuting actions -/

section Trace
variable {τ Act Mem : Type} [DecidableEq τ] (run : Act → Mem → Mem)

/-- Perform tagged actions in order. -/
def exec (h : List (τ × Act)) (m : Mem) : Mem := h.foldl (fun m a => run a.2 m) m

theorem exec_append (h k : List (τ × Act)) (m : Mem) :
    exec run (h ++ k) m = exec run k (exec run h m) := by simp [exec]

theorem exec_comm_front (a : τ × Act) : ∀ (pre : List (τ × Act)) (m : Mem),
    (∀ b ∈ pre, ∀ m, run a.2 (run b.2 m) = run b.2 (run a.2 m)) →
    run a.2 (exec run pre m) = exec run pre (run a.2 m)
  | [], m, _ => rfl
  | b :: pre, m, h => by
    have ih := exec_comm_front a pre (run b.2 m) (fun c hc => h c (by simp [hc]))
    show run a.2 (exec run pre (run b.2 m)) = exec run pre (run b.2 (run a.2 m))
    rw [ih, h b (by simp)]

theorem exec_eq_of_filter_eq : ∀ (h' h : List (τ × Act)),
    (∀ a ∈ h, ∀ b ∈ h, a.1 ≠ b.1 → ∀ m, run a.2 (run b.2 m) = run b.2 (run a.2 m)) →
    (∀ t, h.filter (fun x => x.1 = t) = h'.filter (fun x => x.1 = t)) →
    ∀ m, exec run h m = exec run h' m
  | [], h, _, hf, m => by
    have : h = [] := by
      match h, hf with
      | [], _ => rfl
      | a :: h, hf => have := hf a.1; simp at this
    rw [this]
  | a :: h', h, hc, hf, m => by
    have h1 := hf a.1
    rw [List.filter_cons_of_pos (by simp)] at h1
    obtain ⟨pre, post, rfl, hpre, -, hpost⟩ := List.filter_eq_cons_iff.1 h1
    have hpre' : ∀ b ∈ pre, b.1 ≠ a.1 := by
      intro b hb; have := hpre b hb; simpa using this
    have ih := exec_eq_of_filter_eq h' (pre ++ post)
      (fun x hx y hy => hc x (by
        rcases List.mem_append.1 hx with h | h <;> simp [h]) y (by
        rcases List.mem_append.1 hy with h | h <;> simp [h]))
      (by
        intro t
        have ht := hf t
        rw [List.filter_append] at ht ⊢
        by_cases hta : a.1 = t
        · rw [List.filter_cons_of_pos (by simp [hta]), List.filter_cons_of_pos (by simp [hta])] at ht
          have e : pre.filter (fun x => x.1 = t) = [] := by
            rw [List.filter_eq_nil_iff]; intro b hb; simp [← hta, hpre' b hb]
          rw [e] at ht ⊢
          simpa using ht
        · rwa [List.filter_cons_of_neg (by simp [hta]), List.filter_cons_of_neg (by simp [hta])] at ht)
      (run a.2 m)
    have hcomm : run a.2 (exec run pre m) = exec run pre (run a.2 m) := by
      apply exec_comm_front
      intro b hb m
      exact hc a (by simp) b (by simp [hb]) (hpre' b hb).symm m
    calc exec run (pre ++ a :: post) m
        = exec run post (run a.2 (exec run pre m)) := by rw [exec_append]; rfl
      _ = exec run post (exec run pre (run a.2 m)) := by rw [hcomm]
      _ = exec run (pre ++ post) (run a.2 m) := by rw [exec_append]
      _ = exec run h' (run a.2 m) := ih
      _ = exec run (a :: h') m := rfl

/-- Tagging the actions of each block with the block's name. -/
def tagged (ts : List τ) (body : τ → List Act) : List (τ × Act) :=
  ts.flatMap fun t => (body t).map fun a => (t, a)

theorem tagged_filter (body : τ → List Act) (t0 : τ) : ∀ ts : List τ,
    (tagged ts body).filter (fun x => x.1 = t0) = tagged (ts.filter (fun t => t = t0)) body
  | [] => rfl
  | t :: ts => by
    have ih := tagged_filter body t0 ts
    have e : tagged (t :: ts) body = (body t).map (fun a => (t, a)) ++ tagged ts body := rfl
    rw [e, List.filter_append, ih]
    by_cases h : t = t0
    · rw [List.filter_cons_of_pos (by simp [h])]
      have : ((body t).map (fun a => (t, a))).filter (fun x => x.1 = t0) =
          (body t).map (fun a => (t, a)) := by
        rw [List.filter_eq_self]; intro a ha
        obtain ⟨b, -, rfl⟩ := List.mem_map.1 ha
        simp [h]
      rw [this]; rfl
    · rw [List.filter_cons_of_neg (by simp [h])]
      have : ((body t).map (fun a => (t, a))).filter (fun x => x.1 = t0) = [] := by
        rw [List.filter_eq_nil_iff]; intro a ha
        obtain ⟨b, -, rfl⟩ := List.mem_map.1 ha
        simp [h]
      rw [this]; rfl

theorem tagged_perm_filter (body : τ → List Act) (ts ts' : List τ) (h : ts.Perm ts') (t : τ) :
    (tagged ts body).filter (fun x => x.1 = t) = (tagged ts' body).filter (fun x => x.1 = t) := by
  rw [tagged_filter, tagged_filter]
  have e : ∀ l : List τ, l.filter (fun x => x = t) = List.replicate (l.count t) t := by
    intro l
    have := List.filter_beq (l := l) t
    rw [← this]
    congr 1
  rw [e, e, h.count_eq]

theorem mem_tagged {body : τ → List Act} {ts : List τ} {x : τ × Act} (h : x ∈ tagged ts body) :
    x.1 ∈ ts ∧ x.2 ∈ body x.1 := by
  obtain ⟨t, ht, hx⟩ := List.mem_flatMap.1 h
  obtain ⟨a, ha, rfl⟩ := List.mem_map.1 hx
  exact ⟨ht, ha⟩

end Trace

/-! ### The tasks of one worker -/

section Machine
variable {Act Mem : Type}

/-- The tasks that worker `j` takes, in order. -/
def threadTasks (job : Job Act) (j : Nat) : List Nat :=
  ((List.range (job.lb.blockSize j)).map
    (fun p => job.lb.taskNumber j p + job.start)).takeWhile (fun t => t < job.stop)

/-- The first `p` tasks of worker `j`. -/
def firstTasks (job : Job Act) (j p : Nat) : List Nat :=
  (List.range p).map (fun q => job.lb.taskNumber j q + job.start)

theorem firstTasks_succ (job : Job Act) (j p : Nat) :
    firstTasks job j (p + 1) = firstTasks job j p ++ [job.lb.taskNumber j p + job.start] := by
  simp [firstTasks, List.range_succ]

theorem takeWhile_append_stop {α : Type} (f : α → Bool) (l r : List α) (h1 : ∀ x ∈ l, f x = true)
    (h2 : r.head?.all (fun x => !f x) = true) : (l ++ r).takeWhile f = l := by
  rw [List.takeWhile_append_of_pos h1]
  match r, h2 with
  | [], _ => simp
  | a :: r, h2 =>
    have : f a = false := by simpa using h2
    simp [this]

theorem threadTasks_eq (job : Job Act) (j p : Nat) (hp : p ≤ job.lb.blockSize j)
    (hlt : ∀ q, q < p → job.lb.taskNumber j q + job.start < job.stop)
    (hstop : p < job.lb.blockSize j → ¬ job.lb.taskNumber j p + job.start < job.stop) :
    threadTasks job j = firstTasks job j p := by
  obtain ⟨d, hd⟩ : ∃ d, job.lb.blockSize j = p + d := ⟨_, (Nat.add_sub_cancel' hp).symm⟩
  unfold threadTasks
  rw [hd, List.range_add, List.map_append]
  apply takeWhile_append_stop
  · intro x hx
    obtain ⟨q, hq, rfl⟩ := List.mem_map.1 hx
    simpa using hlt q (by simpa using hq)
  · cases d with
    | zero => simp
    | succ d =>
      have := hstop (by omega)
      simp [List.range_succ_eq_map]
      omega

theorem firstTasks_prefix (job : Job Act) (j p : Nat) (hp : p ≤ job.lb.blockSize j)
    (hlt : ∀ q, q < p → job.lb.taskNumber j q + job.start < job.stop) :
    firstTasks job j p <+: threadTasks job j := by
  obtain ⟨d, hd⟩ : ∃ d, job.lb.blockSize j = p + d := ⟨_, (Nat.add_sub_cancel' hp).symm⟩
  unfold threadTasks
  rw [hd, List.range_add, List.map_append, List.takeWhile_append_of_pos]
  · exact List.prefix_append _ _
  · intro x hx
    obtain ⟨q, hq, rfl⟩ := List.mem_map.1 hx
    simpa using hlt q (by simpa using hq)

/-! ### Invariant of the machine -/

/-- Actions of worker `j`'s first `p` calls, tagged `(task, thread)`. -/
def progOf (job : Job Act) (j p : Nat) : List ((Nat × Nat) × Act) :=
  tagged ((firstTasks job j p).map fun t => (t, j)) (fun tj => job.body tj.1 tj.2)

theorem progOf_succ (job : Job Act) (j p : Nat) :
    progOf job j (p + 1) = progOf job j p ++
      (job.body (job.lb.taskNumber j p + job.start) j).map
        (fun a => ((job.lb.taskNumber j p + job.start, j), a)) := by
  simp [progOf, tagged, firstTasks_succ]

/-- Invariant: the memory is the result of an interleaving `hist` in which each worker has
performed a prefix of its program, and the bookkeeping is consistent. -/
structure Inv (job : Job Act) (run : Act → Mem → Mem) (m0 : Mem) (s : State Act Mem)
    (hist : List ((Nat × Nat) × Act)) : Prop where
  created_le : s.created ≤ job.nth
  joined_le : s.joined ≤ job.nth
  joined_fin : ∀ j, j < s.joined → (s.worker j).finished = true
  unborn : ∀ j, s.created ≤ j → (s.worker j).p = 0 ∧ (s.worker j).todo = [] ∧
    (s.worker j).finished = false
  p_le : ∀ j, (s.worker j).p ≤ job.lb.blockSize j
  below : ∀ j q, q < (s.worker j).p → job.lb.taskNumber j q + job.start < job.stop
  fin : ∀ j, (s.worker j).finished = true → (s.worker j).todo = [] ∧
    ((s.worker j).p < job.lb.blockSize j →
      ¬ job.lb.taskNumber j (s.worker j).p + job.start < job.stop)
  calls : ∀ j, s.calls.filter (fun c => c.2 = j) =
    (firstTasks job j (s.worker j).p).map (fun t => (t, j))
  mem : s.mem = exec run hist m0
  hist : ∀ j, ∃ pend, hist.filter (fun x => x.1.2 = j) ++ pend =
      progOf job j (s.worker j).p ∧ pend.map Prod.snd = (s.worker j).todo

theorem inv_init (job : Job Act) (run : Act → Mem → Mem) (m0 : Mem) :
    Inv job run m0 (init m0) [] := by
  refine ⟨by simp [init], by simp [init], by simp [init], by simp [init], by simp [init],
    by simp [init], by simp [init], by simp [init, firstTasks], rfl, ?_⟩
  intro j
  exact ⟨[], by simp [init, progOf, firstTasks, tagged], by simp [init]⟩

theorem setWorker_self (s : State Act Mem) (j : Nat) (w : Worker Act) :
    (setWorker s j w).worker j = w := by simp [setWorker]

theorem setWorker_ne (s : State Act Mem) (j k : Nat) (w : Worker Act) (h : k ≠ j) :
    (setWorker s j w).worker k = s.worker k := by simp [setWorker, h]

theorem inv_step (job : Job Act) (run : Act → Mem → Mem) (m0 : Mem) (s t : State Act Mem)
    (hist : List ((Nat × Nat) × Act)) (hi : Inv job run m0 s hist) (hs : Step job run s t) :
    ∃ hist', Inv job run m0 t hist' := by
  cases hs with
  | create hlt =>
    exact ⟨hist, { hi with
      created_le := hlt
      unborn := fun j hj => hi.unborn j (Nat.le_of_succ_le hj) }⟩
  | act j a rest hj ht =>
    obtain ⟨pend, hp1, hp2⟩ := hi.hist j
    rw [ht] at hp2
    obtain ⟨x, pend', rfl, hx, hpend'⟩ : ∃ x pend', pend = x :: pend' ∧ x.2 = a ∧
        pend'.map Prod.snd = rest := by
      match pend, hp2 with
      | x :: pend', hp2 => simp at hp2; exact ⟨x, pend', rfl, hp2.1, hp2.2⟩
    have hxj : x.1.2 = j := by
      have : x ∈ progOf job j (s.worker j).p := by rw [← hp1]; simp
      have := (mem_tagged this).1
      obtain ⟨t, -, ht⟩ := List.mem_map.1 this
      rw [← ht]
    have hw : ∀ k, (setWorker s j { s.worker j with todo := rest }).worker k =
        if k = j then { s.worker j with todo := rest } else s.worker k := fun k => rfl
    refine ⟨hist ++ [x], ?_⟩
    refine ⟨hi.created_le, hi.joined_le, ?_, ?_, ?_, ?_, ?_, ?_, ?_, ?_⟩
    · intro k hk
      simp only [hw]
      split
      · rename_i h; subst h; exact hi.joined_fin k hk
      · exact hi.joined_fin k hk
    · intro k hk
      have : k ≠ j := by have : s.created ≤ k := hk; omega
      simp only [hw, this, if_false]
      exact hi.unborn k hk
    · intro k
      simp only [hw]
      split
      · rename_i h; subst h; exact hi.p_le k
      · exact hi.p_le k
    · intro k q
      simp only [hw]
      split
      · rename_i h; subst h; exact hi.below k q
      · exact hi.below k q
    · intro k
      simp only [hw]
      split
      · rename_i h; subst h
        intro hf
        have := (hi.fin k hf).1
        rw [ht] at this; simp at this
      · exact hi.fin k
    · intro k
      simp only [hw]
      have := hi.calls k
      split
      · rename_i h; subst h; exact this
      · exact this
    · show run a s.mem = _
      rw [exec_append, hi.mem]
      simp [exec, hx]
    · intro k
      simp only [hw]
      by_cases hk : k = j
      · subst hk
        refine ⟨pend', ?_, ?_⟩
        · simp only [if_true]
          rw [List.filter_append, ← hp1]
          simp [hxj]
        · simp [hpend']
      · obtain ⟨pd, h1, h2⟩ := hi.hist k
        refine ⟨pd, ?_, ?_⟩
        · simp only [hk, if_false]
          rw [List.filter_append]
          have : ¬ x.1.2 = k := by rw [hxj]; exact fun h => hk h.symm
          simp [this, h1]
        · simp [hk, h2]
  | call j hj ht hf hp hlt =>
    generalize hw0 : (⟨(s.worker j).p + 1,
      job.body (job.lb.taskNumber j (s.worker j).p + job.start) j, false⟩ : Worker Act) = w0
    have e1 : w0.p = (s.worker j).p + 1 := by rw [← hw0]
    have e2 : w0.todo = job.body (job.lb.taskNumber j (s.worker j).p + job.start) j := by
      rw [← hw0]
    have e3 : w0.finished = false := by rw [← hw0]
    have hw : ∀ k, (setWorker s j w0).worker k =
        if k = j then w0 else s.worker k := fun k => rfl
    refine ⟨hist, ?_⟩
    refine ⟨hi.created_le, hi.joined_le, ?_, ?_, ?_, ?_, ?_, ?_, hi.mem, ?_⟩
    · intro k hk
      simp only [hw]
      split
      · rename_i h; subst h
        have := hi.joined_fin k hk
        rw [hf] at this; simp at this
      · exact hi.joined_fin k hk
    · intro k hk
      have : k ≠ j := by have : s.created ≤ k := hk; omega
      simp only [hw, this, if_false]
      exact hi.unborn k hk
    · intro k
      simp only [hw]
      split
      · rename_i h; subst h; rw [e1]; exact hp
      · exact hi.p_le k
    · intro k q
      simp only [hw]
      split
      · rename_i h; subst h
        rw [e1]
        intro hq
        rcases Nat.lt_succ_iff_lt_or_eq.1 hq with h | h
        · exact hi.below k q h
        · rw [h]; exact hlt
      · exact hi.below k q
    · intro k
      simp only [hw]
      split
      · rename_i h; subst h
        rw [e3]; simp
      · exact hi.fin k
    · intro k
      simp only [hw]
      have hc := hi.calls k
      by_cases hk : k = j
      · subst hk
        simp only [if_true]
        rw [List.filter_append, hc, e1, firstTasks_succ]
        simp
      · simp only [hk, if_false]
        rw [List.filter_append, hc]
        have : ¬ j = k := fun h => hk h.symm
        simp [this]
    · intro k
      simp only [hw]
      by_cases hk : k = j
      · subst hk
        obtain ⟨pd, h1, h2⟩ := hi.hist k
        rw [ht] at h2
        have : pd = [] := by simpa using h2
        subst this
        refine ⟨(job.body (job.lb.taskNumber k (s.worker k).p + job.start) k).map
          (fun a => ((job.lb.taskNumber k (s.worker k).p + job.start, k), a)), ?_, ?_⟩
        · simp only [if_true]
          rw [e1, progOf_succ, ← h1]; simp
        · simp [e2, Function.comp_def]
      · simp only [hk, if_false]
        exact hi.hist k
  | brk j hj ht hf hp hge =>
    have hw : ∀ k, (setWorker s j { s.worker j with finished := true }).worker k =
        if k = j then { s.worker j with finished := true } else s.worker k := fun k => rfl
    refine ⟨hist, ?_⟩
    refine ⟨hi.created_le, hi.joined_le, ?_, ?_, ?_, ?_, ?_, ?_, hi.mem, ?_⟩
    · intro k hk
      simp only [hw]
      split
      · rfl
      · exact hi.joined_fin k hk
    · intro k hk
      have : k ≠ j := by have : s.created ≤ k := hk; omega
      simp only [hw, this, if_false]
      exact hi.unborn k hk
    · intro k
      simp only [hw]
      split
      · rename_i h; subst h; exact hi.p_le k
      · exact hi.p_le k
    · intro k q
      simp only [hw]
      split
      · rename_i h; subst h; exact hi.below k q
      · exact hi.below k q
    · intro k
      simp only [hw]
      split
      · rename_i h; subst h
        intro _
        exact ⟨ht, fun _ => hge⟩
      · exact hi.fin k
    · intro k
      simp only [hw]
      have := hi.calls k
      split
      · rename_i h; subst h; exact this
      · exact this
    · intro k
      simp only [hw]
      have := hi.hist k
      split
      · rename_i h; subst h; exact this
      · exact this
  | leave j hj ht hf hge =>
    have hw : ∀ k, (setWorker s j { s.worker j with finished := true }).worker k =
        if k = j then { s.worker j with finished := true } else s.worker k := fun k => rfl
    refine ⟨hist, ?_⟩
    refine ⟨hi.created_le, hi.joined_le, ?_, ?_, ?_, ?_, ?_, ?_, hi.mem, ?_⟩
    · intro k hk
      simp only [hw]
      split
      · rfl
      · exact hi.joined_fin k hk
    · intro k hk
      have : k ≠ j := by have : s.created ≤ k := hk; omega
      simp only [hw, this, if_false]
      exact hi.unborn k hk
    · intro k
      simp only [hw]
      split
      · rename_i h; subst h; exact hi.p_le k
      · exact hi.p_le k
    · intro k q
      simp only [hw]
      split
      · rename_i h; subst h; exact hi.below k q
      · exact hi.below k q
    · intro k
      simp only [hw]
      split
      · rename_i h; subst h
        intro _
        exact ⟨ht, fun h => absurd h hge⟩
      · exact hi.fin k
    · intro k
      simp only [hw]
      have := hi.calls k
      split
      · rename_i h; subst h; exact this
      · exact this
    · intro k
      simp only [hw]
      have := hi.hist k
      split
      · rename_i h; subst h; exact this
      · exact this
  | join hc hlt hf =>
    refine ⟨hist, { hi with
      joined_le := hlt
      joined_fin := ?_ }⟩
    intro j hj
    rcases Nat.lt_succ_iff_lt_or_eq.1 hj with h | h
    · exact hi.joined_fin j h
    · rw [h]; exact hf

theorem inv_steps (job : Job Act) (run : Act → Mem → Mem) (m0 : Mem) (n : Nat)
    (s : State Act Mem) (h : Steps job run n (init m0) s) : ∃ hist, Inv job run m0 s hist := by
  generalize hi : init m0 = s0 at h
  induction h with
  | refl s => subst hi; exact ⟨[], inv_init job run m0⟩
  | tail n s t u h1 h2 ih =>
    obtain ⟨hist, h⟩ := ih hi
    exact inv_step job run m0 t u hist h h2

theorem inj_of_nodup_map {α β : Type} (f : α → β) : ∀ (l : List α), (l.map f).Nodup →
    ∀ x y, x ∈ l → y ∈ l → f x = f y → x = y
  | [], _, x, y, hx, _, _ => by simp at hx
  | a :: l, h, x, y, hx, hy, he => by
    rw [List.map_cons, List.nodup_cons] at h
    rcases List.mem_cons.1 hx with rfl | hx' <;> rcases List.mem_cons.1 hy with rfl | hy'
    · rfl
    · exact absurd (List.mem_map.2 ⟨y, hy', he.symm⟩) h.1
    · exact absurd (List.mem_map.2 ⟨x, hx', he⟩) h.1
    · exact inj_of_nodup_map f l h.2 x y hx' hy' he

/-- A list is a rearrangement of the concatenation of its sublists by tag. -/
theorem perm_flatMap_filter (N : Nat) (c : List (Nat × Nat)) (h : ∀ x ∈ c, x.2 < N) :
    c.Perm ((List.range N).flatMap fun j => c.filter (fun x => x.2 = j)) := by
  rw [List.perm_iff_count]
  intro a
  rw [List.count_flatMap]
  have key : ∀ j, (List.count a ∘ fun j => c.filter (fun x => x.2 = j)) j =
      if j = a.2 then c.count a else 0 := by
    intro j
    simp only [Function.comp]
    split
    · rename_i hj
      rw [List.count_filter]; simp [hj]
    · rename_i hj
      rw [List.count_eq_zero]
      intro hm
      have := (List.mem_filter.1 hm).2
      simp at this; exact hj this.symm
  rw [List.map_congr_left (fun j _ => key j)]
  by_cases ha : a ∈ c
  · have hlt := h a ha
    have : ∀ (M : Nat), a.2 < M →
        ((List.range M).map fun j => if j = a.2 then c.count a else 0).sum = c.count a := by
      intro M
      induction M with
      | zero => intro h; omega
      | succ M ih =>
        intro hM
        rw [List.range_succ, List.map_append, List.sum_append]
        by_cases hM2 : a.2 < M
        · rw [ih hM2]
          have : ¬ M = a.2 := by omega
          simp [this]
        · have hM3 : M = a.2 := by omega
          have e : ((List.range M).map fun j => if j = a.2 then c.count a else 0) =
              (List.range M).map fun _ => 0 := by
            apply List.map_congr_left
            intro j hj
            have : j < M := by simpa using hj
            have : ¬ j = a.2 := by omega
            simp [this]
          rw [e, List.map_const', List.sum_replicate_nat]
          simp [hM3]
    rw [this N hlt]
  · have h0 : c.count a = 0 := List.count_eq_zero.2 ha
    have e : ((List.range N).map fun j => if j = a.2 then c.count a else 0) =
        (List.range N).map fun _ => 0 := by
      apply List.map_congr_left; intro j _; simp [h0]
    rw [e, List.map_const', List.sum_replicate_nat, h0]; simp

theorem calls_threads (job : Job Act) (run : Act → Mem → Mem) (m0 : Mem) (s : State Act Mem)
    (hist) (hi : Inv job run m0 s hist) : ∀ c ∈ s.calls, c.2 < s.created := by
  intro c hc
  by_contra hlt
  have h := hi.calls c.2
  rw [(hi.unborn c.2 (by omega)).1] at h
  have : c ∈ s.calls.filter (fun x => x.2 = c.2) := List.mem_filter.2 ⟨hc, by simp⟩
  rw [h] at this
  simp [firstTasks] at this

theorem returned_tasks (job : Job Act) (run : Act → Mem → Mem) (m0 : Mem) (s : State Act Mem)
    (hist) (hi : Inv job run m0 s hist) (hr : Returned job s) (j : Nat) (hj : j < job.nth) :
    firstTasks job j (s.worker j).p = threadTasks job j := by
  have hf := hi.joined_fin j (by rw [hr.2]; exact hj)
  exact (threadTasks_eq job j _ (hi.p_le j) (hi.below j) (hi.fin j hf).2).symm

/-- All calls, grouped by thread. -/
def allCalls (job : Job Act) : List (Nat × Nat) :=
  (List.range job.nth).flatMap fun j => (threadTasks job j).map fun t => (t, j)

theorem returned_calls (job : Job Act) (run : Act → Mem → Mem) (m0 : Mem) (s : State Act Mem)
    (hist) (hi : Inv job run m0 s hist) (hr : Returned job s) : s.calls.Perm (allCalls job) := by
  refine (perm_flatMap_filter job.nth s.calls ?_).trans ?_
  · intro x hx
    have := calls_threads job run m0 s hist hi x hx
    rw [hr.1] at this; exact this
  · unfold allCalls
    have : ∀ j ∈ List.range job.nth, s.calls.filter (fun x => x.2 = j) =
        (threadTasks job j).map fun t => (t, j) := by
      intro j hj
      rw [hi.calls j, returned_tasks job run m0 s hist hi hr j (by simpa using hj)]
    rw [List.flatMap_def, List.flatMap_def, List.map_congr_left this]

theorem partial_calls (job : Job Act) (run : Act → Mem → Mem) (m0 : Mem) (s : State Act Mem)
    (hist) (hi : Inv job run m0 s hist) : ∃ l, s.calls.Perm l ∧ l.Sublist (allCalls job) := by
  refine ⟨_, perm_flatMap_filter job.nth s.calls ?_, ?_⟩
  · intro x hx
    have := calls_threads job run m0 s hist hi x hx
    have := hi.created_le; omega
  · unfold allCalls
    induction List.range job.nth with
    | nil => exact List.Sublist.refl _
    | cons j l ih =>
      simp only [List.flatMap_cons]
      refine List.Sublist.append ?_ ih
      rw [hi.calls j]
      exact ((firstTasks_prefix job j _ (hi.p_le j) (hi.below j)).sublist).map _

theorem allCalls_map_fst (job : Job Act) :
    (allCalls job).map Prod.fst = (List.range job.nth).flatMap (threadTasks job) := by
  simp [allCalls, List.map_flatMap, Function.comp_def]

theorem tagged_map {τ σ : Type} (f : σ → τ) (ts : List σ) (body : τ → List Act) :
    tagged (ts.map f) body = (tagged ts (fun s => body (f s))).map (fun x => (f x.1, x.2)) := by
  simp [tagged, List.flatMap_map, List.map_flatMap, Function.comp_def]

theorem exec_retag {τ σ : Type} (f : σ → τ) (run : Act → Mem → Mem) (h : List (σ × Act))
    (m : Mem) : exec run (h.map fun x => (f x.1, x.2)) m = exec run h m := by
  simp [exec, List.foldl_map]

theorem filter_map_tag (c : List (Nat × Nat)) (j : Nat) (body : Nat × Nat → List Act) :
    (tagged c body).filter (fun x => x.1.2 = j) = tagged (c.filter (fun x => x.2 = j)) body := by
  induction c with
  | nil => rfl
  | cons t ts ih =>
    have e : tagged (t :: ts) body = (body t).map (fun a => (t, a)) ++ tagged ts body := rfl
    rw [e, List.filter_append, ih]
    by_cases h : t.2 = j
    · rw [List.filter_cons_of_pos (by simp [h])]
      have : ((body t).map (fun a => (t, a))).filter (fun x => x.1.2 = j) =
          (body t).map (fun a => (t, a)) := by
        rw [List.filter_eq_self]; intro a ha
        obtain ⟨b, -, rfl⟩ := List.mem_map.1 ha
        simp [h]
      rw [this]; rfl
    · rw [List.filter_cons_of_neg (by simp [h])]
      have : ((body t).map (fun a => (t, a))).filter (fun x => x.1.2 = j) = [] := by
        rw [List.filter_eq_nil_iff]; intro a ha
        obtain ⟨b, -, rfl⟩ := List.mem_map.1 ha
        simp [h]
      rw [this]; rfl

theorem allCalls_filter (job : Job Act) (j : Nat) (hj : j < job.nth) :
    (allCalls job).filter (fun x => x.2 = j) = (threadTasks job j).map fun t => (t, j) := by
  unfold allCalls
  have key : ∀ N, ((List.range N).flatMap fun j => (threadTasks job j).map fun t => (t, j)).filter
      (fun x => x.2 = j) = if j < N then (threadTasks job j).map fun t => (t, j) else [] := by
    intro N
    induction N with
    | zero => simp
    | succ N ih =>
      rw [List.range_succ, List.flatMap_append, List.filter_append, ih]
      by_cases h1 : j < N
      · have : ¬ N = j := by omega
        have : j < N + 1 := by omega
        simp [*]
      · by_cases h2 : j = N
        · subst h2; simp
        · have h3 : ¬ j < N + 1 := by omega
          have h4 : ¬ N = j := by omega
          simp [h1, h3, h4]
  rw [key, if_pos hj]

/-- When the loop has returned, each worker has performed exactly its program. -/
theorem returned_hist (job : Job Act) (run : Act → Mem → Mem) (m0 : Mem) (s : State Act Mem)
    (hist) (hi : Inv job run m0 s hist) (hr : Returned job s) : ∀ j,
    hist.filter (fun x => x.1.2 = j) =
      (tagged (allCalls job) (fun tj => job.body tj.1 tj.2)).filter (fun x => x.1.2 = j) := by
  intro j
  rw [filter_map_tag]
  obtain ⟨pd, h1, h2⟩ := hi.hist j
  by_cases hj : j < job.nth
  · have hf := hi.joined_fin j (by rw [hr.2]; exact hj)
    rw [(hi.fin j hf).1] at h2
    have : pd = [] := by simpa using h2
    subst this
    rw [List.append_nil] at h1
    rw [h1, allCalls_filter job j hj, progOf, returned_tasks job run m0 s hist hi hr j hj]
  · have hu := hi.unborn j (by rw [hr.1]; omega)
    rw [hu.2.1] at h2
    have : pd = [] := by simpa using h2
    subst this
    rw [List.append_nil, hu.1] at h1
    rw [h1]
    have : (allCalls job).filter (fun x => x.2 = j) = [] := by
      rw [List.filter_eq_nil_iff]
      intro x hx
      obtain ⟨k, hk, hx⟩ := List.mem_flatMap.1 hx
      obtain ⟨t, -, rfl⟩ := List.mem_map.1 hx
      have : k < job.nth := by simpa using hk
      simp; omega
    rw [this]
    simp [progOf, firstTasks, tagged]

/-- If every task is called once and actions of different tasks commute, the final memory
is that of the serial loop. -/
theorem returned_mem (job : Job Act) (run : Act → Mem → Mem) (m0 : Mem) (s : State Act Mem)
    (hist) (hi : Inv job run m0 s hist) (hr : Returned job s)
    (body : Nat → List Act) (hb : ∀ t j, job.body t j = body t) (ts : List Nat)
    (hts : ((List.range job.nth).flatMap (threadTasks job)).Perm ts)
    (hnd : ts.Nodup)
    (hcomm : ∀ t ∈ ts, ∀ u ∈ ts, t ≠ u → ∀ a ∈ body t, ∀ b ∈ body u, ∀ m,
      run a (run b m) = run b (run a m)) :
    s.mem = (ts.flatMap body).foldl (fun m a => run a m) m0 := by
  have hfst := allCalls_map_fst job
  have hnd' : ((allCalls job).map Prod.fst).Nodup := by rw [hfst]; exact hts.nodup_iff.2 hnd
  have hall := returned_hist job run m0 s hist hi hr
  have hmem : ∀ x ∈ hist, x.1 ∈ allCalls job ∧ x.2 ∈ body x.1.1 := by
    intro x hx
    have : x ∈ hist.filter (fun y => y.1.2 = x.1.2) := List.mem_filter.2 ⟨hx, by simp⟩
    rw [hall] at this
    have := mem_tagged (List.mem_filter.1 this).1
    rw [hb] at this; exact this
  have hmemT : ∀ c ∈ allCalls job, c.1 ∈ ts := by
    intro c hc
    exact hts.mem_iff.1 (by rw [← hfst]; exact List.mem_map.2 ⟨c, hc, rfl⟩)
  -- step 1: the history is equivalent to running the threads one after the other
  have h1 : exec run hist m0 =
      exec run (tagged (allCalls job) (fun tj => job.body tj.1 tj.2)) m0 := by
    have := exec_eq_of_filter_eq run
      ((tagged (allCalls job) (fun tj => job.body tj.1 tj.2)).map fun x => (x.1.2, x.2))
      (hist.map fun x => (x.1.2, x.2)) ?_ ?_ m0
    · rwa [exec_retag (fun x : Nat × Nat => x.2) run hist,
        exec_retag (fun x : Nat × Nat => x.2) run] at this
    · intro a ha b hb' hne m
      obtain ⟨x, hx, rfl⟩ := List.mem_map.1 ha
      obtain ⟨y, hy, rfl⟩ := List.mem_map.1 hb'
      have hx' := hmem x hx
      have hy' := hmem y hy
      have hxy : x.1.1 ≠ y.1.1 := by
        intro he
        apply hne
        have := inj_of_nodup_map Prod.fst _ hnd' _ _ hx'.1 hy'.1 he
        simp [this]
      exact hcomm _ (hmemT _ hx'.1) _ (hmemT _ hy'.1) hxy _ hx'.2 _ hy'.2 m
    · intro j
      rw [List.filter_map, List.filter_map]
      have := hall j
      simp only [Function.comp_def]
      rw [this]
  -- step 2: reorder the calls
  rw [hi.mem, h1]
  have h2 : exec run (tagged (allCalls job) (fun tj => job.body tj.1 tj.2)) m0 =
      exec run (tagged ((allCalls job).map Prod.fst) body) m0 := by
    rw [tagged_map, exec_retag]
    simp only [hb]
  rw [h2, hfst]
  have h3 := exec_eq_of_filter_eq run (tagged ts body)
    (tagged ((List.range job.nth).flatMap (threadTasks job)) body) ?_
    (fun t => tagged_perm_filter body _ _ hts t) m0
  · rw [h3]
    simp [exec, tagged, List.foldl_flatMap, List.foldl_map]
  · intro a ha b hb' hne m
    have ha' := mem_tagged ha
    have hb'' := mem_tagged hb'
    exact hcomm _ (hts.mem_iff.1 ha'.1) _ (hts.mem_iff.1 hb''.1) hne _ ha'.2 _ hb''.2 m

/-! ### Per-thread accumulators -/

theorem perm_of_filter_eq {α : Type} (f : α → Nat) (c c' : List α)
    (h : ∀ j, c.filter (fun x => f x = j) = c'.filter (fun x => f x = j)) : c.Perm c' := by
  classical
  rw [List.perm_iff_count]
  intro a
  have e : ∀ l : List α, l.count a = (l.filter (fun x => f x = f a)).count a := by
    intro l
    rw [List.count_filter]; simp
  rw [e c, e c', h]

theorem sum_addTo {M : Type} [AddCommMonoid M] (x : Nat × M) (m : Nat → M) : ∀ N, x.1 < N →
    ((List.range N).map (addTo x m)).sum = ((List.range N).map m).sum + x.2 := by
  intro N
  induction N with
  | zero => omega
  | succ N ih =>
    intro h
    rw [List.range_succ, List.map_append, List.map_append, List.sum_append, List.sum_append]
    by_cases hx : x.1 < N
    · have : ¬ N = x.1 := by omega
      rw [ih hx]
      simp [addTo, this, add_assoc, add_comm, add_left_comm]
    · have hN : N = x.1 := by omega
      have e : (List.range N).map (addTo x m) = (List.range N).map m := by
        apply List.map_congr_left
        intro k hk
        have : k < N := by simpa using hk
        have : ¬ k = x.1 := by omega
        simp [addTo, this]
      rw [e]
      simp [addTo, hN, add_assoc]

theorem sum_exec_addTo {τ M : Type} [AddCommMonoid M] (N : Nat) :
    ∀ (h : List (τ × (Nat × M))) (m : Nat → M), (∀ x ∈ h, x.2.1 < N) →
    ((List.range N).map (exec addTo h m)).sum =
      ((List.range N).map m).sum + (h.map fun x => x.2.2).sum
  | [], m, _ => by simp [exec]
  | x :: h, m, hx => by
    have ih := sum_exec_addTo N h (addTo x.2 m) (fun y hy => hx y (by simp [hy]))
    have e : exec addTo (x :: h) m = exec addTo h (addTo x.2 m) := rfl
    rw [e, ih, sum_addTo x.2 m N (hx x (by simp))]
    simp [add_assoc]

theorem returned_sum {M : Type} [AddCommMonoid M] (job : Job (Nat × M)) (m0 : Nat → M)
    (s : State (Nat × M) (Nat → M)) (hist) (hi : Inv job addTo m0 s hist) (hr : Returned job s)
    (vals : Nat → List M) (hb : ∀ t j, job.body t j = (vals t).map fun v => (j, v)) (ts : List Nat)
    (hts : ((List.range job.nth).flatMap (threadTasks job)).Perm ts) :
    ((List.range job.nth).map s.mem).sum =
      ((List.range job.nth).map m0).sum + (ts.map fun t => (vals t).sum).sum := by
  have hp := perm_of_filter_eq (fun x : (Nat × Nat) × (Nat × M) => x.1.2) _ _
    (returned_hist job addTo m0 s hist hi hr)
  rw [hi.mem, sum_exec_addTo]
  · congr 1
    rw [(hp.map (fun x => x.2.2)).sum_eq, ← (hts.map (fun t => (vals t).sum)).sum_eq,
      ← allCalls_map_fst]
    generalize allCalls job = c
    induction c with
    | nil => rfl
    | cons a c ih =>
      have e : tagged (a :: c) (fun tj => job.body tj.1 tj.2) =
        (job.body a.1 a.2).map (fun x => (a, x)) ++ tagged c (fun tj => job.body tj.1 tj.2) := rfl
      rw [e, List.map_append, List.sum_append, ih, hb]
      simp [Function.comp_def]
  · intro x hx
    have h1 := mem_tagged (hp.mem_iff.1 hx)
    obtain ⟨k, hk, h2⟩ := List.mem_flatMap.1 h1.1
    obtain ⟨t, -, h3⟩ := List.mem_map.1 h2
    rw [hb] at h1
    obtain ⟨v, -, h4⟩ := List.mem_map.1 h1.2
    rw [← h4, ← h3]
    simpa using hk

/-! ### Progress and termination -/

/-- Work left for worker `j`: actions pending, iterations left (with their actions), and
one for leaving the loop. -/
def left (job : Job Act) (w : Worker Act) (j : Nat) : Nat :=
  w.todo.length + (if w.finished then 0 else
    1 + (((List.range (job.lb.blockSize j)).drop w.p).map
      (fun q => 1 + (job.body (job.lb.taskNumber j q + job.start) j).length)).sum)

/-- Termination measure. -/
def measure (job : Job Act) (s : State Act Mem) : Nat :=
  (job.nth - s.created) + (job.nth - s.joined) +
    ((List.range job.nth).map fun j => left job (s.worker j) j).sum

theorem sum_update (f g : Nat → Nat) (N j : Nat) (hj : j < N) (h : ∀ k, k ≠ j → g k = f k) :
    ((List.range N).map g).sum + f j = ((List.range N).map f).sum + g j := by
  induction N with
  | zero => omega
  | succ N ih =>
    rw [List.range_succ, List.map_append, List.map_append, List.sum_append, List.sum_append]
    by_cases hjN : j < N
    · have := ih hjN
      have h2 := h N (by omega)
      simp [h2]; omega
    · have hjN : j = N := by omega
      subst hjN
      have : (List.range j).map g = (List.range j).map f := by
        apply List.map_congr_left; intro k hk
        exact h k (by have : k < j := by simpa using hk
                      omega)
      rw [this]; simp; omega

theorem measure_step (job : Job Act) (run : Act → Mem → Mem) (s t : State Act Mem)
    (hc : s.created ≤ job.nth) (h : Step job run s t) : measure job t < measure job s := by
  have upd : ∀ (j : Nat) (w : Worker Act), j < job.nth → left job w j < left job (s.worker j) j →
      ((List.range job.nth).map fun k => left job (if k = j then w else s.worker k) k).sum <
      ((List.range job.nth).map fun k => left job (s.worker k) k).sum := by
    intro j w hj hlt
    have := sum_update (fun k => left job (s.worker k) k)
      (fun k => left job (if k = j then w else s.worker k) k) job.nth j hj
      (by intro k hk; simp [hk])
    simp only [if_true] at this
    omega
  cases h with
  | create hlt =>
    simp only [measure]; omega
  | act j a rest hj ht =>
    have := upd j ⟨(s.worker j).p, rest, (s.worker j).finished⟩ (by omega) (by simp [left, ht])
    simp only [measure, setWorker]; omega
  | call j hj ht hf hp hlt =>
    have := upd j ⟨(s.worker j).p + 1,
      job.body (job.lb.taskNumber j (s.worker j).p + job.start) j, false⟩ (by omega) (by
        simp only [left, ht, hf]
        have e := List.drop_eq_getElem_cons (l := List.range (job.lb.blockSize j))
          (i := (s.worker j).p) (by simpa using hp)
        rw [e, List.map_cons, List.sum_cons]
        simp only [List.getElem_range, List.length_nil]
        simp
        omega)
    simp only [measure, setWorker]; omega
  | brk j hj ht hf hp hge =>
    have := upd j ⟨(s.worker j).p, (s.worker j).todo, true⟩ (by omega) (by simp [left, ht, hf]; omega)
    simp only [measure, setWorker]; omega
  | leave j hj ht hf hge =>
    have := upd j ⟨(s.worker j).p, (s.worker j).todo, true⟩ (by omega) (by simp [left, ht, hf]; omega)
    simp only [measure, setWorker]; omega
  | join hc hlt hf =>
    simp only [measure]; omega

theorem step_created_le (job : Job Act) (run : Act → Mem → Mem) (s t : State Act Mem)
    (hc : s.created ≤ job.nth) (h : Step job run s t) : t.created ≤ job.nth := by
  cases h <;> simp_all [setWorker]; omega

theorem steps_measure (job : Job Act) (run : Act → Mem → Mem) (m0 : Mem) (n : Nat)
    (s : State Act Mem) (h : Steps job run n (init m0) s) :
    s.created ≤ job.nth ∧ n + measure job s ≤ measure job (init m0 : State Act Mem) := by
  generalize hi : init m0 = s0 at h
  induction h with
  | refl s => subst hi; exact ⟨by simp [init], by omega⟩
  | tail n s t u h1 h2 ih =>
    have := ih hi
    exact ⟨step_created_le job run t u this.1 h2, by
      have := measure_step job run t u this.1 h2; omega⟩

theorem progress (job : Job Act) (run : Act → Mem → Mem) (s : State Act Mem)
    (hcl : s.created ≤ job.nth) (hjl : s.joined ≤ job.nth)
    (hr : ¬ Returned job s) : ∃ t, Step job run s t := by
  by_cases hc : s.created < job.nth
  · exact ⟨_, Step.create s hc⟩
  · have hc' : s.created = job.nth := by omega
    have hj : s.joined < job.nth := by
      rcases Nat.lt_or_ge s.joined job.nth with h | h
      · exact h
      · exact absurd ⟨hc', by omega⟩ hr
    by_cases hf : (s.worker s.joined).finished = true
    · exact ⟨_, Step.join s hc' hj hf⟩
    · have hf' : (s.worker s.joined).finished = false := by simpa using hf
      have hjc : s.joined < s.created := by omega
      match ht : (s.worker s.joined).todo with
      | a :: rest => exact ⟨_, Step.act s s.joined a rest hjc ht⟩
      | [] =>
        by_cases hp : (s.worker s.joined).p < job.lb.blockSize s.joined
        · by_cases hl : job.lb.taskNumber s.joined (s.worker s.joined).p + job.start < job.stop
          · exact ⟨_, Step.call s s.joined hjc ht hf' hp hl⟩
          · exact ⟨_, Step.brk s s.joined hjc ht hf' hp hl⟩
        · exact ⟨_, Step.leave s s.joined hjc ht hf' hp⟩

/-! ### Consequences of a partition -/

theorem count_one_of_mem {l : List Nat} (hnd : l.Nodup) {t : Nat} (h : t ∈ l) : l.count t = 1 := by
  have h1 := List.nodup_iff_count.1 hnd t
  have h2 := List.count_pos_iff.2 h
  omega

theorem eachTaskOnce_of (job : Job Act) (lo hi : Nat)
    (h : ((List.range job.nth).flatMap (threadTasks job)).Perm (List.range' lo (hi - lo))) :
    EachTaskOnce job lo hi := by
  intro Mem run m0 n s hs
  obtain ⟨hist, hinv⟩ := inv_steps job run m0 n s hs
  obtain ⟨l, hl1, hl2⟩ := partial_calls job run m0 s hist hinv
  have h1 : (s.calls.map Prod.fst).Perm (l.map Prod.fst) := hl1.map _
  have h2 : (l.map Prod.fst).Sublist ((allCalls job).map Prod.fst) := hl2.map _
  rw [allCalls_map_fst] at h2
  have hnd : (List.range' lo (hi - lo)).Nodup := List.nodup_range'
  refine ⟨?_, ?_, ?_⟩
  · exact h1.nodup_iff.2 (h2.nodup (h.nodup_iff.2 hnd))
  · intro c hc
    have h3 : c.1 ∈ List.range' lo (hi - lo) :=
      h.mem_iff.1 (h2.subset (h1.mem_iff.1 (List.mem_map.2 ⟨c, hc, rfl⟩)))
    have h4 := List.mem_range'_1.1 h3
    have h5 := calls_threads job run m0 s hist hinv c hc
    have := hinv.created_le
    omega
  · intro hr t ht1 ht2
    have h3 := (returned_calls job run m0 s hist hinv hr).map Prod.fst
    rw [allCalls_map_fst] at h3
    rw [(h3.trans h).count_eq]
    exact count_one_of_mem hnd (List.mem_range'_1.2 (by omega))

theorem alwaysReturns (job : Job Act) : AlwaysReturns job := by
  refine ⟨measure job (init () : State Act Unit), ?_⟩
  intro Mem run m0 n s hs
  have h := steps_measure job run m0 n s hs
  have e : measure job (init m0 : State Act Mem) = measure job (init () : State Act Unit) := rfl
  obtain ⟨hist, hinv⟩ := inv_steps job run m0 n s hs
  exact ⟨by omega, progress job run s hinv.created_le hinv.joined_le⟩

theorem equalsSerial_of (job : Job Act) (lo hi : Nat)
    (h : ((List.range job.nth).flatMap (threadTasks job)).Perm (List.range' lo (hi - lo)))
    (run : Act → Mem → Mem) (m0 : Mem) (n : Nat) (s : State Act Mem)
    (hs : Steps job run n (init m0) s) (hr : Returned job s)
    (body : Nat → List Act) (hb : job.body = fun t _ => body t)
    (hind : Independent run body lo hi) : s.mem = serialMem run body lo hi m0 := by
  obtain ⟨hist, hinv⟩ := inv_steps job run m0 n s hs
  rw [returned_mem job run m0 s hist hinv hr body (by intro t j; rw [hb]) _ h List.nodup_range' ?_]
  · simp [serialMem, List.foldl_flatMap]
  · intro t ht u hu hne
    have h1 := List.mem_range'_1.1 ht
    have h2 := List.mem_range'_1.1 hu
    exact hind t u h1.1 (by omega) h2.1 (by omega) hne

theorem sum_of {M : Type} [AddCommMonoid M] (job : Job (Nat × M)) (lo hi : Nat)
    (h : ((List.range job.nth).flatMap (threadTasks job)).Perm (List.range' lo (hi - lo)))
    (m0 : Nat → M) (n : Nat) (s : State (Nat × M) (Nat → M))
    (hs : Steps job addTo n (init m0) s) (hr : Returned job s)
    (vals : Nat → List M) (hb : job.body = fun t j => (vals t).map fun v => (j, v)) :
    ((List.range job.nth).map s.mem).sum =
      ((List.range job.nth).map m0).sum + ((List.range' lo (hi - lo)).map fun t => (vals t).sum).sum := by
  obtain ⟨hist, hinv⟩ := inv_steps job addTo m0 n s hs
  exact returned_sum job m0 s hist hinv hr vals (by intro t j; rw [hb]) _ h

/-! ### The balancers give a partition -/

theorem default_threadTasks (job : Job Act) (bs : Nat) (hst : job.start ≤ job.stop)
    (h1 : ∀ j, job.lb.blockSize j = bs) (h2 : ∀ j p, job.lb.taskNumber j p = p + j * bs) (j : Nat) :
    threadTasks job j = List.range' (job.start + j * bs)
      (min bs (job.stop - job.start - j * bs)) := by
  have e := threadTasks_eq job j (min bs (job.stop - job.start - j * bs))
    (by rw [h1]; omega) (by intro q hq; rw [h2]; omega)
    (by intro hlt; rw [h1] at hlt; rw [h2]; omega)
  rw [e, firstTasks]
  rw [List.range'_eq_map_range]
  apply List.map_congr_left
  intro q _
  rw [h2]; omega

theorem default_all (job : Job Act) (bs : Nat) (hst : job.start ≤ job.stop)
    (h1 : ∀ j, job.lb.blockSize j = bs) (h2 : ∀ j p, job.lb.taskNumber j p = p + j * bs) (N : Nat) :
    (List.range N).flatMap (threadTasks job) =
      List.range' job.start (min (N * bs) (job.stop - job.start)) := by
  induction N with
  | zero => simp
  | succ N ih =>
    rw [List.range_succ, List.flatMap_append, ih]
    simp only [List.flatMap_cons, List.flatMap_nil, List.append_nil]
    rw [default_threadTasks job bs hst h1 h2, Nat.add_mul, Nat.one_mul]
    by_cases h : N * bs ≤ job.stop - job.start
    · have e1 : min (N * bs) (job.stop - job.start) = N * bs := by omega
      have e2 : min (N * bs + bs) (job.stop - job.start) =
          N * bs + min bs (job.stop - job.start - N * bs) := by omega
      rw [e1, e2]
      have := List.range'_append (s := job.start) (m := N * bs)
        (n := min bs (job.stop - job.start - N * bs)) (step := 1)
      rw [Nat.one_mul] at this
      exact this
    · have e1 : min (N * bs) (job.stop - job.start) = job.stop - job.start := by omega
      have e2 : min (N * bs + bs) (job.stop - job.start) = job.stop - job.start := by omega
      have e3 : min bs (job.stop - job.start - N * bs) = 0 := by omega
      rw [e1, e2, e3]; simp

theorem pthreadsNg_all (ntasks nthreads : Nat) (hn : 0 < nthreads) (body : Nat → Nat → List Act) :
    ∃ job, pthreadsNg ntasks nthreads body = some job ∧ job.body = body ∧ job.start = 0 ∧
      job.stop = ntasks ∧
      (List.range job.nth).flatMap (threadTasks job) = List.range' 0 ntasks := by
  obtain ⟨bs, h1, h2, -, -⟩ := LoadBalancer.defaultBlockSize_eq ntasks nthreads hn
  refine ⟨_, by simp [pthreadsNg, LoadBalancer.default, h1]; rfl, rfl, rfl, rfl, ?_⟩
  rw [default_all _ bs (by simp) (fun _ => rfl) (fun _ _ => rfl)]
  simp only [Nat.sub_zero]
  rw [Nat.min_eq_right (by rw [Nat.mul_comm]; exact h2)]

theorem parallelizer2_all (start stop nthreads : Nat) (hn : 0 < nthreads) (hs : start ≤ stop)
    (body : Nat → Nat → List Act) :
    ∃ job, parallelizer2 start stop nthreads body = some job ∧ job.body = body ∧
      job.start = start ∧ job.stop = stop ∧
      (List.range job.nth).flatMap (threadTasks job) = List.range' start (stop - start) := by
  obtain ⟨bs, h1, h2, -, -⟩ := LoadBalancer.defaultBlockSize_eq (stop - start) nthreads hn
  have hns : ¬ stop < start := by omega
  refine ⟨_, by simp [parallelizer2, LoadBalancer.default, h1, hns]; rfl, rfl, rfl, rfl, ?_⟩
  rw [default_all _ bs (by simpa using hs) (fun _ => rfl) (fun _ _ => rfl)]
  simp only
  rw [Nat.min_eq_right]
  calc stop - start ≤ bs * min nthreads (stop - start) := h2
    _ ≤ bs * nthreads := Nat.mul_le_mul_left _ (Nat.min_le_left _ _)
    _ = nthreads * bs := Nat.mul_comm _ _

theorem ofTable_threadTasks (nth ntasks : Nat) (lists : List (List Nat))
    (body : Nat → Nat → List Act) (hl : ∀ t ∈ lists.flatten, t < ntasks) (j : Nat) :
    threadTasks { nth := nth, lb := LoadBalancer.ofTable lists, start := 0,
                  stop := ntasks, body := body : Job Act } j = lists.getD j [] := by
  simp only [threadTasks, LoadBalancer.ofTable, Nat.add_zero]
  rw [LoadBalancer.getD_eq_getElem_range]
  have : (lists.getD j []).takeWhile (fun t => decide (t < ntasks)) = lists.getD j [] := by
    have tw : ∀ l : List Nat, (∀ t ∈ l, t < ntasks) →
        l.takeWhile (fun t => decide (t < ntasks)) = l := by
      intro l h
      have := List.takeWhile_append_of_pos (p := fun t => decide (t < ntasks)) (l₁ := l) (l₂ := [])
        (by intro a ha; simpa using h a ha)
      simpa using this
    apply tw
    intro t ht
    have hm : t ∈ lists.flatten := by
      by_cases hj : j < lists.length
      · simp only [List.getD, List.getElem?_eq_getElem hj, Option.getD_some] at ht
        exact List.mem_flatten.2 ⟨_, List.getElem_mem hj, ht⟩
      · simp [List.getD, List.getElem?_eq_none (by omega : lists.length ≤ j)] at ht
    exact hl t hm
  exact this

theorem flatMap_getD : ∀ (lists : List (List Nat)) (n : Nat), n ≤ lists.length →
    (∀ k, n ≤ k → lists.getD k [] = []) →
    (List.range n).flatMap (fun j => lists.getD j []) = lists.flatten
  | [], n, h, _ => by
    simp at h; simp [h]
  | l :: ls, 0, h, hr => by
    have h0 := hr 0 (by omega)
    have hl : l = [] := by simpa [List.getD] using h0
    have ih := flatMap_getD ls 0 (by omega) (fun k _ => by
      have := hr (k + 1) (by omega); simpa [List.getD] using this)
    simp at ih
    subst hl
    simpa using ih
  | l :: ls, n + 1, h, hr => by
    have ih := flatMap_getD ls n (by simpa using h) (fun k hk => by
      have := hr (k + 1) (by omega); simpa [List.getD] using this)
    rw [List.range_succ_eq_map, List.flatMap_cons, List.flatMap_map, List.flatten_cons, ← ih]
    simp [List.getD]

theorem weights_all (nthreads : Nat) (weights : List Nat) (hn : 0 < nthreads)
    (body : Nat → Nat → List Act) (job : Job Act)
    (h : PthreadsNgWeights weights.length nthreads weights body job) :
    job.body = body ∧
    ((List.range job.nth).flatMap (threadTasks job)).Perm (List.range' 0 weights.length) := by
  obtain ⟨lists, loads, ⟨w2, iperm, hs, hr⟩, rfl⟩ := h
  have hp := LoadBalancer.sortRun_iperm _ _ _ hs
  obtain ⟨s, e, hi⟩ := LoadBalancer.weightsAssign_main weights iperm nthreads weights.sum hn
    (fun w hw => LoadBalancer.le_sum_of_mem hw) hp
  rw [e] at hr
  cases hr
  refine ⟨rfl, ?_⟩
  have hperm : lists.flatten.Perm (List.range weights.length) := hi.perm
  have hlt : ∀ t ∈ lists.flatten, t < weights.length := by
    intro t ht; simpa using hperm.mem_iff.1 ht
  have hlen : lists.length = nthreads := hi.len1
  have hrest := hi.rest
  simp only at hrest ⊢
  have : (List.range (min nthreads weights.length)).flatMap (threadTasks
      { nth := min nthreads weights.length, lb := LoadBalancer.ofTable lists, start := 0,
        stop := weights.length, body := body : Job Act }) = lists.flatten := by
    rw [List.flatMap_def, List.map_congr_left (fun j _ =>
      ofTable_threadTasks (min nthreads weights.length) weights.length lists body hlt j),
      ← List.flatMap_def]
    by_cases hw : weights.length = 0
    · have : lists.flatten = [] := by
        rw [hw] at hperm
        exact hperm.eq_nil
      rw [this, hw]; simp
    · apply flatMap_getD
      · omega
      · intro k hk
        apply hrest
        split <;> omega
  rw [this, ← List.range_eq_range']
  exact hperm

theorem rankLoop_eq (lb : Balancer) (start stop rank : Nat) : ∀ fuel p,
    rankLoop lb start stop rank fuel p =
      ((List.range' p fuel).map (fun q => lb.taskNumber rank q + start)).takeWhile
        (fun t => t < stop)
  | 0, p => by simp [rankLoop]
  | fuel + 1, p => by
    rw [rankLoop, List.range'_succ, List.map_cons, List.takeWhile_cons]
    by_cases h : lb.taskNumber rank p + start ≥ stop
    · rw [if_pos h]; simp; omega
    · rw [if_neg h, rankLoop_eq lb start stop rank fuel (p + 1)]
      simp; omega

end Machine
end Verif.Parallel
