import Verif.Whole.ModelGemm2
import Verif.Whole.PropsGemm
import Verif.Parallel.PropsNested

/-!
# C148: the program examples/testGemmR2.cpp under all schedules
-/

namespace Verif.Whole.Gemm2

open Verif.Parallel Verif.Concurrency Verif.GemmR Verif.Whole.Range

variable (d : Nat → Drawn)

/-! ## Actions -/

theorem updAt_comm {α : Type} (l : List α) {p q : Nat} (h : p ≠ q) (f g : α → α) :
    (Loop.updAt l p f).bind (fun l => Loop.updAt l q g) = (Loop.updAt l q g).bind (fun l => Loop.updAt l p f) := by
  unfold Loop.updAt
  cases hp : l[p]? with
  | none =>
    cases hq : l[q]? with
    | none => rfl
    | some b => simp [List.getElem?_set_ne h.symm, hp]
  | some a =>
    cases hq : l[q]? with
    | none => simp [List.getElem?_set_ne h, hq]
    | some b =>
      simp only [Option.map_some, Option.bind_some, List.getElem?_set_ne h, List.getElem?_set_ne h.symm, hp, hq]
      rw [List.set_comm _ _ h]

theorem step_comm (g : Args ℝ) {s s' : Step} (h : s.tgt g ≠ s'.tgt g) (C : List ℝ) :
    (s.run g C).bind (s'.run g) = (s'.run g C).bind (s.run g) := by
  unfold Step.run
  cases inner g s.pA s.pB s.i s.j g.k with
  | none =>
    cases inner g s'.pA s'.pB s'.i s'.j g.k with
    | none => rfl
    | some y => simp
  | some x =>
    cases inner g s'.pA s'.pB s'.i s'.j g.k with
    | none => simp
    | some y => exact updAt_comm C h _ _

theorem run_comm {a b : Act} (h : a.task ≠ b.task) (m : Mem) : a.run d (b.run d m) = b.run d (a.run d m) := by
  funext u
  simp only [Act.run]
  by_cases h1 : u = a.task
  · subst h1
    simp [h]
  · simp [h1]

theorem first_comm (t : Nat) {s s' : Step} (h : s.tgt (argsOf (d t)) ≠ s'.tgt (argsOf (d t))) (m : Mem) :
    (Act.first t s).run d ((Act.first t s').run d m) = (Act.first t s').run d ((Act.first t s).run d m) := by
  funext u
  simp only [Act.run, Act.task]
  by_cases h1 : u = t
  · subst h1
    simp only [if_true]
    cases m u with
    | none => rfl
    | some x =>
      simp only [Option.bind_some, Act.on]
      have := step_comm (argsOf (d u)) h x.c
      cases e1 : s.run (argsOf (d u)) x.c with
      | none =>
        cases e2 : s'.run (argsOf (d u)) x.c with
        | none => rfl
        | some y =>
          simp only [e1, e2, Option.bind_some, Option.bind_none] at this
          simp [Act.on, ← this]
      | some z =>
        cases e2 : s'.run (argsOf (d u)) x.c with
        | none =>
          simp only [e1, e2, Option.bind_some, Option.bind_none] at this
          simp [Act.on, this]
        | some y =>
          simp only [e1, e2, Option.bind_some] at this
          simp [Act.on, this]
  · simp [h1]

theorem fold_on (t : Nat) : ∀ (l : List Act) (_ : ∀ a ∈ l, a.task = t) (m : Mem),
    l.foldl (fun m a => a.run d m) m = fun u => if u = t then (m t).bind (fun x => l.foldlM (fun x a => a.on d x) x) else m u := by
  intro l
  induction l with
  | nil =>
    intro _ m
    funext u
    by_cases h : u = t
    · subst h; simp
    · simp [h]
  | cons a l ih =>
    intro hl m
    rw [List.foldl_cons, ih (fun b hb => hl b (by simp [hb]))]
    have ha := hl a (by simp)
    funext u
    by_cases h : u = t
    · subst h
      simp only [if_true, Act.run, ha, List.foldlM_cons]
      cases m u <;> rfl
    · simp [h, Act.run, ha]

theorem firsts_on (t : Nat) (x : State) : ∀ (l : List Step) (c : List ℝ),
    (l.map (Act.first t)).foldlM (fun (x : State) a => a.on d x) { x with c := c } =
      (l.foldlM (Step.run (argsOf (d t))) c).map fun c' => { x with c := c' } := by
  intro l
  induction l with
  | nil => intro c; rfl
  | cons s l ih =>
    intro c
    rw [List.map_cons, List.foldlM_cons, List.foldlM_cons]
    simp only [Act.on]
    cases s.run (argsOf (d t)) c with
    | none => rfl
    | some c' => exact ih c'

theorem seconds_on (t : Nat) (x : State) : ∀ (l : List Step) (c : List ℝ),
    (l.map (Act.second t)).foldlM (fun (x : State) a => a.on d x) { x with c2 := c } =
      (l.foldlM (Step.run (argsOf (d t))) c).map fun c' => { x with c2 := c' } := by
  intro l
  induction l with
  | nil => intro c; rfl
  | cons s l ih =>
    intro c
    rw [List.map_cons, List.foldlM_cons, List.foldlM_cons]
    simp only [Act.on]
    cases s.run (argsOf (d t)) c with
    | none => rfl
    | some c' => exact ih c'

/-! ## Loops -/

theorem for_facts (run : Act → Mem → Mem) (ntasks nthreads : Nat) (hn : 0 < nthreads) (body : Nat → Nat → Prog Act) :
    ∃ (p : Prog Act) (calls : List (Nat × Nat)), parallelFor ntasks nthreads body = .ok p ∧
      calls.map Prod.fst = List.range ntasks ∧
      (∀ a, a ∈ p.acts ↔ ∃ c ∈ calls, a ∈ (body c.1 c.2).acts) ∧
      (∀ m, p.serial run m = calls.foldl (fun m c => (body c.1 c.2).serial run m) m) ∧
      ((∀ c ∈ calls, (body c.1 c.2).RaceFree run) →
        (∀ c ∈ calls, ∀ d ∈ calls, c.1 ≠ d.1 → Apart run (body c.1 c.2) (body d.1 d.2)) → p.RaceFree run) := by
  obtain ⟨job, h1, _, h3, h4, h5⟩ := parallelizer2_all 0 ntasks nthreads hn (by omega) fun _ _ => ([] : List Unit)
  rw [Nat.sub_zero] at h5
  obtain ⟨_, _, f3, f4, f5⟩ := job_facts run job ntasks (by rw [h5]) body
  refine ⟨jobProg job body, allCalls job, by unfold parallelFor jobProg; rw [h1], ?_, f3, f4, fun a b => f5 a fun c hc d hd h _ => b c hc d hd h⟩
  rw [allCalls_map_fst, h5, List.range_eq_range']

/-! ## A product -/

theorem valid_args (e : Drawn) (h : 0 < e.lda) (h2 : e.lda * e.lda < 2 ^ 31) : Valid (argsOf e) .plain .plain :=
  ⟨⟨by simp [argsOf, Form.letters], by simp [argsOf, Form.letters], ⟨h, h⟩, ⟨h, Nat.le_refl _⟩, ⟨h, Nat.le_refl _⟩, Nat.le_refl _⟩,
    ⟨h2, h2, h2⟩⟩

theorem small_grid (g : Args ℝ) (hv : Sensible g .plain .plain) : blasSteps g g.m g.n 0 0 0 = .ok (gridSteps g 1 1 g.m g.n) := by
  unfold blasSteps
  rw [if_pos (blasChecks_ok g .plain .plain hv _ _ (Nat.le_refl _) (Nat.le_refl _))]
  have h0 : ∀ j, stepOf g 0 0 j = fun i => ⟨0, 0, 0, i, j⟩ := by intro j; funext i; simp [stepOf]
  simp [gridSteps, tileList, row0, col0, h0]

/-- Different tiles have no entry in common. -/
theorem tiles_apart (g : Args ℝ) (nbi nbI nbJ : Nat) (hm : g.m ≤ g.ldC) {u u' : Nat} (hu : u ≠ u') {s s' : Step}
    (hs : s ∈ tileList g nbi nbI nbJ u) (hs' : s' ∈ tileList g nbi nbI nbJ u') : s.tgt g ≠ s'.tgt g := by
  obtain ⟨j, i, hj, hi, rfl⟩ := (mem_tileList ..).1 hs
  obtain ⟨j', i', hj', hi', rfl⟩ := (mem_tileList ..).1 hs'
  intro h
  rw [tgt_stepOf, tgt_stepOf] at h
  obtain ⟨a1, a2, a3, a4⟩ := tile_coords g nbi nbI nbJ u hm hj hi
  obtain ⟨b1, b2, b3, b4⟩ := tile_coords g nbi nbI nbJ u' hm hj' hi'
  rw [← h] at b1 b2
  rw [a1] at b1
  rw [a2] at b2
  rw [b1, b3] at a3
  rw [b2, b4] at a4
  have e1 := Nat.div_add_mod u nbi
  have e2 := Nat.div_add_mod u' nbi
  rw [a3, a4] at e2
  exact hu (e1.symm.trans e2)

/-- The product in tiles: its threads do not disturb each other, and one after the other they do the steps of a grid. -/
theorem gemmR_facts (t nthreads : Nat) (hn : 0 < nthreads) (h : 0 < (d t).lda) (h2 : (d t).lda * (d t).lda < 2 ^ 31) :
    ∃ p nbi nbj nbI nbJ, gemmR d 99 nthreads t = .ok p ∧ p.RaceFree (Act.run d) ∧ (∀ a ∈ p.acts, a.task = t) ∧
      (d t).lda ≤ nbi * nbI ∧ (d t).lda ≤ nbj * nbJ ∧
      ∀ m, p.serial (Act.run d) m =
        ((gridSteps (argsOf (d t)) nbi nbj nbI nbJ).map (Act.first t)).foldl (fun m a => a.run d m) m := by
  have hv := valid_args (d t) h h2
  by_cases hs : isSmall 99 (argsOf (d t)).m (argsOf (d t)).n = true
  · refine ⟨firsts t (.ok (gridSteps (argsOf (d t)) 1 1 (argsOf (d t)).m (argsOf (d t)).n)), 1, 1, (argsOf (d t)).m, (argsOf (d t)).n,
      ?_, ofList_raceFree _ _, ?_, (Nat.one_mul _).ge, (Nat.one_mul _).ge, fun m => ofList_serial _ _ m⟩
    · unfold gemmR
      simp only [if_pos hs, small_grid _ hv.toSensible]
    · intro a ha
      unfold firsts at ha
      rw [ofList_acts] at ha
      obtain ⟨s, _, rfl⟩ := List.mem_map.1 ha
      rfl
  · obtain ⟨a0, nbI, a1, a2, _, a3, a4⟩ := block_facts 99 (argsOf (d t)).m hv.pos.1 (by omega)
    obtain ⟨b0, nbJ, b1, b2, _, b3, b4⟩ := block_facts 99 (argsOf (d t)).n hv.pos.2 (by omega)
    have hpos : 0 < nblocks 99 (argsOf (d t)).m * nblocks 99 (argsOf (d t)).n := Nat.mul_pos a0 b0
    obtain ⟨p, calls, e1, e2, e3, e4, e5⟩ := for_facts (Act.run d) (nblocks 99 (argsOf (d t)).m * nblocks 99 (argsOf (d t)).n)
      (min (nblocks 99 (argsOf (d t)).m * nblocks 99 (argsOf (d t)).n) nthreads) (by omega)
      fun u _ => firsts t (tileSteps (argsOf (d t)) (nblocks 99 (argsOf (d t)).m) nbI nbJ u)
    have hbody : ∀ u, u < nblocks 99 (argsOf (d t)).m * nblocks 99 (argsOf (d t)).n →
        firsts t (tileSteps (argsOf (d t)) (nblocks 99 (argsOf (d t)).m) nbI nbJ u) =
          Prog.ofList ((tileList (argsOf (d t)) (nblocks 99 (argsOf (d t)).m) nbI nbJ u).map (Act.first t)) := by
      intro u hu
      rw [tileSteps_eq (argsOf (d t)) .plain .plain hv _ _ _ _ _ a2 b2 a3 b3 hu]
      rfl
    have hlt : ∀ c ∈ calls, c.1 < nblocks 99 (argsOf (d t)).m * nblocks 99 (argsOf (d t)).n := by
      intro c hc
      have := List.mem_map_of_mem (f := Prod.fst) hc
      rw [e2] at this
      exact List.mem_range.1 this
    refine ⟨p, nblocks 99 (argsOf (d t)).m, nblocks 99 (argsOf (d t)).n, nbI, nbJ, ?_, ?_, ?_, a4, b4, ?_⟩
    · unfold gemmR
      simp only [if_neg hs, a1, b1, bind, Except.bind]
      exact e1
    · refine e5 (fun c hc => ?_) fun c hc c' hc' hne a ha b hb m => ?_
      · simp only [hbody c.1 (hlt c hc)]
        exact ofList_raceFree _ _
      · simp only [hbody c.1 (hlt c hc), ofList_acts] at ha
        simp only [hbody c'.1 (hlt c' hc'), ofList_acts] at hb
        obtain ⟨s, hs1, rfl⟩ := List.mem_map.1 ha
        obtain ⟨s', hs2, rfl⟩ := List.mem_map.1 hb
        exact first_comm d t (tiles_apart _ _ _ _ hv.ldC hne hs1 hs2) m
    · intro a ha
      obtain ⟨c, hc, ha⟩ := (e3 a).1 ha
      simp only [hbody c.1 (hlt c hc), ofList_acts] at ha
      obtain ⟨s, _, rfl⟩ := List.mem_map.1 ha
      rfl
    · intro m
      rw [e4]
      have key : ∀ (l : List (Nat × Nat)) (_ : ∀ c ∈ l, c ∈ calls) (m : Mem),
          l.foldl (fun m c => (firsts t (tileSteps (argsOf (d t)) (nblocks 99 (argsOf (d t)).m) nbI nbJ c.1)).serial (Act.run d) m) m =
            (((l.map Prod.fst).flatMap (tileList (argsOf (d t)) (nblocks 99 (argsOf (d t)).m) nbI nbJ)).map (Act.first t)).foldl
              (fun m a => a.run d m) m := by
        intro l
        induction l with
        | nil => intro _ m; rfl
        | cons c l ih =>
          intro hl m
          rw [List.foldl_cons, ih (fun c hc => hl c (List.mem_cons_of_mem _ hc)), hbody c.1 (hlt c (hl c List.mem_cons_self)),
            List.map_cons, List.flatMap_cons, List.map_append, List.foldl_append, ofList_serial]
      rw [key calls (fun _ h => h) m, e2]
      rfl

/-- The product of the matrices a task draws. -/
noncomputable def product (e : Drawn) : Matrix (Fin e.lda) (Fin e.lda) ℝ :=
  (Matrix.of fun i j => e.a i.val j.val : Matrix (Fin e.lda) (Fin e.lda) ℝ) *
    (Matrix.of fun i j => e.b i.val j.val : Matrix (Fin e.lda) (Fin e.lda) ℝ)

theorem grid_product (e : Drawn) (h : 0 < e.lda) (h2 : e.lda * e.lda < 2 ^ 31) (nbi nbj nbI nbJ : Nat) (hI : e.lda ≤ nbi * nbI)
    (hJ : e.lda ≤ nbj * nbJ) :
    ∃ C, (gridSteps (argsOf e) nbi nbj nbI nbJ).foldlM (Step.run (argsOf e)) (List.replicate (e.lda * e.lda) 0) = some C ∧
      C.length = e.lda * e.lda ∧ Holds .plain C e.lda (product e) := by
  have hz : Holds .plain (List.replicate (e.lda * e.lda) (0 : ℝ)) e.lda (0 : Matrix (Fin e.lda) (Fin e.lda) ℝ) := by
    intro i j
    have : i.val + j.val * e.lda < e.lda * e.lda := by
      calc i.val + j.val * e.lda < e.lda + j.val * e.lda := by omega
        _ = (j.val + 1) * e.lda := by ring
        _ ≤ e.lda * e.lda := Nat.mul_le_mul_right _ j.2
    simp [List.getElem?_replicate, this]
  obtain ⟨C, h1, h3, h4, _⟩ := grid_runs (argsOf e) .plain .plain (valid_args e h h2).toSensible
    (Matrix.of fun i j => e.a i j) (Matrix.of fun i j => e.b i j) (fun i j => Gemm.fill_get _ _ _ i.2 j.2)
    (fun i j => Gemm.fill_get _ _ _ i.2 j.2) (List.replicate (e.lda * e.lda) 0) 0 hz nbi nbj nbI nbJ hI hJ _ (List.Perm.refl _)
  refine ⟨C, ?_, by rw [h3, List.length_replicate], ?_⟩
  · unfold runSteps at h1
    cases hf : List.foldlM (Step.run (argsOf e)) (List.replicate (e.lda * e.lda) 0) (gridSteps (argsOf e) nbi nbj nbI nbJ) with
    | none => rw [hf] at h1; cases h1
    | some D => rw [hf] at h1; cases h1; rfl
  · intro i j
    refine (h4 i j).trans (congrArg some ?_)
    have : (1 : ℝ) • product e + (0 : ℝ) • (0 : Matrix (Fin e.lda) (Fin e.lda) ℝ) = product e := by
      rw [one_smul, smul_zero, add_zero]
    exact congrFun (congrFun this i) j

/-- The comparison: no two numbers in the same place may differ by more than the tolerance. -/
theorem equal_iff (a b : List ℝ) (t : ℝ) :
    equalMatrices a b t = true ↔ ∀ (i : Nat) (x y : ℝ), a[i]? = some x → b[i]? = some y → |x - y| ≤ t := by
  unfold equalMatrices
  rw [List.all_eq_true]
  constructor
  · intro h i x y hx hy
    have hm : (x, y) ∈ a.zip b := List.mem_of_getElem? (i := i) (by rw [List.getElem?_zip_eq_some]; exact ⟨hx, hy⟩)
    have := h _ hm
    simpa using this
  · rintro h ⟨x, y⟩ hxy
    obtain ⟨i, hi⟩ := List.getElem?_of_mem hxy
    rw [List.getElem?_zip_eq_some] at hi
    simpa using h i x y hi.1 hi.2

theorem equal_self (l : List ℝ) : equalMatrices l l (1 / 1000000) = true := by
  unfold equalMatrices
  rw [List.all_eq_true]
  intro x hx
  have : x.1 = x.2 := by
    induction l with
    | nil => simp at hx
    | cons y l ih =>
      rw [List.zip_cons_cons, List.mem_cons] at hx
      rcases hx with rfl | hx
      · rfl
      · exact ih hx
  rw [this, sub_self, abs_zero]
  simp only [Bool.not_eq_true', decide_eq_false_iff_not, not_lt]
  norm_num

/-- A task. -/
theorem task_facts (t nthreads : Nat) (hn : 0 < nthreads) (h : 0 < (d t).lda) (h2 : (d t).lda * (d t).lda < 2 ^ 31) :
    ∃ p, taskOf d nthreads t = .ok p ∧ p.RaceFree (Act.run d) ∧ (∀ a ∈ p.acts, a.task = t) ∧
      ∃ l : List Act, (∀ a ∈ l, a.task = t) ∧ (∀ m, p.serial (Act.run d) m = l.foldl (fun m a => a.run d m) m) ∧
        ∃ C, (initial d t).bind (fun x => l.foldlM (fun x a => a.on d x) x) = some ⟨C, C, false⟩ ∧
          C.length = (d t).lda * (d t).lda ∧ Holds .plain C (d t).lda (product (d t)) := by
  obtain ⟨p, nbi, nbj, nbI, nbJ, e1, e2, e3, e4, e5, e6⟩ := gemmR_facts d t nthreads hn h h2
  obtain ⟨C, c1, c2, c3⟩ := grid_product (d t) h h2 nbi nbj nbI nbJ e4 e5
  obtain ⟨C', c1', c2', c3'⟩ := grid_product (d t) h h2 1 1 (d t).lda (d t).lda (Nat.one_mul _).ge (Nat.one_mul _).ge
  have hCC : C' = C := Gemm.list_eq h C' C c2' c2 (product (d t)) c3' c3
  subst hCC
  have hb : blas d t = Prog.ofList ((gridSteps (argsOf (d t)) 1 1 (d t).lda (d t).lda).map (Act.second t)) := by
    have hg := small_grid _ (valid_args (d t) h h2).toSensible
    unfold blas
    rw [hg]
    rfl
  refine ⟨p.seq ((blas d t).seq (Prog.ofList [.check t])), by unfold taskOf; rw [e1]; rfl, ?_, ?_,
    (gridSteps (argsOf (d t)) nbi nbj nbI nbJ).map (Act.first t) ++
      ((gridSteps (argsOf (d t)) 1 1 (d t).lda (d t).lda).map (Act.second t) ++ [.check t]), ?_, ?_, C', ?_, c2, c3⟩
  · rw [hb]
    exact seq_raceFree e2 (seq_raceFree (ofList_raceFree _ _) (ofList_raceFree _ _))
  · intro a ha
    rw [hb, seq_acts, seq_acts, ofList_acts, ofList_acts] at ha
    simp only [List.mem_append, List.mem_map, List.mem_singleton] at ha
    rcases ha with ha | ⟨s, _, rfl⟩ | rfl
    · exact e3 a ha
    · rfl
    · rfl
  · intro a ha
    simp only [List.mem_append, List.mem_map, List.mem_singleton] at ha
    rcases ha with ⟨s, _, rfl⟩ | ⟨s, _, rfl⟩ | rfl <;> rfl
  · intro m
    rw [hb, seq_serial, seq_serial, ofList_serial, ofList_serial, e6, List.foldl_append, List.foldl_append]
  · have f1 := firsts_on d t ⟨List.replicate ((d t).lda * (d t).lda) 0, List.replicate ((d t).lda * (d t).lda) 0, false⟩
      (gridSteps (argsOf (d t)) nbi nbj nbI nbJ) (List.replicate ((d t).lda * (d t).lda) 0)
    have f2 := seconds_on d t ⟨C', List.replicate ((d t).lda * (d t).lda) 0, false⟩
      (gridSteps (argsOf (d t)) 1 1 (d t).lda (d t).lda) (List.replicate ((d t).lda * (d t).lda) 0)
    rw [c1] at f1
    rw [c1'] at f2
    simp only [Option.map_some] at f1 f2
    simp only [initial, Option.bind_some, List.foldlM_append, f1, bind, f2, List.foldlM_cons, List.foldlM_nil]
    simp only [Act.on, equal_self, if_true, Option.bind_some, pure]

/-! ## The program -/

/-- Tasks one after the other. -/
theorem fold_tasks (L : Nat → List Act) (hL : ∀ t, ∀ a ∈ L t, a.task = t) : ∀ (ts : List Nat) (_ : ts.Nodup) (m : Mem) (t : Nat),
    (ts.foldl (fun m t => (L t).foldl (fun m a => a.run d m) m) m) t =
      if t ∈ ts then (m t).bind (fun x => (L t).foldlM (fun x a => a.on d x) x) else m t := by
  intro ts
  induction ts with
  | nil => intro _ m t; simp
  | cons u ts ih =>
    intro hnd m t
    rw [List.nodup_cons] at hnd
    rw [List.foldl_cons, ih hnd.2, fold_on d u _ (hL u)]
    by_cases h : t = u
    · subst h
      simp [hnd.1]
    · simp [h]

/-- **C148** Whatever the tasks draw, for all numbers of tasks and all positive numbers of threads of the outer and of the inner loops,
and however all these threads are scheduled: the program ends, never gets stuck, accesses no matrix out of bounds, no task throws, and
each task has computed the product of its matrices, in tiles by threads of its own as well as at once. -/
theorem tests_pass (mpi : Bool) (total outer inner : Nat) (more : List (List Char)) (ho : 0 < outer) (hi : 0 < inner)
    (hint : total ≤ 2147483647 ∧ outer ≤ 2147483647 ∧ inner ≤ 2147483647)
    (hd : ∀ t, t < total → 10 ≤ (d t).lda ∧ (d t).lda < 510) :
    ∃ p, start mpi d ([Nat.toDigits 10 total, Nat.toDigits 10 outer, Nat.toDigits 10 inner] ++ more) = .ok p ∧
      (∃ N, ∀ k q m, p.Steps (Act.run d) k (initial d) q m → k ≤ N) ∧
      (∀ k q m, p.Steps (Act.run d) k (initial d) q m → q ≠ .done → ∃ q' m', q.Step (Act.run d) m q' m') ∧
      (∃ k m, p.Steps (Act.run d) k (initial d) .done m) ∧
      ∀ k m, p.Steps (Act.run d) k (initial d) .done m → ∀ t, t < total → ∃ s, m t = some s ∧ s.threw = false ∧
        s.c.length = (d t).lda * (d t).lda ∧ s.c2.length = (d t).lda * (d t).lda ∧
        Holds .plain s.c (d t).lda (product (d t)) ∧ Holds .plain s.c2 (d t).lda (product (d t)) := by
  have key : ∀ t, ∃ (P : Prog Act) (L : List Act), (∀ a ∈ L, a.task = t) ∧ (t < total → taskOf d inner t = .ok P ∧ P.RaceFree (Act.run d) ∧
      (∀ a ∈ P.acts, a.task = t) ∧ (∀ m, P.serial (Act.run d) m = L.foldl (fun m a => a.run d m) m) ∧
        ∃ C, (initial d t).bind (fun x => L.foldlM (fun x a => a.on d x) x) = some ⟨C, C, false⟩ ∧
          C.length = (d t).lda * (d t).lda ∧ Holds .plain C (d t).lda (product (d t))) := by
    intro t
    by_cases ht : t < total
    · obtain ⟨l1, l2⟩ := hd t ht
      have hsq : (d t).lda * (d t).lda ≤ 509 * 509 := Nat.mul_le_mul (by omega) (by omega)
      obtain ⟨P, p1, p2, p3, L, p4, p5, p6⟩ := task_facts d t inner hi (by omega) (by omega)
      exact ⟨P, L, p4, fun _ => ⟨p1, p2, p3, p5, p6⟩⟩
    · exact ⟨.done, [], by simp, fun h => absurd h ht⟩
  choose P L hL hP using key
  obtain ⟨p, calls, e1, e2, e3, e4, e5⟩ := for_facts (Act.run d) total outer ho fun t _ => ((List.range total).map P).getD t .done
  have hget : ∀ t, t < total → ((List.range total).map P).getD t .done = P t := by
    intro t ht
    simp [List.getD, List.getElem?_map, List.getElem?_range ht]
  have hlt : ∀ c ∈ calls, c.1 < total := by
    intro c hc
    have := List.mem_map_of_mem (f := Prod.fst) hc
    rw [e2] at this
    exact List.mem_range.1 this
  have hr : p.RaceFree (Act.run d) := by
    refine e5 (fun c hc => ?_) fun c hc c' hc' hne a ha b hb m => ?_
    · simp only [hget c.1 (hlt c hc)]
      exact (hP c.1 (hlt c hc)).2.1
    · simp only [hget c.1 (hlt c hc)] at ha
      simp only [hget c'.1 (hlt c' hc')] at hb
      refine run_comm d ?_ m
      rw [(hP c.1 (hlt c hc)).2.2.1 a ha, (hP c'.1 (hlt c' hc')).2.2.1 b hb]
      exact hne
  have hs : ∀ m, p.serial (Act.run d) m = (List.range total).foldl (fun m t => (L t).foldl (fun m a => a.run d m) m) m := by
    intro m
    rw [e4, ← e2, List.foldl_map]
    refine List.foldl_ext _ _ m fun m c hc => ?_
    rw [e2, hget c.1 (hlt c hc), (hP c.1 (hlt c hc)).2.2.2.1]
  obtain ⟨f1, f2, f3, f4⟩ := fork_join (Act.run d) p hr (initial d)
  refine ⟨p, ?_, ⟨_, f1⟩, f2, f4, fun k m h t ht => ?_⟩
  · have hmap := mapM_ok (taskOf d inner) P (List.range total) fun t ht => (hP t (List.mem_range.1 ht)).1
    simp only [List.cons_append, List.nil_append, start, number_digits total hint.1, number_digits outer hint.2.1,
      number_digits inner hint.2.2, bind, Except.bind, construct, if_true, ofRes, loopOf, hmap]
    exact e1
  · obtain ⟨C, c1, c2, c3⟩ := (hP t ht).2.2.2.2
    refine ⟨⟨C, C, false⟩, ?_, rfl, c2, c2, c3, c3⟩
    rw [f3 k m h, hs, fold_tasks d L hL _ List.nodup_range, if_pos (List.mem_range.2 ht), c1]

/-- **C148, violated part** Only the first argument is checked to be there: with one or two the program reads arguments that are
missing, which is undefined. -/
theorem tests_missing_fails (mpi : Bool) (args : List (List Char)) (h : args.length = 1 ∨ args.length = 2) :
    start mpi d args = ubOut := by
  match args, h with
  | [_], _ => rfl
  | [_, _], _ => rfl

/-- **C148** Without arguments the program throws. -/
theorem tests_usage (mpi : Bool) : start mpi d [] = throwOut := rfl

/-- **C148, violated part** Without threads for the outer loop the program divides by zero. -/
theorem tests_no_threads_fails (mpi : Bool) (total inner : Nat) (hi : 0 < inner) (hint : total ≤ 2147483647 ∧ inner ≤ 2147483647)
    (hd : ∀ t, t < total → 10 ≤ (d t).lda ∧ (d t).lda < 510) :
    start mpi d [Nat.toDigits 10 total, ['0'], Nat.toDigits 10 inner] = ubOut := by
  have key : ∀ t, ∃ P : Prog Act, t < total → taskOf d inner t = .ok P := by
    intro t
    by_cases ht : t < total
    · obtain ⟨l1, l2⟩ := hd t ht
      have hsq : (d t).lda * (d t).lda ≤ 509 * 509 := Nat.mul_le_mul (by omega) (by omega)
      obtain ⟨P, p1, _⟩ := task_facts d t inner hi (by omega) (by omega)
      exact ⟨P, fun _ => p1⟩
    · exact ⟨.done, fun h => absurd h ht⟩
  choose P hP using key
  have hmap := mapM_ok (taskOf d inner) P (List.range total) fun t ht => hP t (List.mem_range.1 ht)
  have h0 : number ['0'] = .ok 0 := number_digits 0 (by omega)
  simp only [start, number_digits total hint.1, h0, number_digits inner hint.2, bind, Except.bind, construct, if_true, ofRes, loopOf, hmap]
  rfl

/-- The hypotheses are met: two tasks, one of which multiplies in four tiles. -/
example : ∃ p, start false (fun t => ⟨100 + t, fun _ _ => 1, fun i j => if i = j then 2 else 0⟩)
    ["2".toList, "3".toList, "2".toList] = .ok p := by
  obtain ⟨p, h, _⟩ := tests_pass (fun t => ⟨100 + t, fun _ _ => 1, fun i j => if i = j then 2 else 0⟩) false 2 3 2 [] (by omega) (by omega)
    (by omega) (fun t ht => by simp only; omega)
  exact ⟨p, h⟩

end Verif.Whole.Gemm2
