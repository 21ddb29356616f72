import Verif.Whole.ModelBlas
import Verif.Whole.PropsRange
import Verif.Lapack.PropsInverse

/-!
# C142: the program examples/isBlasThreaded.cpp under all schedules
-/

namespace Verif.Whole.Blas

open Verif.Parallel Verif.Concurrency Verif.Whole.Range Verif.Dense

variable {R : Type} [CommRing R] [StarRing R]

/-! ## Specification -/

/-- Tasks with odd numbers have matrices of twice the size. -/
def scale (t : Nat) : Nat := if Even t then 1 else 2

/-- How many numbers are drawn for the tasks before `t`. -/
def before (m n k t : Nat) : Nat := ((List.range t).map fun u => scale u ^ 2 * (m * k + k * n)).sum

/-- The first factor of task `t`: numbers drawn one after the other, column by column. -/
def left (rand : Nat → R) (m n k t : Nat) : Matrix (Fin (m * scale t)) (Fin (k * scale t)) R :=
  fun i j => rand (before m n k t + (i.val + j.val * (m * scale t)))

/-- The second factor of task `t`: the numbers drawn next. -/
def right (rand : Nat → R) (m n k t : Nat) : Matrix (Fin (k * scale t)) (Fin (n * scale t)) R :=
  fun i j => rand (before m n k t + scale t ^ 2 * (m * k) + (i.val + j.val * (k * scale t)))

/-! ## The matrices to begin with -/

theorem factor_scale (t : Nat) : factor t = scale t := by
  unfold factor scale
  by_cases h : t % 2 = 1
  · rw [if_pos h, if_neg (by rw [Nat.even_iff]; omega)]
  · rw [if_neg h, if_pos (by rw [Nat.even_iff]; omega)]

theorem scale_pos (t : Nat) : 0 < scale t := by unfold scale; split <;> omega

theorem scale_le (t : Nat) : scale t ≤ 2 := by unfold scale; split <;> omega

theorem fill_rep (rand : Nat → R) (p r c : Nat) :
    Represents (fillMatrix rand p r c) r c (fun i j => rand (p + (i.val + j.val * r))) := by
  refine ⟨rfl, rfl, by simp [fillMatrix], ?_⟩
  intro i j
  have hs : Shape (fillMatrix rand p r c) r c := ⟨rfl, rfl, by simp [fillMatrix]⟩
  rw [hs.get i.2 j.2]
  simp [fillMatrix, List.getElem?_map, List.getElem?_range (idx_lt i.2 j.2)]

/-- The matrices of task `t`. -/
def trip (rand : Nat → R) (m n k t : Nat) : Trip R :=
  ⟨fillMatrix rand (before m n k t) (m * scale t) (k * scale t),
    fillMatrix rand (before m n k t + m * scale t * (k * scale t)) (k * scale t) (n * scale t), Mat.mk0 (m * scale t) (n * scale t)⟩

theorem before_succ (m n k t : Nat) : before m n k (t + 1) = before m n k t + m * scale t * (k * scale t) + k * scale t * (n * scale t) := by
  unfold before
  rw [List.range_succ, List.map_append, List.sum_append]
  simp only [List.map_cons, List.map_nil, List.sum_cons, List.sum_nil]
  ring

theorem fits_scale {limit a b : Nat} (h : 4 * (a * b) ≤ limit) (t : Nat) : fits limit (a * scale t) (b * scale t) = true := by
  unfold fits
  have e : a * scale t * (b * scale t) = scale t * scale t * (a * b) := by ring
  have : scale t * scale t ≤ 2 * 2 := Nat.mul_le_mul (scale_le t) (scale_le t)
  have := Nat.mul_le_mul_right (a * b) this
  simp only [decide_eq_true_eq]
  omega

theorem make_ok (limit : Nat) (rand : Nat → R) (m n k total : Nat) (ht : total ≤ limit) (h1 : 4 * (m * k) ≤ limit)
    (h2 : 4 * (k * n) ≤ limit) (h3 : 4 * (m * n) ≤ limit) :
    make limit rand m n k total = .ok ((List.range total).map (trip rand m n k)) := by
  have key : ∀ j, (List.range j).foldlM (makeOne limit rand m n k) (([] : List (Trip R)), 0) =
      (.ok ((List.range j).map (trip rand m n k), before m n k j) : Out (List (Trip R) × Nat)) := by
    intro j
    induction j with
    | zero => rfl
    | succ j ih =>
      rw [List.range_succ, List.foldlM_append, ih]
      simp only [bind, Except.bind, List.foldlM_cons, List.foldlM_nil, makeOne, factor_scale, fits_scale h1, fits_scale h2, fits_scale h3,
        Bool.and_self, if_true, pure, Except.pure, List.map_append, List.map_cons, List.map_nil, before_succ]
      rfl
  unfold make
  rw [if_neg (by omega), key]
  rfl

/-! ## A task -/

theorem fold_on (t : Nat) : ∀ (l : List Act) (_ : ∀ a ∈ l, a.task = t) (m : Mem R),
    l.foldl (fun m a => Act.run a m) m = fun u => if u = t then (m t).bind (fun x => l.foldlM (fun x a => a.on x) x) else m u := by
  intro l
  induction l with
  | nil =>
    intro _ m
    funext u
    by_cases h : u = t
    · subst h; simp
    · simp [h]
  | cons a l ih =>
    intro hl m
    rw [List.foldl_cons, ih (fun b hb => hl b (List.mem_cons_of_mem _ hb))]
    have ha := hl a List.mem_cons_self
    funext u
    by_cases h : u = t
    · subst h
      simp only [if_true, Act.run, ha, List.foldlM_cons]
      cases m u <;> rfl
    · simp only [h, if_false, Act.run, ha]

theorem entries_on (t : Nat) (x : Trip R) : ∀ (l : List GemmR.Step) (d : List R),
    (l.map (Act.entry t)).foldlM (fun (x : Trip R) a => a.on x) { x with c := { x.c with data := d } } =
      (l.foldlM (GemmR.Step.run (gemmArgs x)) d).map fun d' => { x with c := { x.c with data := d' } } := by
  intro l
  induction l with
  | nil => intro d; rfl
  | cons s l ih =>
    intro d
    rw [List.map_cons, List.foldlM_cons, List.foldlM_cons]
    have e : gemmArgs { x with c := { x.c with data := d } } = gemmArgs x := rfl
    simp only [Act.on, e]
    cases s.run (gemmArgs x) d with
    | none => rfl
    | some d' => exact ih d'

theorem task_acts (t : Nat) (x : Trip R) : ∀ a ∈ doTask t x, a.task = t := by
  intro a ha
  unfold doTask at ha
  split at ha
  · split at ha
    · rcases List.mem_append.1 ha with h | h
      · obtain ⟨s, _, rfl⟩ := List.mem_map.1 h; rfl
      · simp only [List.mem_cons, List.not_mem_nil, or_false] at h
        rcases h with rfl | rfl <;> rfl
    · simp only [List.mem_cons, List.not_mem_nil, or_false] at ha; subst ha; rfl
  · simp only [List.mem_cons, List.not_mem_nil, or_false] at ha; subst ha; rfl

/-- What a task does with matrices that can be multiplied. -/
theorem task_on (t : Nat) (x : Trip R) {r s q : Nat} (hr : 0 < r) (hs : 0 < s) (hq : 0 < q) (A : Matrix (Fin r) (Fin q) R)
    (B : Matrix (Fin q) (Fin s) R) (ha : Represents x.a r q A) (hb : Represents x.b q s B) (hc : Represents x.c r s 0) :
    ∃ y, (doTask t x).foldlM (fun (x : Trip R) a => a.on x) x = some y ∧
      Represents y.a q s B ∧ Represents y.b r s (A * B) ∧ Represents y.c r s (A * B) := by
  have e1 : asserted x = true := by
    unfold asserted
    have f1 := Lapack.isSome_get ha.shape hr hq
    have f2 := Lapack.isSome_get hb.shape hq hs
    have f3 := Lapack.isSome_get hc.shape hr hs
    simp only [Option.isNone_eq_false_iff] at f1 f2 f3
    simp [ha.nrow, ha.ncol, hb.nrow, hb.ncol, hc.nrow, hc.ncol, f1, f2, f3]
  obtain ⟨a, b, c⟩ := x
  obtain ⟨ar, ac, ad⟩ := a
  obtain ⟨br, bc, bd⟩ := b
  obtain ⟨cr, cc, cd⟩ := c
  obtain ⟨rfl, rfl, _, _⟩ : ar = r ∧ ac = q ∧ br = q ∧ bc = s := ⟨ha.nrow, ha.ncol, hb.nrow, hb.ncol⟩
  have hbr : br = ac := hb.nrow
  have hbc : bc = s := hb.ncol
  have hcr : cr = ar := hc.nrow
  have hcc : cc = s := hc.ncol
  subst hbr hbc hcr
  obtain rfl := hcc
  obtain ⟨l, C', g1, g2, g3, g4⟩ := GemmR.blas_spec (gemmArgs ⟨⟨cr, br, ad⟩, ⟨br, cc, bd⟩, ⟨cr, cc, cd⟩⟩) .plain .plain
    ⟨by simp [gemmArgs, GemmR.Form.letters], by simp [gemmArgs, GemmR.Form.letters], ⟨hr, hs⟩, ⟨hr, Nat.le_refl _⟩, ⟨hq, Nat.le_refl _⟩,
      Nat.le_refl _⟩ A B (Lapack.rep_holds' ha) (Lapack.rep_holds' hb) cd 0 (Lapack.rep_holds' hc)
  have g5 : GemmR.Holds .plain C' cr (A * B) := by
    have : (gemmArgs (⟨⟨cr, br, ad⟩, ⟨br, cc, bd⟩, ⟨cr, cc, cd⟩⟩ : Trip R)).alpha • (A * B) +
        (gemmArgs (⟨⟨cr, br, ad⟩, ⟨br, cc, bd⟩, ⟨cr, cc, cd⟩⟩ : Trip R)).beta • (0 : Matrix (Fin cr) (Fin cc) R) = A * B := by
      simp [gemmArgs]
    intro i j
    have h4 := g4 i j
    refine h4.trans ?_
    exact congrArg some (congrFun (congrFun this i) j)
  have hl : C'.length = cr * cc := by rw [g3]; exact hc.size
  refine ⟨⟨⟨br, cc, bd⟩, ⟨cr, cc, C'⟩, ⟨cr, cc, C'⟩⟩, ?_, hb, Lapack.holds_rep' hl g5, Lapack.holds_rep' hl g5⟩
  unfold doTask
  rw [if_pos e1]
  have g1' : GemmR.blasSteps (gemmArgs (⟨⟨cr, br, ad⟩, ⟨br, cc, bd⟩, ⟨cr, cc, cd⟩⟩ : Trip R)) cr cc 0 0 0 = .ok l := g1
  simp only [g1', List.foldlM_append]
  have := entries_on t (⟨⟨cr, br, ad⟩, ⟨br, cc, bd⟩, ⟨cr, cc, cd⟩⟩ : Trip R) l cd
  rw [g2] at this
  rw [this]
  rfl

/-! ## The loop -/

theorem run_comm {a b : Act} (h : a.task ≠ b.task) (m : Mem R) : a.run (b.run m) = b.run (a.run m) := by
  funext u
  simp only [Act.run]
  by_cases h1 : u = a.task
  · subst h1
    simp [h]
  · simp [h1]

/-- Tasks one after the other. -/
theorem fold_tasks (xs : List (Trip R)) : ∀ (ts : List Nat) (_ : ts.Nodup) (m : Mem R) (t : Nat),
    (ts.foldl (fun m t => (bodyOf xs t).foldl (fun m a => Act.run a m) m) m) t =
      if t ∈ ts then (m t).bind (fun x => (bodyOf xs t).foldlM (fun x a => a.on x) x) else m t := by
  have hb : ∀ t, ∀ a ∈ bodyOf xs t, a.task = t := by
    intro t a ha
    unfold bodyOf at ha
    split at ha
    · exact task_acts t _ a ha
    · simp only [List.mem_cons, List.not_mem_nil, or_false] at ha; subst ha; rfl
  intro ts
  induction ts with
  | nil => intro _ m t; simp
  | cons u ts ih =>
    intro hnd m t
    rw [List.nodup_cons] at hnd
    rw [List.foldl_cons, ih hnd.2, fold_on u _ (hb u)]
    by_cases h : t = u
    · subst h
      simp [hnd.1]
    · simp [h]

/-- The loop, however it is scheduled. -/
theorem loop_ends (b : Build) (threads : Nat) (xs : List (Trip R)) (hn : 0 < threads) :
    ∃ p, loopOf b threads xs = .ok p ∧
      (∀ k q m', p.Steps Act.run k (fun t => xs[t]?) q m' → k ≤ p.size) ∧
      (∀ k q m', p.Steps Act.run k (fun t => xs[t]?) q m' → q ≠ .done → ∃ q' m'', q.Step Act.run m' q' m'') ∧
      (∃ k m', p.Steps Act.run k (fun t => xs[t]?) .done m') ∧
      ∀ k m', p.Steps Act.run k (fun t => xs[t]?) .done m' → ∀ t x, xs[t]? = some x →
        m' t = (doTask t x).foldlM (fun x a => a.on x) x := by
  have hb : ∀ t, ∀ a ∈ bodyOf xs t, a.task = t := by
    intro t a ha
    unfold bodyOf at ha
    split at ha
    · exact task_acts t _ a ha
    · simp only [List.mem_cons, List.not_mem_nil, or_false] at ha; subst ha; rfl
  have key : ∃ p : Prog Act, loopOf b threads xs = .ok p ∧ p.RaceFree (Act.run (R := R)) ∧
      ∀ m, p.serial (Act.run (R := R)) m =
        (List.range xs.length).foldl (fun m t => (bodyOf xs t).foldl (fun m a => Act.run a m) m) m := by
    cases hup : b.usePthreads with
    | true =>
      obtain ⟨p, calls, e1, e2, e3, e4, e5, e6⟩ := loop_facts (Act.run (R := R)) xs.length threads hn
        fun t _ => Prog.ofList (bodyOf xs t)
      refine ⟨p, ?_, ?_, ?_⟩
      · unfold loopOf
        rw [if_pos hup, e1]
      · refine e6 (fun c _ => ofList_raceFree _ _) ?_
        intro c _ d _ h1 h2 a ha b hb' m
        rw [ofList_acts] at ha hb'
        exact run_comm (by rw [hb _ a ha, hb _ b hb']; exact h1) m
      · intro m
        rw [e5, ← e2, List.foldl_map]
        simp only [ofList_serial]
    | false =>
      refine ⟨_, by unfold loopOf; rw [if_neg (by simp [hup])], ?_, ?_⟩
      · refine seqAll_raceFree ?_
        intro p hp
        obtain ⟨t, _, rfl⟩ := List.mem_map.1 hp
        exact ofList_raceFree _ _
      · intro m
        rw [seqAll_serial]
        simp only [List.foldl_map, ofList_serial]
  obtain ⟨p, e1, e2, e3⟩ := key
  obtain ⟨f1, f2, f3, f4⟩ := fork_join (Act.run (R := R)) p e2 (fun t => xs[t]?)
  refine ⟨p, e1, f1, f2, f4, fun k m' h t x hx => ?_⟩
  have ht : t < xs.length := by
    by_contra hc
    rw [List.getElem?_eq_none (by omega)] at hx
    cases hx
  rw [f3 k m' h, e3, fold_tasks xs _ List.nodup_range, if_pos (List.mem_range.2 ht)]
  simp only [hx, Option.bind_some, bodyOf]

/-! ## The program -/

/-- **C142** For all sizes of at least one and all numbers of tasks and threads, with or without the pthreads library, however the
threads are scheduled, the program ends, never gets stuck, reads and writes no memory out of bounds, and leaves for each task the
product of its two factors, and the second factor in the place of the first. -/
theorem products_ok (b : Build) (limit : Nat) (rand : Nat → R) (m k n total threads : Nat) (more : List (List Char))
    (hm : 0 < m) (hk : 0 < k) (hn : 0 < n) (ht : 0 < threads) (hb : b.usePthreads = true ∨ threads = 1)
    (hi : 2 * m ≤ 2147483647 ∧ 2 * k ≤ 2147483647 ∧ 2 * n ≤ 2147483647 ∧ total ≤ 2147483647 ∧ threads ≤ 2147483647)
    (hl : total ≤ limit ∧ 4 * (m * k) ≤ limit ∧ 4 * (k * n) ≤ limit ∧ 4 * (m * n) ≤ limit) :
    ∃ s, start b limit rand ([Nat.toDigits 10 m, Nat.toDigits 10 k, Nat.toDigits 10 n, Nat.toDigits 10 total,
        Nat.toDigits 10 threads] ++ more) = .ok (some s) ∧
      (∃ N, ∀ j q mem, s.loop.Steps Act.run j s.mem q mem → j ≤ N) ∧
      (∀ j q mem, s.loop.Steps Act.run j s.mem q mem → q ≠ .done → ∃ q' mem', q.Step Act.run mem q' mem') ∧
      (∃ j mem, s.loop.Steps Act.run j s.mem .done mem) ∧
      ∀ j mem, s.loop.Steps Act.run j s.mem .done mem → ∀ t, t < total → ∃ x, mem t = some x ∧
        Represents x.c (m * scale t) (n * scale t) (left rand m n k t * right rand m n k t) ∧
        Represents x.b (m * scale t) (n * scale t) (left rand m n k t * right rand m n k t) ∧
        Represents x.a (k * scale t) (n * scale t) (right rand m n k t) := by
  obtain ⟨p, e1, e2, e3, e4, e5⟩ := loop_ends b threads ((List.range total).map (trip rand m n k)) ht
  refine ⟨⟨fun t => ((List.range total).map (trip rand m n k))[t]?, p⟩, ?_, ⟨_, e2⟩, e3, e4, ?_⟩
  · simp only [List.cons_append, List.nil_append, start, number_digits m (by omega), number_digits k (by omega), number_digits n (by omega),
      number_digits total hi.2.2.2.1, number_digits threads hi.2.2.2.2, bind, Except.bind]
    rw [if_neg (by rcases hb with h | h <;> simp [h]), make_ok limit rand m n k total hl.1 hl.2.1 hl.2.2.1 hl.2.2.2]
    simp only [e1]
    rfl
  · intro j mem h t ht'
    have hx : ((List.range total).map (trip rand m n k))[t]? = some (trip rand m n k t) := by
      rw [List.getElem?_map, List.getElem?_range ht']
      rfl
    have hp := scale_pos t
    have hB : Represents (trip rand m n k t).b (k * scale t) (n * scale t) (right rand m n k t) := by
      have := fill_rep rand (before m n k t + m * scale t * (k * scale t)) (k * scale t) (n * scale t)
      have e : m * scale t * (k * scale t) = scale t ^ 2 * (m * k) := by ring
      simp only [trip]
      rw [e] at this ⊢
      exact this
    obtain ⟨y, y1, y2, y3, y4⟩ := task_on t (trip rand m n k t) (Nat.mul_pos hm hp) (Nat.mul_pos hn hp) (Nat.mul_pos hk hp)
      (left rand m n k t) (right rand m n k t) (fill_rep rand _ _ _) hB
      ⟨rfl, rfl, by simp [trip, Mat.mk0], fun i j => shape_mk0_get i.2 j.2⟩
    exact ⟨y, (e5 j mem h t _ hx).trans y1, y4, y3, y2⟩

/-- **C142, violated part** With a size of zero and one task the program has undefined behaviour, however it is scheduled: the
address of the first element of an empty matrix is taken. -/
theorem products_empty_fails (b : Build) (limit : Nat) (rand : Nat → R) (k n total : Nat) (ht : 0 < total)
    (hi : k ≤ 2147483647 ∧ n ≤ 2147483647 ∧ total ≤ 2147483647)
    (hl : total ≤ limit ∧ 4 * (k * n) ≤ limit) :
    ∃ s, start b limit rand [['0'], Nat.toDigits 10 k, Nat.toDigits 10 n, Nat.toDigits 10 total, ['1']] = .ok (some s) ∧
      (∃ j mem, s.loop.Steps Act.run j s.mem .done mem) ∧
      ∀ j mem, s.loop.Steps Act.run j s.mem .done mem → mem 0 = none := by
  obtain ⟨p, e1, _, _, e4, e5⟩ := loop_ends b 1 ((List.range total).map (trip rand 0 n k)) (by omega)
  refine ⟨⟨fun t => ((List.range total).map (trip rand 0 n k))[t]?, p⟩, ?_, e4, ?_⟩
  · have h0 : number ['0'] = .ok 0 := number_digits 0 (by omega)
    have h1 : number ['1'] = .ok 1 := number_digits 1 (by omega)
    simp only [start, h0, h1, number_digits k hi.1, number_digits n hi.2.1, number_digits total hi.2.2, bind, Except.bind]
    rw [if_neg (by simp), make_ok limit rand 0 n k total hl.1 (by simp) hl.2 (by simp)]
    simp only [e1]
    rfl
  · intro j mem h
    have hx : ((List.range total).map (trip rand 0 n k))[0]? = some (trip rand 0 n k 0) := by
      rw [List.getElem?_map, List.getElem?_range ht]
      rfl
    rw [e5 j mem h 0 _ hx]
    have : asserted (trip rand 0 n k 0) = false := by simp [asserted, trip, fillMatrix, Mat.get]
    unfold doTask
    rw [if_neg (by simp [this])]
    rfl

/-- **C142** Without the pthreads library the program refuses any number of threads other than one. -/
theorem products_serial_refused (mpi : Bool) (limit : Nat) (rand : Nat → R) (m k n total threads : Nat) (ht : threads ≠ 1)
    (hi : m ≤ 2147483647 ∧ k ≤ 2147483647 ∧ n ≤ 2147483647 ∧ total ≤ 2147483647 ∧ threads ≤ 2147483647) :
    start ⟨false, mpi⟩ limit rand [Nat.toDigits 10 m, Nat.toDigits 10 k, Nat.toDigits 10 n, Nat.toDigits 10 total,
        Nat.toDigits 10 threads] = throwOut := by
  simp only [start, number_digits m hi.1, number_digits k hi.2.1, number_digits n hi.2.2.1, number_digits total hi.2.2.2.1,
    number_digits threads hi.2.2.2.2, bind, Except.bind]
  rw [if_pos (by simp [ht])]

/-- **C142** With fewer than five arguments nothing is done. -/
theorem products_usage (b : Build) (limit : Nat) (rand : Nat → R) (args : List (List Char)) (h : args.length < 5) :
    start b limit rand args = .ok none := by
  match args, h with
  | [], _ => rfl
  | [_], _ => rfl
  | [_, _], _ => rfl
  | [_, _, _], _ => rfl
  | [_, _, _, _], _ => rfl

/-- The hypotheses are met: three tasks in two threads. -/
example : ∃ s, start ⟨true, false⟩ 1000 (fun p => (p : ℤ)) ["2".toList, "3".toList, "1".toList, "3".toList, "2".toList] = .ok (some s) ∧
    ∃ j mem, s.loop.Steps Act.run j s.mem .done mem ∧ ∃ x, mem 0 = some x ∧ x.c.data = [46, 67] := by
  obtain ⟨s, h1, _, _, ⟨j, mem, h4⟩, h5⟩ := products_ok ⟨true, false⟩ 1000 (fun p => (p : ℤ)) 2 3 1 3 2 [] (by omega) (by omega) (by omega)
    (by omega) (Or.inl rfl) (by omega) (by omega)
  obtain ⟨x, hx, hc, _⟩ := h5 j mem h4 0 (by omega)
  refine ⟨s, h1, j, mem, h4, x, hx, ?_⟩
  have hlen : x.c.data.length = 2 := hc.size
  have e0 := Lapack.rep_holds' hc ⟨0, by decide⟩ ⟨0, by decide⟩
  have e1 := Lapack.rep_holds' hc ⟨1, by decide⟩ ⟨0, by decide⟩
  obtain ⟨u, v, huv⟩ : ∃ u v, x.c.data = [u, v] := by
    match hd : x.c.data, hlen with
    | [u, v], _ => exact ⟨u, v, rfl⟩
  rw [huv] at e0 e1 ⊢
  have f0 : (left (fun p => (p : ℤ)) 2 1 3 0 * right (fun p => (p : ℤ)) 2 1 3 0) ⟨0, by decide⟩ ⟨0, by decide⟩ = 46 := by decide +kernel
  have f1 : (left (fun p => (p : ℤ)) 2 1 3 0 * right (fun p => (p : ℤ)) 2 1 3 0) ⟨1, by decide⟩ ⟨0, by decide⟩ = 67 := by decide +kernel
  rw [f0] at e0
  rw [f1] at e1
  simp at e0 e1
  simp [e0, e1]

end Verif.Whole.Blas
