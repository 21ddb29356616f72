import Verif.Gather.Model
import Mathlib.Data.List.Basic

namespace Verif.Gather

variable {α β : Type}

theorem scalar_lawful : (scalar α).Lawful := ⟨fun _ _ => rfl, fun _ => by simp [scalar], fun _ => rfl⟩
theorem pair_lawful : (pair α β).Lawful := ⟨fun _ _ => rfl, fun _ => by simp [pair], fun _ => rfl⟩
theorem vector_lawful : (vector α).Lawful :=
  ⟨fun _ _ => rfl, fun _ => by simp [vector], fun _ => by simp [vector]⟩

theorem tasksLoop_eq (size bs r : Nat) : ∀ fuel p, tasksLoop size bs r fuel p =
    List.range' (r * bs + p) (min fuel (size - (r * bs + p)))
  | 0, p => by simp [tasksLoop]
  | fuel + 1, p => by
    rw [tasksLoop]
    split
    · rename_i h
      have : size - (r * bs + p) = 0 := by omega
      rw [this]; simp
    · rename_i h
      have e : min (fuel + 1) (size - (r * bs + p)) =
        min fuel (size - (r * bs + (p + 1))) + 1 := by omega
      rw [e, List.range'_succ, tasksLoop_eq size bs r fuel (p + 1)]
      rfl

theorem mem_tasksOf (size nprocs r t : Nat) : t ∈ tasksOf size nprocs r ↔
    r * blockSize size nprocs ≤ t ∧ t < r * blockSize size nprocs + blockSize size nprocs ∧
      t < size := by
  rw [tasksOf, tasksLoop_eq, List.mem_range'_1]; omega

theorem tasksOf_nodup (size nprocs r : Nat) : (tasksOf size nprocs r).Nodup := by
  rw [tasksOf, tasksLoop_eq]; exact List.nodup_range'

theorem blockSize_cover (size nprocs : Nat) (h : 0 < nprocs) : size ≤ nprocs * blockSize size nprocs := by
  unfold blockSize
  have := Nat.div_add_mod size nprocs
  have := Nat.mod_lt size h
  split
  · rw [Nat.mul_add]; omega
  · omega

theorem blockSize_pos (size nprocs : Nat) (hs : 0 < size) (h : 0 < nprocs) :
    0 < blockSize size nprocs := by
  rcases Nat.eq_zero_or_pos (blockSize size nprocs) with h0 | h0
  · have := blockSize_cover size nprocs h
    rw [h0] at this; omega
  · exact h0

theorem tasksOf_unique (size nprocs r r' t : Nat) (h : t ∈ tasksOf size nprocs r)
    (h' : t ∈ tasksOf size nprocs r') : r = r' := by
  rw [mem_tasksOf] at h h'
  by_contra hne
  rcases Nat.lt_or_gt_of_ne hne with hlt | hlt
  · have : (r + 1) * blockSize size nprocs ≤ r' * blockSize size nprocs :=
      Nat.mul_le_mul_right _ hlt
    rw [Nat.add_mul] at this; omega
  · have : (r' + 1) * blockSize size nprocs ≤ r * blockSize size nprocs :=
      Nat.mul_le_mul_right _ hlt
    rw [Nat.add_mul] at this; omega

theorem tasksOf_exists (size nprocs t : Nat) (h : 0 < nprocs) (ht : t < size) :
    ∃ r, r < nprocs ∧ t ∈ tasksOf size nprocs r := by
  have hb := blockSize_pos size nprocs (by omega) h
  have hc := blockSize_cover size nprocs h
  refine ⟨t / blockSize size nprocs, ?_, ?_⟩
  · rw [Nat.div_lt_iff_lt_mul hb]; omega
  · rw [mem_tasksOf]
    have := Nat.div_add_mod t (blockSize size nprocs)
    have := Nat.mod_lt t hb
    have := Nat.mul_comm (t / blockSize size nprocs) (blockSize size nprocs)
    omega

/-- Everything that is to be transmitted: `(source, task, tag, payload)`. -/
def full (w : Wire α β) (size nprocs root : Nat) (v : Nat → Nat → α) :
    List (Nat × Nat × Nat × β) :=
  ((List.range nprocs).filter (fun r => r ≠ root)).flatMap fun r =>
    (tasksOf size nprocs r).flatMap fun t => ((w.tags t).zip (w.pack (v r t))).map
      fun m => (r, t, m.1, m.2)

theorem map_fst_zip {γ : Type} (l : List Nat) (k : List γ) (h : l.length = k.length) :
    (l.zip k).map Prod.fst = l := by
  rw [List.map_fst_zip]; omega

theorem map_snd_zip {γ : Type} (l : List Nat) (k : List γ) (h : l.length = k.length) :
    (l.zip k).map Prod.snd = k := by
  rw [List.map_snd_zip]; omega

theorem receives_eq (w : Wire α β) (hw : w.Lawful) (size nprocs root : Nat) (v : Nat → Nat → α) :
    receives w size nprocs root =
      (full w size nprocs root v).map (fun x => (x.1, x.2.1, x.2.2.1)) := by
  unfold receives full
  rw [List.map_flatMap]
  congr 1; funext r
  rw [List.map_flatMap]
  congr 1; funext t
  rw [List.map_map]
  conv => lhs; rw [← map_fst_zip (w.tags t) (w.pack (v r t)) (hw.len t _), List.map_map]
  rfl

theorem filter_flatMap_range {γ : Type} (f : Nat → List γ) (src : γ → Nat) (P : Nat → Bool)
    (hsrc : ∀ r, ∀ x ∈ f r, src x = r) (r : Nat) : ∀ N,
    (((List.range N).filter P).flatMap f).filter (fun x => src x = r) =
      if r < N ∧ P r = true then f r else [] := by
  intro N
  induction N with
  | zero => simp
  | succ N ih =>
    rw [List.range_succ, List.filter_append, List.flatMap_append, List.filter_append, ih]
    have hN : ∀ k, (f k).filter (fun x => src x = r) = if k = r then f r else [] := by
      intro k
      split
      · rename_i hk; subst hk
        rw [List.filter_eq_self]; intro x hx; simpa using hsrc k x hx
      · rename_i hk
        rw [List.filter_eq_nil_iff]; intro x hx
        rw [hsrc k x hx]; simpa using hk
    by_cases hP : P N = true
    · simp only [List.filter_cons, hP, if_true, List.filter_nil, List.flatMap_cons,
        List.flatMap_nil, List.append_nil, hN]
      by_cases h1 : N = r
      · subst h1; simp [hP]
      · by_cases h2 : r < N
        · have : r < N + 1 := by omega
          simp [h1, h2, this]
        · have : ¬ r < N + 1 := by omega
          simp [h1, h2, this]
    · simp only [List.filter_cons, hP, if_false, List.filter_nil, List.flatMap_nil,
        Bool.false_eq_true, List.append_nil]
      by_cases h1 : N = r
      · subst h1; simp [hP]
      · by_cases h2 : r < N
        · have : r < N + 1 := by omega
          simp [h2, this]
        · have : ¬ r < N + 1 := by omega
          simp [h2, this]

theorem full_filter_src (w : Wire α β) (size nprocs root : Nat) (v : Nat → Nat → α) (r : Nat)
    (hr : r < nprocs) :
    ((full w size nprocs root v).filter (fun x => x.1 = r)).map (fun x => (x.2.2.1, x.2.2.2)) =
      sends w size nprocs root v r := by
  unfold full
  rw [filter_flatMap_range _ (fun x : Nat × Nat × Nat × β => x.1)]
  · unfold sends
    by_cases h : r = root
    · simp [h]
    · rw [if_pos (by simp [h, hr]), if_neg h]
      rw [List.map_flatMap]
      congr 1; funext t
      simp [Function.comp_def]
  · intro r x hx
    obtain ⟨t, -, hx⟩ := List.mem_flatMap.1 hx
    obtain ⟨m, -, rfl⟩ := List.mem_map.1 hx
    rfl

theorem sends_out_of_range (w : Wire α β) (size nprocs root : Nat) (v : Nat → Nat → α) (r : Nat)
    (hn : 0 < nprocs) (hr : nprocs ≤ r) : sends w size nprocs root v r = [] := by
  unfold sends
  split
  · rfl
  · have : tasksOf size nprocs r = [] := by
      rw [List.eq_nil_iff_forall_not_mem]
      intro t ht
      rw [mem_tasksOf] at ht
      have := blockSize_cover size nprocs hn
      have : nprocs * blockSize size nprocs ≤ r * blockSize size nprocs :=
        Nat.mul_le_mul_right _ hr
      omega
    rw [this]; rfl

/-- Invariant for root 0. -/
def Inv (w : Wire α β) (size nprocs : Nat) (v : Nat → Nat → α) (s : State β) : Prop :=
  ∃ done rest, full w size nprocs 0 v = done ++ rest ∧
    s.expect = rest.map (fun x => (x.1, x.2.1, x.2.2.1)) ∧
    s.log = done.map (fun x => (x.2.1, x.2.2.2)) ∧
    ∀ r, s.chan r 0 ++ s.pc r = (rest.filter (fun x => x.1 = r)).map (fun x => (x.2.2.1, x.2.2.2))

theorem full_src_lt (w : Wire α β) (size nprocs root : Nat) (v : Nat → Nat → α) :
    ∀ x ∈ full w size nprocs root v, x.1 < nprocs := by
  intro x hx
  obtain ⟨r, hr, hx⟩ := List.mem_flatMap.1 hx
  obtain ⟨t, -, hx⟩ := List.mem_flatMap.1 hx
  obtain ⟨m, -, rfl⟩ := List.mem_map.1 hx
  have := (List.mem_filter.1 hr).1
  simpa using this

theorem inv_init (w : Wire α β) (hw : w.Lawful) (size nprocs : Nat) (hn : 0 < nprocs)
    (v : Nat → Nat → α) : Inv w size nprocs v (init w size nprocs 0 v) := by
  refine ⟨[], full w size nprocs 0 v, rfl, receives_eq w hw size nprocs 0 v, rfl, ?_⟩
  intro r
  show [] ++ sends w size nprocs 0 v r = _
  rw [List.nil_append]
  by_cases hr : r < nprocs
  · rw [full_filter_src w size nprocs 0 v r hr]
  · rw [sends_out_of_range w size nprocs 0 v r hn (by omega)]
    have : (full w size nprocs 0 v).filter (fun x => x.1 = r) = [] := by
      rw [List.filter_eq_nil_iff]
      intro x hx
      have := full_src_lt w size nprocs 0 v x hx
      simp; omega
    rw [this]; rfl

theorem inv_step (w : Wire α β) (size nprocs : Nat) (v : Nat → Nat → α) (s s' : State β)
    (hi : Inv w size nprocs v s) (hs : Step 0 s s') : Inv w size nprocs v s' := by
  obtain ⟨done, rest, h1, h2, h3, h4⟩ := hi
  cases hs with
  | send r m prest hpc =>
    refine ⟨done, rest, h1, h2, h3, ?_⟩
    intro k
    have := h4 k
    by_cases hk : k = r
    · subst hk
      rw [hpc] at this
      simpa using this
    · simpa [hk] using this
  | recv r t tag erest pre x post he hch hpre =>
    rw [h2] at he
    match rest, he with
    | y :: rest, he =>
      simp only [List.map_cons, List.cons.injEq, Prod.mk.injEq] at he
      obtain ⟨⟨e1, e2, e3⟩, e4⟩ := he
      have hr := h4 r
      rw [List.filter_cons_of_pos (by simp [e1]), hch] at hr
      have hpre0 : pre = [] := by
        match pre, hpre, hr with
        | [], _, _ => rfl
        | m :: pre, hpre, hr =>
          simp only [List.cons_append, List.map_cons, List.cons.injEq] at hr
          have := hpre m (by simp)
          rw [hr.1] at this
          exact absurd e3 this
      subst hpre0
      simp only [List.nil_append, List.cons_append, List.map_cons, List.cons.injEq,
        Prod.mk.injEq] at hr
      refine ⟨done ++ [y], rest, by rw [h1]; simp, e4.symm, ?_, ?_⟩
      · simp [h3, e2, hr.1.2]
      · intro k
        by_cases hk : k = r
        · subst hk; simpa using hr.2
        · have h5 := h4 k
          rw [List.filter_cons_of_neg (by simp [e1]; exact fun h => hk h.symm)] at h5
          simpa [hk] using h5
  | rendezvous r t tag erest x prest he hpc _ hch =>
    rw [h2] at he
    match rest, he with
    | y :: rest, he =>
      simp only [List.map_cons, List.cons.injEq, Prod.mk.injEq] at he
      obtain ⟨⟨e1, e2, e3⟩, e4⟩ := he
      have hr := h4 r
      rw [List.filter_cons_of_pos (by simp [e1]), hpc] at hr
      have hc0 : s.chan r 0 = [] := by
        match hc : s.chan r 0 with
        | [] => rfl
        | m :: l =>
          rw [hc] at hr hch
          simp only [List.cons_append, List.map_cons, List.cons.injEq] at hr
          have := hch m (by simp)
          rw [hr.1] at this
          exact absurd e3 this
      rw [hc0] at hr
      simp only [List.nil_append, List.map_cons, List.cons.injEq, Prod.mk.injEq] at hr
      refine ⟨done ++ [y], rest, by rw [h1]; simp, e4.symm, ?_, ?_⟩
      · simp [h3, e2, hr.1.2]
      · intro k
        by_cases hk : k = r
        · subst hk; simp [hc0, hr.2]
        · have h5 := h4 k
          rw [List.filter_cons_of_neg (by simp [e1]; exact fun h => hk h.symm)] at h5
          simpa [hk] using h5

theorem inv_steps (w : Wire α β) (hw : w.Lawful) (size nprocs : Nat) (hn : 0 < nprocs)
    (v : Nat → Nat → α) (n : Nat) (s : State β) (h : Steps 0 n (init w size nprocs 0 v) s) :
    Inv w size nprocs v s := by
  generalize hi : init w size nprocs 0 v = s0 at h
  induction h with
  | refl s => subst hi; exact inv_init w hw size nprocs hn v
  | tail n s t u h1 h2 ih => exact inv_step w size nprocs v t u (ih hi) h2

theorem inv_progress (w : Wire α β) (size nprocs : Nat) (v : Nat → Nat → α) (s : State β)
    (hi : Inv w size nprocs v s) (he : s.expect ≠ []) :
    ∃ s', Step 0 s s' ∧ s'.log.length = s.log.length + 1 := by
  obtain ⟨done, rest, h1, h2, h3, h4⟩ := hi
  match rest, h2, h4 with
  | [], h2, _ => simp at h2; exact absurd h2 he
  | y :: rest, h2, h4 =>
    have hr := h4 y.1
    rw [List.filter_cons_of_pos (by simp), List.map_cons] at hr
    simp only [List.map_cons] at h2
    match hc : s.chan y.1 0 with
    | m :: l =>
      rw [hc] at hr
      simp only [List.cons_append, List.cons.injEq] at hr
      refine ⟨_, Step.recv s y.1 y.2.1 y.2.2.1 _ [] y.2.2.2 l h2 (by rw [hc, hr.1]; rfl)
        (by simp), by simp⟩
    | [] =>
      rw [hc] at hr
      exact ⟨_, Step.rendezvous s y.1 y.2.1 y.2.2.1 _ y.2.2.2 _ h2 hr rfl (by simp [hc]), by simp⟩

theorem flatMap_filter_task (f : Nat → List (Nat × Nat × Nat × β))
    (hsrc : ∀ t, ∀ x ∈ f t, x.2.1 = t) (t : Nat) : ∀ l : List Nat, l.Nodup →
    (l.flatMap f).filter (fun x => x.2.1 = t) = if t ∈ l then f t else []
  | [], _ => by simp
  | a :: l, hnd => by
    rw [List.nodup_cons] at hnd
    rw [List.flatMap_cons, List.filter_append, flatMap_filter_task f hsrc t l hnd.2]
    by_cases h : a = t
    · subst h
      have : (f a).filter (fun x => x.2.1 = a) = f a := by
        rw [List.filter_eq_self]; intro x hx; simpa using hsrc a x hx
      rw [this]; simp [hnd.1]
    · have e : (f a).filter (fun x => x.2.1 = t) = [] := by
        rw [List.filter_eq_nil_iff]; intro x hx; rw [hsrc a x hx]; simpa using h
      rw [e]
      have : t ≠ a := fun h' => h h'.symm
      simp [this]

theorem full_filter_task (w : Wire α β) (size nprocs root : Nat) (v : Nat → Nat → α) (r t : Nat)
    (hr : r < nprocs) (ht : t ∈ tasksOf size nprocs r) :
    (full w size nprocs root v).filter (fun x => x.2.1 = t) =
      if r = root then [] else ((w.tags t).zip (w.pack (v r t))).map fun m => (r, t, m.1, m.2) := by
  have h1 : (full w size nprocs root v).filter (fun x => x.2.1 = t) =
      ((full w size nprocs root v).filter (fun x => x.1 = r)).filter (fun x => x.2.1 = t) := by
    rw [List.filter_filter]
    apply List.filter_congr
    intro x hx
    obtain ⟨k, -, hx⟩ := List.mem_flatMap.1 hx
    obtain ⟨u, hu, hx⟩ := List.mem_flatMap.1 hx
    obtain ⟨m, -, rfl⟩ := List.mem_map.1 hx
    by_cases hut : u = t
    · subst hut
      simp [tasksOf_unique size nprocs k r u hu ht]
    · simp [hut]
  rw [h1]
  unfold full
  rw [filter_flatMap_range _ (fun x : Nat × Nat × Nat × β => x.1)]
  · by_cases h : r = root
    · simp [h]
    · rw [if_pos (by simp [h, hr]), if_neg h, flatMap_filter_task _ _ t _ (tasksOf_nodup _ _ _),
        if_pos ht]
      intro t x hx
      obtain ⟨m, -, rfl⟩ := List.mem_map.1 hx
      rfl
  · intro r x hx
    obtain ⟨t, -, hx⟩ := List.mem_flatMap.1 hx
    obtain ⟨m, -, rfl⟩ := List.mem_map.1 hx
    rfl

/-- Decreasing measure. -/
def measure (nprocs : Nat) (s : State β) : Nat :=
  s.expect.length + ((List.range nprocs).map fun r => (s.pc r).length).sum

theorem sum_shrink (f g : Nat → Nat) (r : Nat) (h : ∀ k, k ≠ r → g k = f k) (hr : g r ≤ f r) :
    ∀ N, ((List.range N).map g).sum ≤ ((List.range N).map f).sum ∧
      (r < N → ((List.range N).map g).sum + f r ≤ ((List.range N).map f).sum + g r) := by
  intro N
  induction N with
  | zero => simp
  | succ N ih =>
    rw [List.range_succ, List.map_append, List.map_append, List.sum_append, List.sum_append]
    simp only [List.map_cons, List.map_nil, List.sum_cons, List.sum_nil, Nat.add_zero]
    by_cases hN : N = r
    · subst hN; exact ⟨by omega, by intro _; omega⟩
    · have := h N hN
      exact ⟨by omega, by intro h2; have := ih.2 (by omega); omega⟩

theorem steps_pc (w : Wire α β) (size nprocs root : Nat) (hn : 0 < nprocs) (v : Nat → Nat → α)
    (n : Nat) (s : State β) (h : Steps root n (init w size nprocs root v) s) :
    (∀ r, nprocs ≤ r → s.pc r = []) ∧
    n + measure nprocs s ≤ measure nprocs (init w size nprocs root v) := by
  generalize hi : init w size nprocs root v = s0 at h
  induction h with
  | refl s => subst hi; exact ⟨fun r hr => sends_out_of_range w size nprocs root v r hn hr, by omega⟩
  | tail n s t u h1 h2 ih =>
    obtain ⟨ih1, ih2⟩ := ih hi
    cases h2 with
    | send r m rest hpc =>
      have hr : r < nprocs := by
        by_contra hc
        rw [ih1 r (by omega)] at hpc; simp at hpc
      refine ⟨?_, ?_⟩
      · intro k hk
        have : k ≠ r := by omega
        simpa [this] using ih1 k hk
      · have := (sum_shrink (fun k => (t.pc k).length)
          (fun k => (if k = r then rest else t.pc k).length) r (by intro k hk; simp [hk])
          (by simp [hpc]) nprocs).2 hr
        simp only [hpc, if_true, List.length_cons] at this
        simp only [measure] at ih2 ⊢
        omega
    | recv r t' tag rest pre x post he _ _ =>
      refine ⟨ih1, ?_⟩
      simp only [measure, he, List.length_cons] at ih2 ⊢
      omega
    | rendezvous r t' tag rest x prest he hpc _ _ =>
      refine ⟨?_, ?_⟩
      · intro k hk
        by_cases hkr : k = r
        · subst hkr; rw [ih1 k hk] at hpc; simp at hpc
        · simpa [hkr] using ih1 k hk
      · have := (sum_shrink (fun k => (t.pc k).length)
          (fun k => (if k = r then prest else t.pc k).length) r (by intro k hk; simp [hk])
          (by simp [hpc]) nprocs).1
        simp only [measure, he, List.length_cons] at ih2 ⊢
        omega

theorem stuck (w : Wire α β) (size nprocs root : Nat) (v : Nat → Nat → α) (hroot : root ≠ 0)
    (n : Nat) (s : State β) (h : Steps root n (init w size nprocs root v) s) :
    s.expect = receives w size nprocs root ∧ ∀ r, s.chan r root = [] := by
  generalize hi : init w size nprocs root v = s0 at h
  induction h with
  | refl s => subst hi; exact ⟨rfl, fun _ => rfl⟩
  | tail n s t u h1 h2 ih =>
    obtain ⟨ih1, ih2⟩ := ih hi
    cases h2 with
    | send r m rest hpc =>
      refine ⟨ih1, ?_⟩
      intro k
      simp [hroot, ih2 k]
    | recv r t' tag rest pre x post he hch _ =>
      rw [ih2 r] at hch; simp at hch
    | rendezvous r t' tag rest x prest he hpc h0 _ => exact absurd h0 hroot

end Verif.Gather
