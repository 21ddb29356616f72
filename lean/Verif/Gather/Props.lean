import Verif.Gather.Lemmas

/-! # C08: gather delivers every rank's block to the root -/

namespace Verif.Gather

variable {α β : Type}

/-- Every element of the vector has exactly one owner among the ranks. -/
theorem gather_owner_unique (size nprocs t : Nat) (hn : 0 < nprocs) (ht : t < size) :
    ∃ r, (r < nprocs ∧ t ∈ tasksOf size nprocs r) ∧
      ∀ r', t ∈ tasksOf size nprocs r' → r' = r := by
  obtain ⟨r, h1, h2⟩ := tasksOf_exists size nprocs t hn ht
  exact ⟨r, ⟨h1, h2⟩, fun r' h' => tasksOf_unique _ _ _ _ _ h' h2⟩

/-- C08, for any lawful message format: when the root (rank 0) has done all its receives,
element `t` of its vector is the element `t` of the rank that owns `t`; nobody has anything
left to send and no message is left in a buffer. -/
theorem gather_correct (w : Wire α β) (hw : w.Lawful) (size nprocs : Nat) (hn : 0 < nprocs)
    (v : Nat → Nat → α) (n : Nat) (s : State β)
    (hs : Steps 0 n (init w size nprocs 0 v) s) (hdone : s.expect = []) :
    (∀ r t, r < nprocs → t ∈ tasksOf size nprocs r → rootElement w (v 0) s t = some (v r t)) ∧
    (∀ r, s.pc r = [] ∧ s.chan r 0 = []) := by
  obtain ⟨done, rest, h1, h2, h3, h4⟩ := inv_steps w hw size nprocs hn v n s hs
  rw [hdone] at h2
  have hrest : rest = [] := by
    have := h2.symm; simpa using this
  subst hrest
  rw [List.append_nil] at h1
  constructor
  · intro r t hr ht
    have hf := full_filter_task w size nprocs 0 v r t hr ht
    rw [h1] at hf
    unfold rootElement
    rw [h3, List.filter_map]
    have e : done.filter ((fun m : Nat × β => decide (m.1 = t)) ∘ fun x => (x.2.1, x.2.2.2)) =
        done.filter (fun x => x.2.1 = t) := rfl
    rw [e, hf]
    by_cases hr0 : r = 0
    · subst hr0; simp
    · rw [if_neg hr0, List.map_map, List.map_map]
      have e2 : ((w.tags t).zip (w.pack (v r t))).map ((Prod.snd ∘ fun x => (x.2.1, x.2.2.2)) ∘
          fun m : Nat × β => (r, t, m.1, m.2)) = w.pack (v r t) := by
        have := map_snd_zip (w.tags t) (w.pack (v r t)) (hw.len t _)
        exact this
      rw [e2]
      match hp : w.pack (v r t) with
      | [] => exact absurd hp (hw.ne _)
      | a :: l => simp only; rw [← hp]; exact hw.inv _
  · intro r
    have := h4 r
    simp at this
    exact ⟨this.2, this.1⟩

/-- C08, no deadlock: as long as the root has something to receive, its next receive can
complete, even if the MPI library buffers nothing. -/
theorem gather_progress (w : Wire α β) (hw : w.Lawful) (size nprocs : Nat) (hn : 0 < nprocs)
    (v : Nat → Nat → α) (n : Nat) (s : State β)
    (hs : Steps 0 n (init w size nprocs 0 v) s) (hne : s.expect ≠ []) :
    ∃ s', Step 0 s s' ∧ s'.log.length = s.log.length + 1 :=
  inv_progress w size nprocs v s (inv_steps w hw size nprocs hn v n s hs) hne

/-- C08, termination: every run has at most as many steps as there are messages, twice. -/
theorem gather_terminates (w : Wire α β) (size nprocs : Nat) (hn : 0 < nprocs)
    (v : Nat → Nat → α) : ∃ N, ∀ n s, Steps 0 n (init w size nprocs 0 v) s → n ≤ N :=
  ⟨measure nprocs (init w size nprocs 0 v), fun n s hs => by have := (steps_pc w size nprocs 0 hn v n s hs).2; omega⟩

/-- The three element kinds of the code are covered (for pairs the tags `t` and `2*t` of
different elements collide, e.g. 2 for elements 1 and 2, and it still works). -/
theorem gather_wires_lawful : (scalar α).Lawful ∧ (pair α β).Lawful ∧ (vector α).Lawful :=
  ⟨scalar_lawful, pair_lawful, vector_lawful⟩

/-- For a root other than 0 the gather never completes: messages go to rank 0, and in every
reachable state the root is still waiting for its first message. -/
theorem gather_nonzero_root_fails (w : Wire α β) (hw : w.Lawful) (size nprocs root : Nat)
    (hroot : root ≠ 0) (hr : root < nprocs) (hsz : 0 < size) (v : Nat → Nat → α) (n : Nat)
    (s : State β) (hs : Steps root n (init w size nprocs root v) s) :
    s.expect ≠ [] ∧ s.log = [] := by
  have hst := stuck w size nprocs root v hroot n s hs
  constructor
  · rw [hst.1, receives_eq w hw size nprocs root v]
    have hb := blockSize_pos size nprocs hsz (by omega)
    have h0 : (0 : Nat) ∈ tasksOf size nprocs 0 := by rw [mem_tasksOf]; omega
    intro hnil
    have hf := full_filter_task w size nprocs root v 0 0 (by omega) h0
    rw [if_neg (fun h => hroot h.symm)] at hf
    have hfull : full w size nprocs root v = [] := by simpa using hnil
    rw [hfull] at hf
    have h2 : (w.tags 0).zip (w.pack (v 0 0)) = [] := by
      have := hf.symm; simpa using this
    have h3 := map_snd_zip (w.tags 0) (w.pack (v 0 0)) (hw.len 0 _)
    rw [h2] at h3
    exact hw.ne _ h3.symm
  · clear hst
    generalize hi : init w size nprocs root v = s0 at hs
    induction hs with
    | refl s => subst hi; rfl
    | tail n s t u h1 h2 ih =>
      subst hi
      have hst := stuck w size nprocs root v hroot n t h1
      cases h2 with
      | send r m rest hpc => exact ih rfl
      | recv r t' tag rest pre x post he hch _ => rw [hst.2 r] at hch; simp at hch
      | rendezvous r t' tag rest x prest he hpc h0 _ => exact absurd h0 hroot

/-- Five elements on three ranks: blocks {0,1}, {2,3}, {4}. -/
example : tasksOf 5 3 0 = [0, 1] ∧ tasksOf 5 3 1 = [2, 3] ∧ tasksOf 5 3 2 = [4] := by decide

/-- A complete run (two elements, two ranks) in which the message is delivered without
buffering. -/
example : ∃ s, Steps 0 1 (init (scalar Nat) 2 2 0 (fun r t => 10 * r + t)) s ∧ s.expect = [] ∧
    rootElement (scalar Nat) (fun t => t) s 1 = some 11 :=
  ⟨_, .tail _ _ _ _ (.refl _) (.rendezvous _ 1 1 1 [] 11 [] (by decide) (by decide) rfl
    (by simp [init])), by rfl, by decide⟩

end Verif.Gather
