import Verif.Concurrency.Model

/-! # C07: per-thread storage never aliases or overflows -/

namespace Verif.Concurrency

theorem reachable_mode (b : Build) (c : Conf) (h : Reachable b c) :
    c.mode = (if b.usePthreads then 1 else 0) + (if b.hasMpi then 2 else 0) ∧
    (b.usePthreads = false → c.npthreads = 1) := by
  induction h with
  | construct n c h =>
    unfold construct at h
    split at h
    · rename_i hp
      cases h
      cases hm : b.hasMpi <;> simp [hp]
    · rename_i hp
      split at h
      · cases h
      · rename_i hn
        cases h
        cases hm : b.hasMpi <;> simp [hp] <;> omega
  | setOptions c n l c' _ h ih =>
    unfold setOptions at h
    split at h
    · cases h; rename_i hn; exact ⟨ih.1, fun _ => hn.1⟩
    · split at h
      · cases h; rename_i hp; exact ⟨ih.1, fun hf => by rw [hp] at hf; cases hf⟩
      · cases h

/-- C07: in every configuration a program can reach, and for every thread number the
parallelizers can use (below the configured number of threads), `storageIndex` and
`storageSize` succeed, the index is below the size, and different threads get different
indices. -/
theorem storage_safe (debug : Bool) (b : Build) (c : Conf) (h : Reachable b c)
    (t : Nat) (ht : t < c.npthreads) :
    ∃ n i, storageSize debug c.mode c.npthreads = .ok n ∧
      storageIndex debug c.mode t = .ok i ∧ i < n ∧
      ∀ u, u < c.npthreads → storageIndex debug c.mode u = .ok i → u = t := by
  obtain ⟨hm, hp⟩ := reachable_mode b c h
  cases hup : b.usePthreads <;> cases hmpi : b.hasMpi <;> simp [hup, hmpi] at hm hp <;>
    rw [hm]
  · have : t = 0 := by omega
    subst this
    refine ⟨1, 0, by simp [storageSize, hp], by simp [storageIndex], by omega, ?_⟩
    intro u hu _; omega
  · refine ⟨1, 0, by simp [storageSize], by simp [storageIndex], by omega, ?_⟩
    intro u hu _; omega
  · exact ⟨c.npthreads, t, rfl, rfl, ht, fun u _ he => by simpa [storageIndex] using he⟩
  · exact ⟨c.npthreads, t, rfl, rfl, ht, fun u _ he => by simpa [storageIndex] using he⟩

/-- A mode outside 0..3 makes both helpers throw. -/
theorem storage_wrong_mode (debug : Bool) (mode n : Nat) (h : 3 < mode) :
    storageSize debug mode n = .throws ∧ storageIndex debug mode n = .throws := by
  obtain ⟨k, rfl⟩ : ∃ k, mode = k + 4 := ⟨mode - 4, by omega⟩
  exact ⟨rfl, rfl⟩

/-- Without pthreads, asking for more than one thread is refused. -/
theorem no_pthreads_refused (b : Build) (hb : b.usePthreads = false) (n : Nat) (hn : n ≠ 1) :
    construct b n = .throws := by simp [construct, hb, hn]

example : Reachable ⟨true, true⟩ ⟨3, 8⟩ :=
  .setOptions ⟨3, 4⟩ 8 1 _ (.construct 4 _ rfl) rfl
example : storageIndex true 3 7 = .ok 7 ∧ storageSize true 3 8 = .ok 8 := by decide

end Verif.Concurrency
