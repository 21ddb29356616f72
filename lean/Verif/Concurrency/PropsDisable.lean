import Verif.Concurrency.ModelDisable
import Verif.Concurrency.Props

/-!
# C145: sections for which MPI is disabled
-/

namespace Verif.Concurrency

/-- The tasks of a process with its share: a block of consecutive ones, cut at the last. -/
def Share.tasks (s : Share) (total : Nat) : List Nat := (List.range total).filter fun t => decide (s.rank * s.blockSize ≤ t ∧ t < (s.rank + 1) * s.blockSize)

theorem mode_bits (b : Build) (c : Conf) (h : Reachable b c) : hasMpi c.mode = b.hasMpi ∧ hasPthreads c.mode = b.usePthreads := by
  rw [(reachable_mode b c h).1]
  cases b.usePthreads <;> cases b.hasMpi <;> decide

theorem disabled_labels (mode : Nat) (labels : List (List Char)) : ∀ data, labels.foldl (mpiDisable mode) data =
    data ++ if hasMpi mode then labels else [] := by
  induction labels with
  | nil => intro data; simp
  | cons l labels ih =>
    intro data
    rw [List.foldl_cons, ih]
    unfold mpiDisable
    cases hasMpi mode <;> simp

/-- **C145** After any sequence of calls that disable MPI, it is disabled for exactly the labels that were given if there is MPI, and for
no label otherwise. -/
theorem disabled_iff (b : Build) (c : Conf) (h : Reachable b c) (labels : List (List Char)) (label : List Char) :
    isMpiDisabled c.mode (labels.foldl (mpiDisable c.mode) []) label = true ↔ b.hasMpi = true ∧ label ∈ labels := by
  obtain ⟨h1, -⟩ := mode_bits b c h
  rw [disabled_labels]
  unfold isMpiDisabled isIn
  rw [h1]
  cases b.hasMpi <;> simp

/-- **C145** A section that is not disabled keeps its rank and block; one that is disabled becomes that of the only process, so that every
process runs all tasks; with threads there is an exception. -/
theorem share_spec (b : Build) (c : Conf) (h : Reachable b c) (labels : List (List Char)) (label : List Char) (rank blockSize total : Nat) :
    (isMpiDisabled c.mode (labels.foldl (mpiDisable c.mode) []) label = false →
      mpiDisableIfNeeded c.mode (labels.foldl (mpiDisable c.mode) []) rank blockSize label total = ⟨rank, blockSize, false⟩) ∧
    (isMpiDisabled c.mode (labels.foldl (mpiDisable c.mode) []) label = true →
      (mpiDisableIfNeeded c.mode (labels.foldl (mpiDisable c.mode) []) rank blockSize label total).tasks total = List.range total ∧
      (mpiDisableIfNeeded c.mode (labels.foldl (mpiDisable c.mode) []) rank blockSize label total).threw = b.usePthreads) := by
  obtain ⟨h1, h2⟩ := mode_bits b c h
  rw [disabled_labels]
  unfold isMpiDisabled mpiDisableIfNeeded
  rw [h1, h2]
  generalize [] ++ (if b.hasMpi = true then labels else []) = data
  cases b.hasMpi
  · simp
  · cases hd : isIn data label
    · simp
    · cases b.usePthreads <;> simp [Share.tasks, List.filter_eq_self]

/-- A program with MPI that disables two sections. -/
example : isMpiDisabled 2 (["one".toList, "two".toList].foldl (mpiDisable 2) []) "two".toList = true ∧
    mpiDisableIfNeeded 2 (["one".toList, "two".toList].foldl (mpiDisable 2) []) 3 5 "two".toList 17 = ⟨0, 17, false⟩ ∧
    mpiDisableIfNeeded 2 (["one".toList, "two".toList].foldl (mpiDisable 2) []) 3 5 "six".toList 17 = ⟨3, 5, false⟩ := by decide

end Verif.Concurrency
