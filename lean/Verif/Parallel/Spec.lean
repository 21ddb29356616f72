import Verif.Parallel.Model

/-! # Vocabulary of the statements about parallel loops -/

namespace Verif.Parallel

/-- Under every schedule: at every moment no task has been started twice and all started
tasks are in `lo .. hi-1` and run by a thread numbered below `job.nth`; and when the call
returns, every task of the range has been started exactly once. -/
def EachTaskOnce {Act : Type} (job : Job Act) (lo hi : Nat) : Prop :=
  ∀ (Mem : Type) (run : Act → Mem → Mem) (m0 : Mem) (n : Nat) (s : State Act Mem),
    Steps job run n (init m0) s →
      (s.calls.map Prod.fst).Nodup ∧
      (∀ c ∈ s.calls, lo ≤ c.1 ∧ c.1 < hi ∧ c.2 < job.nth) ∧
      (Returned job s → ∀ t, lo ≤ t → t < hi → (s.calls.map Prod.fst).count t = 1)

/-- Under every schedule the call returns: there is a bound on the number of steps, and
as long as the call has not returned some thread can move. -/
def AlwaysReturns {Act : Type} (job : Job Act) : Prop :=
  ∃ N, ∀ (Mem : Type) (run : Act → Mem → Mem) (m0 : Mem) (n : Nat) (s : State Act Mem),
    Steps job run n (init m0) s → n ≤ N ∧ (¬ Returned job s → ∃ t, Step job run s t)

/-- Tasks are independent: the atomic actions of two different tasks of the range commute
(for instance because task `t` writes to slot `t` only and reads nobody else's slot). -/
def Independent {Act Mem : Type} (run : Act → Mem → Mem) (body : Nat → List Act)
    (lo hi : Nat) : Prop :=
  ∀ t u, lo ≤ t → t < hi → lo ≤ u → u < hi → t ≠ u → ∀ a ∈ body t, ∀ b ∈ body u, ∀ m,
    run a (run b m) = run b (run a m)

/-- Memory after the serial loop `for (t = lo; t < hi; ++t) body(t)`. -/
def serialMem {Act Mem : Type} (run : Act → Mem → Mem) (body : Nat → List Act)
    (lo hi : Nat) (m0 : Mem) : Mem :=
  (List.range' lo (hi - lo)).foldl (fun m t => (body t).foldl (fun m a => run a m) m) m0

/-- The action "add `x.2` to accumulator number `x.1`". -/
def addTo {M : Type} [Add M] (x : Nat × M) (m : Nat → M) : Nat → M :=
  fun k => if k = x.1 then m k + x.2 else m k

end Verif.Parallel
