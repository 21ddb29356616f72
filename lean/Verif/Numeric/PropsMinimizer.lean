import Mathlib.Algebra.Order.Ring.Rat
import Mathlib.Tactic.Linarith
import Verif.Numeric.ModelMinimizer

/-!
# Property C90: minimization with GSL

For every minimizer: `simplex` and `conjugateGradient` stop at the first state that passes the test, give its
position and counter, and say with `status()` whether they converged.
-/

namespace Verif.Numeric

open Verif

/-- Specification: the state of the minimizer after `k` iterations. -/
def stateAt {σ α : Type} (g : Gsl σ α) (v : List α) (k : Nat) : σ := (fun s => (g.iterate s).2)^[k] (g.start v)

/-- Specification: the first `k` iterations succeed and none of them reaches convergence. -/
def Searching {σ α : Type} (g : Gsl σ α) (v : List α) (k : Nat) : Prop :=
  ∀ j < k, (g.iterate (stateAt g v j)).1 = 0 ∧ g.test (stateAt g v (j + 1)) ≠ 0

theorem stateAt_succ {σ α : Type} (g : Gsl σ α) (v : List α) (k : Nat) :
    stateAt g v (k + 1) = (g.iterate (stateAt g v k)).2 := by
  unfold stateAt
  rw [Function.iterate_succ_apply']

/-- The status after `k` iterations that go on. -/
def statusAt {σ α : Type} (g : Gsl σ α) (v : List α) (old : Int) : Nat → Int
  | 0 => old
  | k + 1 => g.test (stateAt g v (k + 1))

theorem minLoop_skip {σ α : Type} (g : Gsl σ α) (v : List α) (old : Int) (k left : Nat) (h : Searching g v k) :
    minLoop g (k + left) 0 (g.start v) old = minLoop g left k (stateAt g v k) (statusAt g v old k) := by
  induction k generalizing left with
  | zero => rw [Nat.zero_add]; rfl
  | succ k ih =>
    have h1 := ih (left + 1) (fun j hj => h j (by omega))
    rw [show k + 1 + left = k + (left + 1) by omega, h1]
    obtain ⟨h2, h3⟩ := h k (by omega)
    rw [stateAt_succ] at h3
    rw [minLoop]
    simp only [h2, ne_eq, not_true_eq_false, if_false, h3, statusAt, stateAt_succ]

/-- Convergence: if the first state that passes the test is the one after `k + 1` iterations, both functions
return `k`, give its position, and the status is `GSL_SUCCESS`. -/
theorem minimizer_converged {σ α : Type} (g : Gsl σ α) (n maxIter : Nat) (old : Int) (v : List α) (k : Nat)
    (hn : v.length = n) (hk : k < maxIter) (hs : Searching g v k)
    (hok : (g.iterate (stateAt g v k)).1 = 0) (ht : g.test (stateAt g v (k + 1)) = 0)
    (hp : (g.pos (stateAt g v (k + 1))).length = n) :
    simplex g n maxIter old v = .ok ⟨some k, g.pos (stateAt g v (k + 1)), 0⟩ ∧
    conjugateGradient g n maxIter old v = .ok ⟨some k, g.pos (stateAt g v (k + 1)), 0⟩ := by
  have e : minLoop g maxIter 0 (g.start v) old = .fin k (stateAt g v (k + 1)) 0 := by
    obtain ⟨l, rfl⟩ : ∃ l, maxIter = k + (l + 1) := ⟨maxIter - k - 1, by omega⟩
    rw [minLoop_skip g v old k _ hs, minLoop]
    rw [stateAt_succ] at ht
    simp only [hok, ne_eq, not_true_eq_false, if_false, ht, if_true, stateAt_succ]
  have f : foundVec v (g.pos (stateAt g v (k + 1))) = g.pos (stateAt g v (k + 1)) := by
    unfold foundVec
    rw [List.take_of_length_le (by omega)]
  unfold simplex conjugateGradient
  simp only [hn, ne_eq, not_true_eq_false, if_false, e, f, and_self]

/-- No convergence: after `maxIter` iterations without it both functions return `maxIter`, give the last
position, and the status is not `GSL_SUCCESS`. -/
theorem minimizer_exhausted {σ α : Type} (g : Gsl σ α) (n maxIter : Nat) (old : Int) (v : List α)
    (hn : v.length = n) (hold : old ≠ 0) (hs : Searching g v maxIter)
    (hp : (g.pos (stateAt g v maxIter)).length = n) :
    ∃ st, st ≠ 0 ∧ simplex g n maxIter old v = .ok ⟨some maxIter, g.pos (stateAt g v maxIter), st⟩ ∧
      conjugateGradient g n maxIter old v = .ok ⟨some maxIter, g.pos (stateAt g v maxIter), st⟩ := by
  have e : minLoop g maxIter 0 (g.start v) old =
      .fin maxIter (stateAt g v maxIter) (statusAt g v old maxIter) := by
    have := minLoop_skip g v old maxIter 0 hs
    rw [Nat.add_zero] at this
    rw [this, minLoop]
  have f : foundVec v (g.pos (stateAt g v maxIter)) = g.pos (stateAt g v maxIter) := by
    unfold foundVec
    rw [List.take_of_length_le (by omega)]
  refine ⟨statusAt g v old maxIter, ?_, ?_, ?_⟩
  · cases maxIter with
    | zero => exact hold
    | succ k => exact (hs k (by omega)).2
  · unfold simplex
    simp only [hn, ne_eq, not_true_eq_false, if_false, e, f]
  · unfold conjugateGradient
    simp only [hn, ne_eq, not_true_eq_false, if_false, e, f]

/-- Errors of GSL: `simplex` throws, `conjugateGradient` returns minus the counter; the vector of the caller
keeps its values, and the status is the code of GSL. -/
theorem minimizer_error {σ α : Type} (g : Gsl σ α) (n maxIter : Nat) (old : Int) (v : List α) (k : Nat)
    (hn : v.length = n) (hk : k < maxIter) (hs : Searching g v k) (hbad : (g.iterate (stateAt g v k)).1 ≠ 0) :
    simplex g n maxIter old v = .ok ⟨none, v, (g.iterate (stateAt g v k)).1⟩ ∧
    conjugateGradient g n maxIter old v = .ok ⟨some (-(k : Int)), v, (g.iterate (stateAt g v k)).1⟩ := by
  have e : minLoop g maxIter 0 (g.start v) old = .err k (g.iterate (stateAt g v k)).1 := by
    obtain ⟨l, rfl⟩ : ∃ l, maxIter = k + (l + 1) := ⟨maxIter - k - 1, by omega⟩
    rw [minLoop_skip g v old k _ hs, minLoop]
    simp only [hbad, ne_eq, not_false_eq_true, if_true]
  unfold simplex conjugateGradient
  simp only [hn, ne_eq, not_true_eq_false, if_false, e, and_self]

/-- The three cases above are all there is. -/
theorem minimizer_cases {σ α : Type} (g : Gsl σ α) (v : List α) (maxIter : Nat) :
    Searching g v maxIter ∨ ∃ k < maxIter, Searching g v k ∧
      ((g.iterate (stateAt g v k)).1 ≠ 0 ∨
        ((g.iterate (stateAt g v k)).1 = 0 ∧ g.test (stateAt g v (k + 1)) = 0)) := by
  induction maxIter with
  | zero => exact Or.inl (fun j hj => absurd hj (by omega))
  | succ m ih =>
    rcases ih with h | ⟨k, hk, h⟩
    · by_cases h1 : (g.iterate (stateAt g v m)).1 = 0
      · by_cases h2 : g.test (stateAt g v (m + 1)) = 0
        · exact Or.inr ⟨m, by omega, h, Or.inr ⟨h1, h2⟩⟩
        · refine Or.inl fun j hj => ?_
          by_cases e : j = m
          · subst e; exact ⟨h1, h2⟩
          · exact h j (by omega)
      · exact Or.inr ⟨m, by omega, h, Or.inl h1⟩
    · exact Or.inr ⟨k, by omega, h⟩

/-- The status says whether the position returned passes the test: after a call that does not end with an error,
on a new minimizer, it is `GSL_SUCCESS` exactly if some state within `maxIter` iterations passed the test; then the
function returned the position of the first such state. -/
theorem minimizer_status {σ α : Type} (g : Gsl σ α) (n maxIter : Nat) (v : List α) (hn : v.length = n)
    (hp : ∀ s, (g.pos s).length = n) (hok : ∀ s, (g.iterate s).1 = 0) :
    ∃ r x st, simplex g n maxIter initStatus v = .ok ⟨some r, x, st⟩ ∧
      conjugateGradient g n maxIter initStatus v = .ok ⟨some r, x, st⟩ ∧
      (st = 0 ↔ ∃ k < maxIter, g.test (stateAt g v (k + 1)) = 0) ∧
      (statusString st = "GSL_SUCCESS".toList ↔ st = 0) ∧
      ∃ k ≤ maxIter, x = g.pos (stateAt g v k) ∧ (∀ j < k, 1 ≤ j → g.test (stateAt g v j) ≠ 0) ∧
        (st = 0 → 1 ≤ k ∧ g.test (stateAt g v k) = 0) := by
  have hstr : ∀ st : Int, statusString st = "GSL_SUCCESS".toList ↔ st = 0 := by
    intro st
    unfold statusString
    split_ifs with h1 h2
    · simp [h1]
    · simp only [h1, iff_false]; decide
    · simp only [h1, iff_false]; decide
  rcases minimizer_cases g v maxIter with h | ⟨k, hk, h, hb | ⟨_, ht⟩⟩
  · obtain ⟨st, h0, h1, h2⟩ := minimizer_exhausted g n maxIter initStatus v hn (by decide) h (hp _)
    refine ⟨_, _, st, h1, h2, ?_, hstr st, maxIter, le_rfl, rfl, ?_, fun e => absurd e h0⟩
    · refine ⟨fun e => absurd e h0, ?_⟩
      rintro ⟨k, hk, e⟩
      exact absurd e (h k hk).2
    · intro j hj h1
      have := (h (j - 1) (by omega)).2
      rwa [show j - 1 + 1 = j by omega] at this
  · exact absurd (hok _) hb
  · obtain ⟨h1, h2⟩ := minimizer_converged g n maxIter initStatus v k hn hk h (hok _) ht (hp _)
    refine ⟨_, _, 0, h1, h2, ⟨fun _ => ⟨k, hk, ht⟩, fun _ => rfl⟩, hstr 0, k + 1, by omega, rfl, ?_,
      fun _ => ⟨by omega, ht⟩⟩
    intro j hj h1
    have := (h (j - 1) (by omega)).2
    rwa [show j - 1 + 1 = j by omega] at this

/-- If the iterations of GSL never go up and start where they are told, neither function leaves the caller with a
vector whose value is larger than that of the vector given. -/
theorem minimizer_descends {σ α : Type} (g : Gsl σ α) (f : List α → ℚ) (n maxIter : Nat) (old : Int) (v : List α)
    (hn : v.length = n) (hp : ∀ s, (g.pos s).length = n) (hstart : g.pos (g.start v) = v)
    (hdown : ∀ s, f (g.pos (g.iterate s).2) ≤ f (g.pos s)) (hold : old ≠ 0) :
    ∃ r r', simplex g n maxIter old v = .ok r ∧ conjugateGradient g n maxIter old v = .ok r' ∧
      f r.vec ≤ f v ∧ f r'.vec ≤ f v := by
  have hk : ∀ k, f (g.pos (stateAt g v k)) ≤ f v := by
    intro k
    induction k with
    | zero => exact le_of_eq (congrArg f hstart)
    | succ k ih => rw [stateAt_succ]; exact le_trans (hdown _) ih
  rcases minimizer_cases g v maxIter with h | ⟨k, hlt, h, hb | ⟨ho, ht⟩⟩
  · obtain ⟨st, -, h1, h2⟩ := minimizer_exhausted g n maxIter old v hn hold h (hp _)
    exact ⟨_, _, h1, h2, hk _, hk _⟩
  · obtain ⟨h1, h2⟩ := minimizer_error g n maxIter old v k hn hlt h hb
    exact ⟨_, _, h1, h2, le_rfl, le_rfl⟩
  · obtain ⟨h1, h2⟩ := minimizer_converged g n maxIter old v k hn hlt h ho ht (hp _)
    exact ⟨_, _, h1, h2, hk _, hk _⟩

/-- A minimizer that halves its only coordinate, and is done below one; below zero it reports an error. -/
def halving : Gsl ℚ ℚ where
  start v := v.headD 0
  iterate s := if s < 0 then (27, s) else (0, s / 2)
  test s := if s < 1 then 0 else gslContinue
  pos s := [s]

example : simplex halving 1 10 initStatus [5] = .ok ⟨some 2, [5/8], 0⟩ := by decide +kernel
example : simplex halving 1 2 initStatus [5] = .ok ⟨some 2, [5/4], gslContinue⟩ := by decide +kernel
example : Searching halving [5] 2 ∧ (halving.iterate (stateAt halving [5] 2)).1 = 0 ∧
    halving.test (stateAt halving [5] 3) = 0 := by
  unfold Searching; decide +kernel

/-- The value returned does not tell whether there was an error: `conjugateGradient` returns `0` when the first
iteration fails and the vector is untouched, and also when the first iteration converges. -/
theorem minimizer_return_fails :
    ∃ (g : Gsl ℚ ℚ) (v w : List ℚ), (conjugateGradient g 1 10 initStatus v).map (·.ret) = .ok (some 0) ∧
      (conjugateGradient g 1 10 initStatus w).map (·.ret) = .ok (some 0) ∧
      (conjugateGradient g 1 10 initStatus v).map (·.status) = .ok 27 ∧
      (conjugateGradient g 1 10 initStatus w).map (·.status) = .ok 0 :=
  ⟨halving, [-1], [1], by decide +kernel⟩

/-- `simplex` never returns a negative number, so the test `iter < 0` of examples/minimizer.cpp:48 never finds that
there was no convergence. -/
theorem simplex_nonneg {σ α : Type} (g : Gsl σ α) (n maxIter : Nat) (old : Int) (v : List α) (r : Found α)
    (h : simplex g n maxIter old v = .ok r) : ∀ i, r.ret = some i → 0 ≤ i := by
  intro i hi
  unfold simplex at h
  split_ifs at h with h0
  · cases h
  · split at h
    · cases h; cases hi; exact Int.natCast_nonneg _
    · cases h; cases hi

/-- And it returns without convergence. -/
theorem simplex_silent_fails :
    ∃ (g : Gsl ℚ ℚ) (v : List ℚ), simplex g 1 2 initStatus v = .ok ⟨some 2, [5/4], gslContinue⟩ :=
  ⟨halving, [5], by decide +kernel⟩

/-- A vector of another size than the function is undefined behaviour. -/
theorem minimizer_size_fails :
    ∃ (g : Gsl ℚ ℚ) (v : List ℚ), simplex g 1 2 initStatus v = ubOut ∧ conjugateGradient g 1 2 initStatus v = ubOut :=
  ⟨halving, [5, 6], by decide +kernel⟩

/-- **C90** The names of the states. -/
theorem status_iff (st : Int) : (statusString st = "GSL_SUCCESS".toList ↔ st = 0) ∧ (statusString st = "GSL_CONTINUE".toList ↔ st = gslContinue) ∧
    (statusString st = "UNKNOWN".toList ↔ st ≠ 0 ∧ st ≠ gslContinue) := by
  unfold statusString
  by_cases h0 : st = 0
  · subst h0
    decide
  · by_cases h1 : st = gslContinue
    · rw [if_neg h0, if_pos h1]
      refine ⟨iff_of_false (by decide) h0, iff_of_true rfl h1, iff_of_false (by decide) (fun h => h.2 h1)⟩
    · rw [if_neg h0, if_neg h1]
      exact ⟨iff_of_false (by decide) h0, iff_of_false (by decide) h1, iff_of_true rfl ⟨h0, h1⟩⟩

/-! ## Concrete cases of the hypotheses: the halving minimizer. -/

example := minimizer_converged halving 1 10 initStatus [5] 2 rfl (by decide) (by unfold Searching; decide +kernel) (by decide +kernel) (by decide +kernel) rfl
example := minimizer_error halving 1 10 initStatus [-5] 0 rfl (by decide) (by unfold Searching; decide +kernel) (by decide +kernel)
example := minimizer_exhausted halving 1 2 initStatus [5] rfl (by decide) (by unfold Searching; decide +kernel) rfl
example := simplex_nonneg halving 1 10 initStatus [5] ⟨some 2, [5/8], 0⟩ (by decide +kernel)

end Verif.Numeric
