import Mathlib.Algebra.BigOperators.Fin

/-!
# Loops that may fail

`for (i = 0; i < n; ++i) body` where the body may hit undefined behaviour or throw (`none`).
These are used by the models of several files.
-/

namespace Verif.Loop

variable {σ α : Type}

/-- `for (i = 0; i < n; ++i) s = f(i, s)`; stops with `none` as soon as a body fails. -/
def loopN : Nat → (Nat → σ → Option σ) → σ → Option σ
  | 0, _, s => some s
  | n + 1, f, s => (loopN n f s).bind (f n)

/-- `for (i = lo; i < hi; ++i) s = f(i, s)`. -/
def loopFrom (lo hi : Nat) (f : Nat → σ → Option σ) (s : σ) : Option σ :=
  loopN (hi - lo) (fun i => f (lo + i)) s

/-- `v[i] = a` on a `std::vector`; out of range is `none`. -/
def setAt (l : List α) (i : Nat) (a : α) : Option (List α) :=
  if i < l.length then some (l.set i a) else none

/-- `v[i] = f(v[i])` on a `std::vector`; out of range is `none`. -/
def updAt (l : List α) (i : Nat) (f : α → α) : Option (List α) :=
  (l[i]?).map fun a => l.set i (f a)

/-- `v.resize(n, a)`: keep the first `n` elements, append copies of `a`. -/
def resizeL (l : List α) (n : Nat) (a : α) : List α :=
  l.take n ++ List.replicate (n - l.length) a

/-! ### Rules -/

theorem loopN_inv (P : Nat → σ → Prop) (n : Nat) (f : Nat → σ → Option σ) (s : σ) (h0 : P 0 s)
    (hs : ∀ i s, i < n → P i s → ∃ s', f i s = some s' ∧ P (i + 1) s') :
    ∃ s', loopN n f s = some s' ∧ P n s' := by
  induction n with
  | zero => exact ⟨s, rfl, h0⟩
  | succ n ih =>
    obtain ⟨s1, h1, h2⟩ := ih (fun i s hi => hs i s (by omega))
    obtain ⟨s2, h3, h4⟩ := hs n s1 (by omega) h2
    exact ⟨s2, by rw [loopN, h1]; exact h3, h4⟩

theorem loopFrom_inv (P : Nat → σ → Prop) (lo hi : Nat) (hle : lo ≤ hi) (f : Nat → σ → Option σ)
    (s : σ) (h0 : P lo s)
    (hs : ∀ i s, lo ≤ i → i < hi → P i s → ∃ s', f i s = some s' ∧ P (i + 1) s') :
    ∃ s', loopFrom lo hi f s = some s' ∧ P hi s' := by
  obtain ⟨s', h1, h2⟩ := loopN_inv (fun i s => P (lo + i) s) (hi - lo) (fun i => f (lo + i)) s h0
    (fun i s hi' hp => hs (lo + i) s (by omega) (by omega) hp)
  refine ⟨s', h1, ?_⟩
  have : lo + (hi - lo) = hi := by omega
  simpa [this] using h2

/-- A loop whose bodies all succeed is a fold. -/
theorem loopN_pure (n : Nat) (f : Nat → σ → Option σ) (g : Nat → σ → σ) (s : σ)
    (h : ∀ i s, i < n → f i s = some (g i s)) :
    loopN n f s = some ((List.range n).foldl (fun s i => g i s) s) := by
  induction n with
  | zero => rfl
  | succ n ih =>
    rw [loopN, ih (fun i s hi => h i s (by omega)), List.range_succ, List.foldl_append]
    exact h n _ (by omega)

theorem loopN_congr (n : Nat) (f g : Nat → σ → Option σ) (s : σ)
    (h : ∀ i s, i < n → f i s = g i s) : loopN n f s = loopN n g s := by
  induction n with
  | zero => rfl
  | succ n ih =>
    rw [loopN, loopN, ih (fun i s hi => h i s (by omega))]
    congr 1; funext s'; exact h n s' (by omega)

/-- Accumulating a sum. -/
theorem loopN_sum {M : Type} [AddCommMonoid M] (n : Nat) (g : Nat → Option M) (h : Fin n → M)
    (hg : ∀ k : Fin n, g k = some (h k)) (s : M) :
    loopN n (fun k s => (g k).map fun v => s + v) s = some (s + ∑ k, h k) := by
  induction n with
  | zero => simp [loopN]
  | succ n ih =>
    rw [loopN, ih (fun k => h k.castSucc) (fun k => hg k.castSucc), Fin.sum_univ_castSucc]
    have := hg (Fin.last n)
    simp only [Fin.val_last] at this
    simp [this, add_assoc]

theorem setAt_length {l l' : List α} {i : Nat} {a : α} (h : setAt l i a = some l') :
    l'.length = l.length := by
  unfold setAt at h; split at h
  · cases h; simp
  · cases h

theorem setAt_some {l : List α} {i : Nat} {a : α} (h : i < l.length) :
    setAt l i a = some (l.set i a) := by simp [setAt, h]

theorem updAt_some {l : List α} {i : Nat} (f : α → α) (h : i < l.length) :
    updAt l i f = some (l.set i (f l[i])) := by simp [updAt, h]

theorem resizeL_length (l : List α) (n : Nat) (a : α) : (resizeL l n a).length = n := by
  simp [resizeL]; omega

theorem resizeL_nil (n : Nat) (a : α) : resizeL ([] : List α) n a = List.replicate n a := by
  simp [resizeL]

theorem resizeL_self (l : List α) (a : α) : resizeL l l.length a = l := by simp [resizeL]

end Verif.Loop
