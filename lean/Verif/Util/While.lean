import Mathlib.Data.Nat.Basic

/-!
# `while` loops and wrapping subtraction
-/

namespace Verif.Loop

variable {σ : Type}

/-- `while (c(s)) s = f(s)` with a step budget; `none` when a body fails or the budget runs out
(a loop that does not end). -/
def whileN : Nat → (σ → Bool) → (σ → Option σ) → σ → Option σ
  | 0, c, _, s => if c s then none else some s
  | fuel + 1, c, f, s => if c s then (f s).bind (whileN fuel c f) else some s

theorem while_inv (I : σ → Prop) (m : σ → Nat) (c : σ → Bool) (f : σ → Option σ) (fuel : Nat) (s : σ)
    (h0 : I s) (hf : m s ≤ fuel)
    (hs : ∀ s, I s → c s = true → ∃ s', f s = some s' ∧ I s' ∧ m s' < m s) :
    ∃ s', whileN fuel c f s = some s' ∧ I s' ∧ c s' = false := by
  induction fuel generalizing s with
  | zero =>
    unfold whileN
    by_cases h : c s = true
    · obtain ⟨s', -, -, h3⟩ := hs s h0 h; omega
    · rw [if_neg h]; exact ⟨s, rfl, h0, by simpa using h⟩
  | succ fuel ih =>
    unfold whileN
    by_cases h : c s = true
    · obtain ⟨s', h1, h2, h3⟩ := hs s h0 h
      rw [if_pos h, h1]
      exact ih s' h2 (by omega)
    · rw [if_neg h]; exact ⟨s, rfl, h0, by simpa using h⟩

/-- Subtraction of two 64-bit unsigned integers (`SizeType` on a 64-bit machine). -/
def sub64 (a b : Nat) : Nat := if b ≤ a then a - b else a + 18446744073709551616 - b

theorem sub64_le {a b : Nat} (h : b ≤ a) : sub64 a b = a - b := by simp [sub64, h]

end Verif.Loop
