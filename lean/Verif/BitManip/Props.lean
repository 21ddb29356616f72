import Verif.BitManip.Lemmas

/-! # C02: bit counting -/

namespace Verif.BitManip

/-- Number of positions at which the word has a one. -/
def popcount {n : Nat} (b : BitVec n) : Nat :=
  (List.range n).countP (fun i => b.getLsbD i)

/-- C02: Kernighan's loop counts the set bits of every 64-bit word. -/
theorem countKernighan_correct (b : BitVec 64) : countKernighan b = popcount b := by
  rw [countKernighan, kernighanLoop_eq, ones_eq_countP 64 _ b.isLt, Nat.zero_add]; rfl

/-- C02: the branch-free version counts the set bits of every 64-bit word. -/
theorem count_correct (b : BitVec 64) : count64 b = popcount b := by
  rw [count64_eq, ones_eq_countP 64 _ b.isLt]; rfl

/-- C02: so does the version compiled when `unsigned long` has 32 bits. -/
theorem count32_correct (b : BitVec 32) : count32 b = popcount b := by
  rw [count32_eq, ones_eq_countP 32 _ b.isLt]; rfl

/-- C02: the two functions agree. -/
theorem count_eq_countKernighan (b : BitVec 64) : count64 b = countKernighan b := by
  rw [count_correct, countKernighan_correct]

/-- The result always fits the `int` that `count` returns. -/
theorem count_le (b : BitVec 64) : count64 b ≤ 64 := by
  rw [count_correct]
  exact Nat.le_trans List.countP_le_length (by simp)

example : count64 0xdeadbeef12345678#64 = 37 ∧ popcount 0xdeadbeef12345678#64 = 37 := by
  decide +kernel

end Verif.BitManip
