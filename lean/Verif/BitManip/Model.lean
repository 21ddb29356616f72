/-!
# Model of `src/BitManip.h`

`WordType` is `unsigned long`, modelled as `BitVec 64` (the `#else` branch, which is the
one compiled where `ULONG_MAX` is not `0xffffffff`), and as `BitVec 32` for the other
branch.
-/

namespace Verif.BitManip

theorem and_pred_lt (v : BitVec 64) (h : v ≠ 0) : (v &&& (v - 1)).toNat < v.toNat := by
  have hv : v.toNat ≠ 0 := fun h' => h (BitVec.eq_of_toNat_eq (by simpa using h'))
  have h1 : (v - 1).toNat = v.toNat - 1 := by
    rw [BitVec.toNat_sub_of_le]
    · rfl
    · rw [BitVec.le_def]; show 1 ≤ _; omega
  calc (v &&& (v - 1)).toNat = v.toNat &&& (v - 1).toNat := BitVec.toNat_and ..
    _ ≤ (v - 1).toNat := Nat.and_le_right
    _ < v.toNat := by omega

/-- The loop of `countKernighan`, src/BitManip.h:12-13: `for (; v; c++) v &= v - 1;`. -/
def kernighanLoop (v : BitVec 64) (c : Nat) : Nat :=
  if h : v = 0 then c else kernighanLoop (v &&& (v - 1)) (c + 1)
termination_by v.toNat
decreasing_by exact and_pred_lt v h

/-- `countKernighan`, src/BitManip.h:9-15. -/
def countKernighan (v : BitVec 64) : Nat := kernighanLoop v 0

/-- One line `b = (mask & b) + (mask & (b >> s))` of `count`. -/
def swarStep {n : Nat} (mask : BitVec n) (s : Nat) (b : BitVec n) : BitVec n :=
  (mask &&& b) + (mask &&& (b >>> s))

/-- `count`, 64-bit branch, src/BitManip.h:28-35. -/
def count64 (b : BitVec 64) : Nat :=
  let b := swarStep 0x5555555555555555#64 1 b
  let b := swarStep 0x3333333333333333#64 2 b
  let b := swarStep 0x0f0f0f0f0f0f0f0f#64 4 b
  let b := swarStep 0x00ff00ff00ff00ff#64 8 b
  let b := swarStep 0x0000ffff0000ffff#64 16 b
  let b := swarStep 0x00000000ffffffff#64 32 b
  b.toNat

/-- `count`, 32-bit branch, src/BitManip.h:20-26. -/
def count32 (b : BitVec 32) : Nat :=
  let b := swarStep 0x55555555#32 1 b
  let b := swarStep 0x33333333#32 2 b
  let b := swarStep 0x0f0f0f0f#32 4 b
  let b := swarStep 0x00ff00ff#32 8 b
  let b := swarStep 0x0000ffff#32 16 b
  b.toNat

end Verif.BitManip
