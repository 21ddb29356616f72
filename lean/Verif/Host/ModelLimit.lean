import Mathlib.Data.Int.Init

/-!
# Model of `Limit`: limits of memory
-/

namespace Verif.Host

/-- The limits of the process, soft and hard, and whether it may raise the hard one (trusted: the kernel's `struct rlimit`). -/
structure Limits where
  soft : Nat
  hard : Nat
  mayRaise : Bool

/-- An `int` that becomes a `rlim_t`, which has 64 bits and no sign. -/
def toRlim (x : Int) : Nat := (x % 2 ^ 64).toNat

/-- `setrlimit(RLIMIT_AS, …)` (trusted: its documentation); `none`: it fails. -/
def setrlimit (p : Limits) (cur max : Nat) : Option Limits :=
  if max < cur then none else if p.hard < max ∧ p.mayRaise = false then none else some { p with soft := cur, hard := max }

/-- `memory(s, h)`, src/Limit.h:29-35, and `checkRet`, src/Limit.h:46-53, which prints and goes on. -/
def setMemory (p : Limits) (s h : Int) : Limits :=
  let cur := toRlim s
  let max := toRlim (if h > s then h else s)
  match setrlimit p cur max with
  | some p' => p'
  | none => p

/-- `memory()`, src/Limit.h:37-42. -/
def getMemory (p : Limits) : Nat × Nat := (p.soft, p.hard)

end Verif.Host
