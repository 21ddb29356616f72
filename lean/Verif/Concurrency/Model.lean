/-!
# Model of the mode and storage helpers of `src/Concurrency.h`

`mode` is the static `int Concurrency::mode`.  `debug` tells whether `assert` is compiled in.
-/

namespace Verif.Concurrency

/-- Outcome of a call: a value, a `RuntimeError`, or a failed `assert` (abort). -/
inductive Res (α : Type) where
  | ok (a : α)
  | throws
  | abort
  deriving DecidableEq, Repr

/-- `storageSize(npthreads)`, src/Concurrency.h:161-173. -/
def storageSize (debug : Bool) (mode npthreads : Nat) : Res Nat :=
  match mode with
  | 0 => if debug ∧ npthreads ≠ 1 then .abort else .ok npthreads
  | 1 => .ok npthreads
  | 3 => .ok npthreads
  | 2 => .ok 1
  | _ => .throws

/-- `storageIndex(threadNum)`, src/Concurrency.h:175-187. -/
def storageIndex (debug : Bool) (mode threadNum : Nat) : Res Nat :=
  match mode with
  | 0 => if debug ∧ threadNum ≠ 0 then .abort else .ok threadNum
  | 1 => .ok threadNum
  | 3 => .ok threadNum
  | 2 => .ok 0
  | _ => .throws

/-- Build configuration: `USE_PTHREADS` and whether MPI is compiled in (`MPI::hasMpi()`). -/
structure Build where
  usePthreads : Bool
  hasMpi : Bool

/-- Static data after construction: `mode` and `codeSectionParams.npthreads`. -/
structure Conf where
  mode : Nat
  npthreads : Nat

/-- Constructor, src/Concurrency.h:189-212. -/
def construct (b : Build) (nthreads : Nat) : Res Conf :=
  if b.usePthreads then .ok ⟨0 ||| 1 ||| (if b.hasMpi then 2 else 0), nthreads⟩
  else if nthreads ≠ 1 then .throws
  else .ok ⟨0 ||| (if b.hasMpi then 2 else 0), nthreads⟩

/-- `setOptions(cs)`, src/Concurrency.h:264-287 (`npthreads` and `npthreadsLevelTwo` of `cs`). -/
def setOptions (b : Build) (c : Conf) (npthreads levelTwo : Nat) : Res Conf :=
  if npthreads = 1 ∧ levelTwo = 1 then .ok ⟨c.mode, npthreads⟩
  else if b.usePthreads then .ok ⟨c.mode, npthreads⟩
  else .throws

/-- Configurations a running program can have: construct, then any number of `setOptions`. -/
inductive Reachable (b : Build) : Conf → Prop
  | construct (n c) : construct b n = .ok c → Reachable b c
  | setOptions (c n l c') : Reachable b c → setOptions b c n l = .ok c' → Reachable b c'

end Verif.Concurrency
