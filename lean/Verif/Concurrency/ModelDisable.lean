import Verif.Concurrency.Model

/-!
# Model of the sections for which MPI is disabled, src/Concurrency.h and src/LabelDisabled.h
-/

namespace Verif.Concurrency

/-- `hasMpi()`, src/Concurrency.h:231. -/
def hasMpi (mode : Nat) : Bool := decide (mode &&& 2 ≠ 0)

/-- `hasPthreads()`, src/Concurrency.h:233. -/
def hasPthreads (mode : Nat) : Bool := decide (mode &&& 1 ≠ 0)

/-- `mpiDisable(label)`, src/Concurrency.h:235-240, with src/LabelDisabled.h:13: `data` are the labels so far. -/
def mpiDisable (mode : Nat) (data : List (List Char)) (label : List Char) : List (List Char) :=
  if !hasMpi mode then data else data ++ [label]

/-- `operator()(label)`, src/LabelDisabled.h:15-18. -/
def isIn (data : List (List Char)) (label : List Char) : Bool := data.contains label

/-- `isMpiDisabled(label)`, src/Concurrency.h:257-262. -/
def isMpiDisabled (mode : Nat) (data : List (List Char)) (label : List Char) : Bool :=
  if !hasMpi mode then false else isIn data label

/-- The references `mpiRank` and `blockSize` of `mpiDisableIfNeeded`, and whether an exception was thrown. -/
structure Share where
  rank : Nat
  blockSize : Nat
  threw : Bool
  deriving DecidableEq

/-- `mpiDisableIfNeeded(mpiRank, blockSize, label, total)`, src/Concurrency.h:242-255. -/
def mpiDisableIfNeeded (mode : Nat) (data : List (List Char)) (rank blockSize : Nat) (label : List Char) (total : Nat) : Share :=
  if !hasMpi mode then ⟨rank, blockSize, false⟩
  else if !isIn data label then ⟨rank, blockSize, false⟩
  else if !hasPthreads mode then ⟨0, total, false⟩
  else ⟨0, total, true⟩

end Verif.Concurrency
