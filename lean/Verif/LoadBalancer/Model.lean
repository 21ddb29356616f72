import Verif.SortM.Model

/-!
# Models of `src/LoadBalancerDefault.h`, `src/LoadBalancerMpi.h`, `src/LoadBalancerWeights.h`
-/

namespace Verif.LoadBalancer

/-- What the parallelizers use of a load balancer: `blockSize(thread)` and
`taskNumber(thread, p)`. -/
structure Balancer where
  blockSize : Nat → Nat
  taskNumber : Nat → Nat → Nat

/-- Constructor of `LoadBalancerDefault`, src/LoadBalancerDefault.h:14-25, and of
`LoadBalancerMpi`, src/LoadBalancerMpi.h:14-25 (same code): the value of `blockSize_`.
`none` is the division by zero in the initialiser when `nthreads = 0`. -/
def defaultBlockSize (ntasks nthreads : Nat) : Option Nat :=
  if nthreads = 0 then none
  else
    let blockSize := ntasks / nthreads
    let (nthreads, blockSize) :=
      if ntasks < nthreads ∧ ntasks > 0 then (ntasks, 1) else (nthreads, blockSize)
    let blockSize := if ntasks % nthreads ≠ 0 then blockSize + 1 else blockSize
    some blockSize

/-- `LoadBalancerDefault`, src/LoadBalancerDefault.h:8-37. -/
def default (ntasks nthreads : Nat) : Option Balancer :=
  (defaultBlockSize ntasks nthreads).map fun bs =>
    { blockSize := fun _ => bs, taskNumber := fun threadNum p => p + threadNum * bs }

/-- The scan of `std::min_element` (first smallest element), as position.
`best`/`bestIdx` is the smallest so far, `i` the position of the head of the list. -/
def minElementLoop (best bestIdx i : Nat) : List Nat → Nat
  | [] => bestIdx
  | x :: xs =>
    if x < best then minElementLoop x i (i + 1) xs else minElementLoop best bestIdx (i + 1) xs

/-- `findThreadWithLightestWork`, src/LoadBalancerWeights.h:70-74.  For an empty vector
`min_element` is `end()`, at distance 0. -/
def findThreadWithLightestWork : List Nat → Nat
  | [] => 0
  | x :: xs => minElementLoop x 0 1 xs

/-- One pass of the assignment loop, src/LoadBalancerWeights.h:33-40, for task `t`;
`none` when an index is out of range (undefined behaviour, asserted in debug builds). -/
def assignStep (weights : List Nat) (s : List (List Nat) × List Nat) (t : Nat) :
    Option (List (List Nat) × List Nat) :=
  let thread := findThreadWithLightestWork s.2
  match s.1[thread]?, s.2[thread]?, weights[t]? with
  | some l, some w, some wt => some (s.1.set thread (l ++ [t]), s.2.set thread (w + wt))
  | _, _, _ => none

/-- The loop `for (iii = 0; iii < ntasks; ++iii) { ii = ntasks - 1 - iii; ... iperm[ii] ... }`,
src/LoadBalancerWeights.h:32-41: `order` is `iperm` read backwards. -/
def assignLoop (weights : List Nat) :
    List (List Nat) × List Nat → List Nat → Option (List (List Nat) × List Nat)
  | s, [] => some s
  | s, t :: ts =>
    match assignStep weights s t with
    | some s' => assignLoop weights s' ts
    | none => none

/-- Constructor of `LoadBalancerWeights`, src/LoadBalancerWeights.h:20-53, after the sort:
`taskNumber_` and the final `workLoad`. -/
def weightsAssign (weights iperm : List Nat) (nthreads : Nat) :
    Option (List (List Nat) × List Nat) :=
  let ntasks := weights.length
  let n := if ntasks < nthreads ∧ ntasks > 0 then ntasks else nthreads
  assignLoop weights (List.replicate nthreads [], List.replicate n 0) iperm.reverse

/-- `LoadBalancerWeights(weights, nthreads)` with any result of the (unstable) sort,
src/LoadBalancerWeights.h:20-53.  `r = none` is an out-of-range access. -/
def WeightsRun (weights : List Nat) (nthreads : Nat)
    (r : Option (List (List Nat) × List Nat)) : Prop :=
  ∃ weights2 iperm, SortM.SortRun weights (List.replicate weights.length 0) 0 weights2 iperm ∧
    r = weightsAssign weights iperm nthreads

/-- `blockSize` and `taskNumber` of `LoadBalancerWeights`, src/LoadBalancerWeights.h:55-66.
(The asserted preconditions make the default values unreachable in the parallelizers.) -/
def ofTable (taskNumber : List (List Nat)) : Balancer where
  blockSize := fun threadNum => (taskNumber.getD threadNum []).length
  taskNumber := fun threadNum p => (taskNumber.getD threadNum []).getD p 0

end Verif.LoadBalancer
