import Verif.Whole.ModelRange
import Verif.Random.Model48
import Verif.StrUtil.Spec

/-!
# A whole program: examples/loadImbalance.cpp

A parallel loop whose tasks have random weights, with the balancer that takes them into account.
-/

namespace Verif.Whole.Imbalance

open Verif.Parallel Verif.Concurrency Verif.LoadBalancer

/-- `weight_`, examples/loadImbalance.cpp:36-41, from a state of the generator; `rnd` is the rounding of the product. -/
def weightsFrom (rnd : ℚ → ℚ) : Nat → Nat → List Nat
  | 0, _ => []
  | n + 1, x => (1 + ⌊rnd (10 * (Random.drand48 x).1)⌋₊) :: weightsFrom rnd n (Random.drand48 x).2

/-- `x_`, and a register of each thread. -/
structure Mem where
  x : Nat → BitVec 64
  reg : Nat → BitVec 64

/-- The two halves of `x_[i] += v` in thread `j`, between which other threads may run. -/
inductive Act
  | load (j i : Nat)
  | store (j i v : Nat)

/-- The effect of them. -/
def Act.run : Act → Mem → Mem
  | .load j i, m => { m with reg := fun k => if k = j then m.x i else m.reg k }
  | .store j i v, m => { m with x := fun k => if k = i then m.reg j + BitVec.ofNat 64 v else m.x k }

/-- `doTask`, examples/loadImbalance.cpp:52-56. -/
def doTask (weights : List Nat) (t j : Nat) : List Act := (List.range (weights.getD t 0)).flatMap fun i => [.load j j, .store j j (t + i)]

/-- The threads of the loop, for the tasks that the balancer gives to each, src/PthreadsNg.h:204-285. -/
def jobOf (ntasks nthreads : Nat) (lists : List (List Nat)) : Job Unit := ⟨min nthreads ntasks, ofTable lists, 0, ntasks, fun _ _ => []⟩

/-- The loop, src/PthreadsNg.h:204-285 and src/NoPthreadsNg.h:126-134. -/
def loopOf (b : Build) (n : Nat) (weights : List Nat) (lists : List (List Nat)) : Prog Act :=
  if b.usePthreads then
    let job := jobOf weights.length n lists
    Prog.forkAll ((List.range job.nth).map fun j => Prog.seqAll ((threadTasks job j).map fun t => Prog.ofList (doTask weights t j)))
  else Prog.seqAll ((List.range weights.length).map fun t => Prog.ofList (doTask weights t 0))

/-- The loop once started. -/
structure Run where
  conf : Conf
  weights : List Nat
  loop : Prog Act

/-- `main` until the loop, examples/loadImbalance.cpp:70-92; `none` is `return 1`, otherwise the weights.  Vectors with more than `limit`
elements are refused by the standard library. -/
def prepare (b : Build) (rnd : ℚ → ℚ) (limit : Nat) (args : List (List Char)) : Out (Option (Conf × List Nat)) :=
  match args with
  | [a, c] => do
    let n ← Range.number a
    let ntasks ← Range.number c
    let conf ← Range.ofRes (construct b n)
    if b.usePthreads = false ∧ conf.npthreads ≠ 1 then throwOut
    else if ntasks > limit ∨ n > limit then throwOut
    else return some (conf, weightsFrom rnd ntasks (Random.srand48 1234))
  | _ => .ok none

/-- `threadObject.loopCreate(helper, helper.weights())`, examples/loadImbalance.cpp:93: the balancer, whose sort may order equal
weights in any way, and the loop. -/
def Loop (b : Build) (conf : Conf) (weights : List Nat) (r : Out (Option Run)) : Prop :=
  ∃ q, WeightsRun weights (if b.usePthreads then conf.npthreads else 1) q ∧
    r = match q with
      | none => ubOut
      | some x => .ok (some ⟨conf, weights, loopOf b conf.npthreads weights x.1⟩)

/-- The program until all threads of the loop are ready. -/
def Start (b : Build) (rnd : ℚ → ℚ) (limit : Nat) (args : List (List Char)) (r : Out (Option Run)) : Prop :=
  match prepare b rnd limit args with
  | .error e => r = .error e
  | .ok none => r = .ok none
  | .ok (some x) => Loop b x.1 x.2 r

/-- `x_` to begin with, examples/loadImbalance.cpp:34. -/
def zero : Mem := ⟨fun _ => 0, fun _ => 0⟩

/-- What is printed, examples/loadImbalance.cpp:40-43, 91-95: `sync` of lines 58-62, and `result` of line 48, which is an `int`. -/
def printed (b : Build) (r : Run) (m : Mem) : Out (List Char) :=
  if r.conf.npthreads = 0 then ubOut
  else .ok ((r.weights.flatMap fun w => Nat.toDigits 10 w ++ " ".toList) ++ "\n".toList ++ "Using ".toList ++
    (if b.usePthreads then "PthreadsNg".toList else "NoPthreadsNg".toList) ++ " with ".toList ++ Nat.toDigits 10 r.conf.npthreads ++
    " threads.\n".toList ++ "Sum of all tasks= ".toList ++ StrUtil.decimal ((syncSum m.x r.conf.npthreads).setWidth 32).toInt ++ "\n".toList)

end Verif.Whole.Imbalance
