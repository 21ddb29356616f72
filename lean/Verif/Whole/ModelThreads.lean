import Verif.Whole.ModelRange
import Verif.StrUtil.Spec

/-!
# A whole program: examples/threads.cpp

A parallel loop that adds the numbers of its tasks, one partial sum per thread (examples/affinityTest.cpp:24-85 is the same program with
threads bound to processors, which changes only the schedules).  `x_[threadNum] += taskNumber` is two actions, to
read and to write.
-/

namespace Verif.Whole.Threads

open Verif.Parallel Verif.Concurrency Verif.Whole.Range

/-- `x_` of `MyHelper`, examples/threads.cpp:54-55. -/
structure Mem where
  x : Nat → BitVec 64
  /-- a register of each thread -/
  reg : Nat → BitVec 64

/-- What is done to it. -/
inductive Act
  /-- the reading half of examples/threads.cpp:43 in thread `j` -/
  | load (j : Nat)
  /-- the writing half of it -/
  | add (j t : Nat)

/-- The effect of it. -/
def Act.run : Act → Mem → Mem
  | .load j, m => { m with reg := fun k => if k = j then m.x j else m.reg k }
  | .add j t, m => { m with x := fun i => if i = j then m.reg j + BitVec.ofNat 64 t else m.x i }

/-- `MyHelper::doTask`, examples/threads.cpp:41-44. -/
def doTask (t j : Nat) : List Act := [.load j, .add j t]

/-- The loop once started. -/
structure Run where
  threads : Nat
  loop : Prog Act

/-- `threadObject.loopCreate(helper)`, examples/threads.cpp:80 with src/Parallelizer.h:90-119 and src/NoPthreadsNg.h:103-134.  A
balancer of no threads divides by zero. -/
def loopOf (b : Build) (conf : Conf) (tasks : Nat) : Out (Prog Act) :=
  if b.usePthreads then
    match loopCreate tasks conf.npthreads fun t j => Prog.ofList (doTask t j) with
    | some p => .ok p
    | none => ubOut
  else if conf.npthreads ≠ 1 then throwOut
  else .ok (Prog.seqAll ((List.range tasks).map fun t => Prog.ofList (doTask t 0)))

/-- `main` until the loop, examples/threads.cpp:58-80; `none` is `return 1`.  `args` are the arguments after the name of the program;
vectors with more than `limit` elements are refused by the standard library. -/
def start (b : Build) (limit : Nat) (args : List (List Char)) : Out (Option Run) :=
  match args with
  | [a1, a2] => do
    let nthreads ← number a1
    let ntasks ← number a2
    let conf ← ofRes (construct b nthreads)
    if nthreads > limit then throwOut
    else do
      let p ← loopOf b conf ntasks
      return some ⟨nthreads, p⟩
  | _ => .ok none

/-- `x_` to begin with, examples/threads.cpp:31-35. -/
def zero : Mem := ⟨fun _ => 0, fun _ => 0⟩

/-- `x_[0]` after `MyHelper::sync`, examples/threads.cpp:46-50. -/
def sync (threads : Nat) (x : Nat → BitVec 64) : BitVec 64 := (List.range' 1 (threads - 1)).foldl (fun s i => s + x i) (x 0)

/-- `MyHelper::result`, examples/threads.cpp:39: a `SizeType` as an `int`. -/
def result (x : BitVec 64) : Int := (x.truncate 32).toInt

/-- What is printed, examples/threads.cpp:78-82. -/
def printed (b : Build) (r : Run) (m : Mem) : List Char :=
  "Using ".toList ++ (if b.usePthreads then "PthreadsNg".toList else "NoPthreadsNg".toList) ++ " with ".toList ++ digits r.threads ++
    " threads.\n".toList ++ "Sum of all tasks= ".toList ++ StrUtil.decimal (result (sync r.threads m.x)) ++ "\n".toList

end Verif.Whole.Threads
