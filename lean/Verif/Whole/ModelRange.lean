import Verif.Parallel.ModelNested
import Verif.Concurrency.Model
import Verif.Collective.Model
import Verif.Host.ModelRunId

/-!
# A whole program: examples/range.cpp

A parallel loop that adds the numbers of its tasks and stores their squares.  The call of `sleep` has no effect in the model.
`sum_[ind] += taskNumber` is two actions, to read and to write.
-/

namespace Verif.Whole.Range

open Verif.Parallel Verif.Concurrency

/-- `sum_` and `v_` of `MyLoop`, examples/range.cpp:79-80. -/
structure Mem where
  sum : Nat → BitVec 64
  v : Nat → BitVec 64
  /-- a register of each thread -/
  reg : Nat → BitVec 64

/-- What is done to them. -/
inductive Act
  /-- the reading half of examples/range.cpp:49 in thread `j` -/
  | load (j ind : Nat)
  /-- the writing half of it -/
  | add (j ind t : Nat)
  /-- examples/range.cpp:50 -/
  | store (t : Nat)

/-- The effect of it. -/
def Act.run : Act → Mem → Mem
  | .load j ind, m => { m with reg := fun k => if k = j then m.sum ind else m.reg k }
  | .add j ind t, m => { m with sum := fun i => if i = ind then m.reg j + BitVec.ofNat 64 t else m.sum i }
  | .store t, m => { m with v := fun i => if i = t then BitVec.ofNat 64 t * BitVec.ofNat 64 t else m.v i }

/-- `MyLoop::doTask`, examples/range.cpp:44-51.  (`storageIndex` does not throw for modes below four.) -/
def doTask (debug : Bool) (mode t j : Nat) : List Act :=
  match storageIndex debug mode j with
  | .ok ind => [.load j ind, .add j ind t, .store t]
  | _ => []

/-- An `int` as a `SizeType`. -/
def toSize (i : Int) : Nat := (i % 2 ^ 64).toNat

/-- `atoi` of the C library; numbers out of range are undefined behaviour. -/
def number (s : List Char) : Out Nat :=
  match Host.atoi s with
  | some i => .ok (toSize i)
  | none => ubOut

/-- `nthreads`, examples/range.cpp:88-90; `args` are the arguments after the name of the program. -/
def threadsOf (args : List (List Char)) : Out Nat :=
  match args with
  | [_, n] => number n
  | _ => .ok 1

/-- Errors of class `Concurrency`; a failed assertion is undefined behaviour. -/
def ofRes {α : Type} : Res α → Out α
  | .ok a => .ok a
  | .throws => throwOut
  | .abort => ubOut

/-- The loop once started. -/
structure Run where
  conf : Conf
  /-- size of `sum_` -/
  slots : Nat
  total : Nat
  loop : Prog Act

/-- `threadObject.loopCreate(helper)`, examples/range.cpp:105 with src/Parallelizer.h:90-119 and src/NoPthreadsNg.h:103-134.  A
balancer of no threads divides by zero. -/
def loopOf (debug : Bool) (b : Build) (conf : Conf) (total : Nat) : Out (Prog Act) :=
  if b.usePthreads then
    match loopCreate total conf.npthreads fun t j => Prog.ofList (doTask debug conf.mode t j) with
    | some p => .ok p
    | none => ubOut
  else if conf.npthreads ≠ 1 then throwOut
  else .ok (Prog.seqAll ((List.range total).map fun t => Prog.ofList (doTask debug conf.mode t 0)))

/-- `HelperType helper(nthreads, total)`, examples/range.cpp:36-40 and 103, and the loop: vectors with more than `limit` elements are
refused by the standard library. -/
def startLoop (debug : Bool) (b : Build) (limit : Nat) (conf : Conf) (total : Nat) : Out (Option Run) := do
  let slots ← ofRes (storageSize debug conf.mode conf.npthreads)
  if slots > limit ∨ total > limit then throwOut
  else do
    let p ← loopOf debug b conf total
    return some ⟨conf, slots, total, p⟩

/-- `main` until the loop, examples/range.cpp:83-105; `none` is `return 1`. -/
def start (debug : Bool) (b : Build) (limit : Nat) (args : List (List Char)) : Out (Option Run) := do
  let n ← threadsOf args
  let conf ← ofRes (construct b n)
  match args with
  | [] => return none
  | a :: _ => do
    let total ← number a
    startLoop debug b limit conf total

/-- `sum_` and `v_` to begin with, examples/range.cpp:36-40. -/
def zero : Mem := ⟨fun _ => 0, fun _ => 0, fun _ => 0⟩

/-- `PsimagLite::sum`, src/Vector.h:529-539. -/
def sumOf (x : Nat → BitVec 64) (n : Nat) : BitVec 64 := (List.range n).foldl (fun s i => s + x i) 0

/-- `sum_[0]` after the first part of `sync`, examples/range.cpp:55-58. -/
def syncThreads (r : Run) (m : Mem) : BitVec 64 := if r.conf.mode &&& 1 ≠ 0 then sumOf m.sum r.slots else m.sum 0

/-- `sum_[0]` and `v_` of all ranks after `sync`, examples/range.cpp:53-67: `world` has the memory of each. -/
def sync (r : Run) (world : List Mem) : Out (List (BitVec 64 × List (BitVec 64))) :=
  let sums := world.map (syncThreads r)
  let vs := world.map fun m => (List.range r.total).map m.v
  if r.conf.mode &&& 2 ≠ 0 then do
    let sums ← Collective.allReduceOne (Collective.Op.signed .sum) sums
    let vs ← Collective.allReduce (Collective.Op.signed .sum) vs
    return sums.zip vs
  else .ok (sums.zip vs)

/-- A number as text. -/
def digits (n : Nat) : List Char := Nat.toDigits 10 n

/-- What the root prints, examples/range.cpp:111-118 and src/Vector.h:436-443. -/
def text (b : Build) (r : Run) (x : BitVec 64 × List (BitVec 64)) : List Char :=
  "Using ".toList ++ (if b.usePthreads then "PthreadsNg".toList else "NoPthreadsNg".toList) ++ " mode= ".toList ++ digits r.conf.mode ++
    " with ".toList ++ digits r.conf.npthreads ++ " threads or mpi procs.\n".toList ++ "sum=".toList ++ digits x.1.toNat ++ "\n".toList ++
    (digits x.2.length ++ "\n".toList ++ x.2.flatMap fun y => digits y.toNat ++ "\n".toList)

/-- What is printed by the root, rank 0. -/
def printed (b : Build) (r : Run) (world : List Mem) : Out (List Char) := do
  let l ← sync r world
  match l with
  | x :: _ => return text b r x
  | [] => ubOut

end Verif.Whole.Range
