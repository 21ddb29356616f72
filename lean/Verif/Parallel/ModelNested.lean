import Verif.Parallel.Lemmas
import Mathlib.Data.BitVec

/-!
# Model of parallel loops whose tasks have parallel loops, src/PthreadsNg.h, and of the programs examples/nested.cpp and
examples/threads.cpp

Simplifications: as in `Verif.Parallel.Model`; threads can begin before the ones created after them, in any order, so that every schedule
of the program is one of the model.
-/

namespace Verif.Parallel

/-- What one thread does: atomic actions, and loops that create two threads and join them (more than two are nested). -/
inductive Prog (Act : Type)
  | done
  | act (a : Act) (next : Prog Act)
  | par (p q next : Prog Act)

variable {Act Mem : Type}

/-- One after the other. -/
def Prog.seq : Prog Act → Prog Act → Prog Act
  | .done, s => s
  | .act a n, s => .act a (n.seq s)
  | .par p q n, s => .par p q (n.seq s)

/-- The actions of a list. -/
def Prog.ofList : List Act → Prog Act
  | [] => .done
  | a :: l => .act a (Prog.ofList l)

/-- Some in a row. -/
def Prog.seqAll : List (Prog Act) → Prog Act
  | [] => .done
  | p :: ps => p.seq (Prog.seqAll ps)

/-- Threads are created and joined, src/PthreadsNg.h:237-284. -/
def Prog.forkAll : List (Prog Act) → Prog Act
  | [] => .done
  | p :: ps => .par p (Prog.forkAll ps) .done

/-- A step: of the calling thread, of a thread created by it (and so on), or the join. -/
inductive Prog.Step (run : Act → Mem → Mem) : Prog Act → Mem → Prog Act → Mem → Prop
  | act (a n m) : Prog.Step run (.act a n) m n (run a m)
  | left (p q n m p' m') : Prog.Step run p m p' m' → Prog.Step run (.par p q n) m (.par p' q n) m'
  | right (p q n m q' m') : Prog.Step run q m q' m' → Prog.Step run (.par p q n) m (.par p q' n) m'
  | join (n m) : Prog.Step run (.par .done .done n) m n m

/-- `k` steps of some schedule. -/
inductive Prog.Steps (run : Act → Mem → Mem) : Nat → Prog Act → Mem → Prog Act → Mem → Prop
  | refl (p m) : Prog.Steps run 0 p m p m
  | head (k p m p' m' q m'') : Prog.Step run p m p' m' → Prog.Steps run k p' m' q m'' → Prog.Steps run (k + 1) p m q m''

/-- `loopCreate(pfh)`, src/PthreadsNg.h:185-191 and 204-285, with `thread_function_wrapper`, src/PthreadsNg.h:130-158: `body t j` is
`doTask(t, j)`. -/
def loopCreate (ntasks nthreads : Nat) (body : Nat → Nat → Prog Act) : Option (Prog Act) :=
  (pthreadsNg ntasks nthreads fun _ _ => ([] : List Unit)).map fun job =>
    Prog.forkAll ((List.range job.nth).map fun j => Prog.seqAll ((threadTasks job j).map fun t => body t j))

/-! ## The programs -/

/-- An element of a vector `x_`, and the register of the thread of that number. -/
structure Cell where
  x : BitVec 64
  reg : BitVec 64

/-- `x_` of `MyHelper` and that of the `InnerHelper` of each task, examples/nested.cpp:24-57, 60-104. -/
structure Sums where
  outer : Nat → Cell
  inner : Nat → Nat → Cell

/-- The actions on them: `+=` is two actions, to read and to write, between which other threads may run. -/
inductive SumAct
  /-- the reading of `x_[i]` in examples/nested.cpp:42-45 for task `t` of the outer loop and thread `k` -/
  | load (t k i : Nat)
  /-- the writing of it -/
  | store (t k i : Nat) (v : BitVec 64)
  /-- examples/nested.cpp:47-51 for task `t`, with `n` accumulators -/
  | sync (t n : Nat)
  /-- the reading of `x_[i]` in examples/nested.cpp:88 for thread `j` -/
  | read (j i : Nat)
  /-- the writing of it, for task `t`; `result` is an `int` (line 41) -/
  | result (t j i : Nat)

/-- `for (i = 1; i < n; ++i) x[0] += x[i]`. -/
def syncSum (x : Nat → BitVec 64) (n : Nat) : BitVec 64 := (List.range' 1 (n - 1)).foldl (fun s i => s + x i) (x 0)

/-- What an action does. -/
def SumAct.run : SumAct → Sums → Sums
  | .load t k i, s => { s with inner := fun t' k' => if t' = t ∧ k' = k then ⟨(s.inner t k).x, (s.inner t i).x⟩ else s.inner t' k' }
  | .store t k i v, s => { s with inner := fun t' k' => if t' = t ∧ k' = i then ⟨(s.inner t k).reg + v, (s.inner t i).reg⟩ else s.inner t' k' }
  | .sync t n, s =>
    { s with inner := fun t' k' => if t' = t ∧ k' = 0 then ⟨syncSum (fun i => (s.inner t i).x) n, (s.inner t 0).reg⟩ else s.inner t' k' }
  | .read j i, s => { s with outer := fun j' => if j' = j then ⟨(s.outer j).x, (s.outer i).x⟩ else s.outer j' }
  | .result t j i, s =>
    { s with outer := fun j' => if j' = i then ⟨(s.outer j).reg + (((s.inner t 0).x).setWidth 32).signExtend 64, (s.outer i).reg⟩ else s.outer j' }

/-- All zero. -/
def Sums.zero : Sums := ⟨fun _ => ⟨0, 0⟩, fun _ _ => ⟨0, 0⟩⟩

/-- `doTask` of the outer helper, examples/nested.cpp:79-88. -/
def nestedTask (tasksInner threadsInner : Nat) (t j : Nat) : Option (Prog SumAct) :=
  (loopCreate tasksInner threadsInner fun u k =>
      .act (.load t k k) (.act (.store t k k (BitVec.ofNat 64 u + BitVec.ofNat 64 (t * tasksInner))) .done)).map
    fun p => p.seq (.act (.sync t threadsInner) (.act (.read j j) (.act (.result t j j) .done)))

/-- The loop of the program, examples/nested.cpp:104-133. -/
def nestedLoop (threadsOuter tasksOuter threadsInner tasksInner : Nat) : Option (Prog SumAct) :=
  match nestedTask tasksInner threadsInner 0 0 with
  | none => none
  | some _ => loopCreate tasksOuter threadsOuter fun t j => (nestedTask tasksInner threadsInner t j).getD .done

/-- What is printed in the end, examples/nested.cpp:78, 90-94, 131-132. -/
def nestedPrinted (threadsOuter : Nat) (s : Sums) : Int := ((syncSum (fun j => (s.outer j).x) threadsOuter).setWidth 32).toInt

end Verif.Parallel
