import Verif.Whole.ModelRange
import Verif.Parallel.ModelOld

/-!
# A whole program: examples/testParallelizer2.cpp

A loop that stores one number per task, with any of the three versions of `Parallelizer2`.
-/

namespace Verif.Whole.Parallel2

open Verif.Parallel Verif.Whole.Range

/-- Which header src/Parallelizer2.h:6-16 includes. -/
inductive Backend | pthread | openmp | serial

/-- `name()`, src/Parallelizer2Pthread.h:94, src/Parallelizer2OpenMP.h:30 and src/Parallelizer2Serial.h:29. -/
def Backend.name : Backend → List Char
  | .pthread => "pthread".toList
  | .openmp => "openmp".toList
  | .serial => "serial".toList

/-- `numberOfThreads()`, src/Parallelizer2Pthread.h:92, src/Parallelizer2OpenMP.h:28 and src/Parallelizer2Serial.h:27. -/
def Backend.numberOfThreads (threads : Nat) : Backend → Nat
  | .pthread => threads
  | .openmp => ompNumberOfThreads
  | .serial => 1

/-- The lambda, examples/testParallelizer2.cpp:19: task `i` stores one number in element `i`. -/
def task (i : Nat) : List (Nat × Nat) := [(i, i + 42)]

/-- A store. -/
def store (a : Nat × Nat) (v : Nat → Nat) : Nat → Nat := fun i => if i = a.1 then a.2 else v i

/-- `main` until the loop, examples/testParallelizer2.cpp:5-15, with the constructors: the number of tasks and of threads; `none` is
`return 1`.  Vectors with more than `limit` elements are refused by the standard library. -/
def start (b : Backend) (limit : Nat) (args : List (List Char)) : Out (Option (Nat × Nat)) :=
  match args with
  | a :: t :: _ => do
    let n ← number a
    let threads ← number t
    if n > limit then throwOut
    else match b with
      | .serial => if threads ≠ 1 then throwOut else return some (n, threads)
      | _ => return some (n, threads)
  | _ => .ok none

/-- The loop has a run that leaves `v` in memory, src/Parallelizer2Pthread.h:100-107, src/Parallelizer2OpenMP.h:20-26 and
src/Parallelizer2Serial.h:20-25, called from examples/testParallelizer2.cpp:19. -/
def Ends (b : Backend) (n threads : Nat) (v : Nat → Nat) : Prop :=
  match b with
  | .pthread => ∃ job k s, parallelizer2 0 n threads (fun t _ => task t) = some job ∧ Steps job store k (init fun _ => 0) s ∧
      Returned job s ∧ s.mem = v
  | .openmp => ∃ job k s, OpenMP 0 n threads (fun t _ => task t) job ∧ Steps job store k (init fun _ => 0) s ∧ Returned job s ∧ s.mem = v
  | .serial => v = (serialCalls 0 n).foldl (fun v c => (task c.1).foldl (fun v a => store a v) v) fun _ => 0

/-- What is printed, examples/testParallelizer2.cpp:17-18 and 27; `pr` is how the stream writes a `double`. -/
def printed (b : Backend) (pr : Nat → List Char) (n threads : Nat) (v : Nat → Nat) : Out (List Char) :=
  if n = 0 then ubOut
  else .ok ("Testing Parallelizer2 with ".toList ++ b.name ++ " and ".toList ++ digits (b.numberOfThreads threads) ++ " threads.\n".toList ++
    pr (v 0) ++ " ".toList ++ pr (v (n - 1)) ++ "\n".toList)

end Verif.Whole.Parallel2
