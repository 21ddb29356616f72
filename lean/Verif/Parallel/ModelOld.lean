import Verif.Parallel.Model

/-!
# The loops with OpenMP and the deprecated loops with threads

`src/Parallelizer2OpenMP.h`, `src/Pthreads.h` and `src/NoPthreads.h`.
-/

namespace Verif.Parallel

/-- `Parallelizer2::parallelFor`, src/Parallelizer2OpenMP.h:20-26.  The runtime of OpenMP makes a team of `nth`
threads, at least one and not more than `omp_set_num_threads` allows (line 17), and gives each iteration to one of
them in a way that depends on the implementation, so this is a relation: any partition of the iterations into
lists, one per thread of the team; each thread does its list in order. -/
def OpenMP {Act : Type} (start stop nthreads : Nat) (body : Nat → Nat → List Act) (job : Job Act) : Prop :=
  ∃ lists : List (List Nat), 0 < lists.length ∧ lists.length ≤ nthreads ∧
    lists.flatten.Perm (List.range' start (stop - start)) ∧
    job = { nth := lists.length, lb := LoadBalancer.ofTable lists, start := 0, stop := stop, body := body }

/-- `Parallelizer2::numberOfThreads`, src/Parallelizer2OpenMP.h:28: `omp_get_num_threads` gives the size of the
current team, which is one thread outside of a parallel region. -/
def ompNumberOfThreads : Nat := 1

/-- The block size computed by `Pthreads::loopCreate`, src/Pthreads.h:167-169. -/
def oldBlockSize (total nthreads : Nat) : Nat :=
  if total % nthreads ≠ 0 then total / nthreads + 1 else total / nthreads

/-- `Pthreads::loopCreate(total, pfh)`, src/Pthreads.h:154-205: `nthreads_` threads, which call
`thread_function_(threadNum, blockSize, total, mutex)`.  The loop inside `thread_function_` belongs to the user; this
is the one that the arguments are made for: `for (p = 0; p < blockSize; ++p)` with task `threadNum*blockSize + p`, left
when the task is not less than `total`.  With no threads, no division is done because the loop that does it is
empty. -/
def oldPthreads {Act : Type} (total nthreads : Nat) (body : Nat → Nat → List Act) : Job Act :=
  { nth := nthreads
    lb := { blockSize := fun _ => oldBlockSize total nthreads
            taskNumber := fun j p => p + j * oldBlockSize total nthreads }
    start := 0, stop := total, body := body }

/-- `NoPthreads::loopCreate(total, pfh)`, src/NoPthreads.h:99-102: one call of
`thread_function_(0, total, total, 0)`, in the calling thread; the list of calls `(task, thread)` of its loop. -/
def oldNoPthreads (total : Nat) : List (Nat × Nat) := (List.range total).map fun p => (0 * total + p, 0)

end Verif.Parallel
