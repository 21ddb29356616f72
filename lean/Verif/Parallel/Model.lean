import Verif.LoadBalancer.Model

/-!
# Model of the thread-parallel loops

`src/PthreadsNg.h`, `src/Parallelizer2Pthread.h` (threads), `src/NoPthreadsNg.h`,
`src/Parallelizer2Serial.h` (serial back ends) and the loop of `src/InterNodeMpi.h`.

The threaded back ends are a transition system: the calling thread creates the workers
one after the other and then joins them in order, every worker runs its loop, and the
scheduler picks at each moment any thread that can move.  A call of the user's functor is
a finite sequence of atomic memory actions, which other threads may interleave with.

Simplifications: `pthread_create` is assumed to succeed (the code only prints a message on
failure), CPU affinities and stack sizes are not modelled, memory is sequentially
consistent at the granularity of the user's atomic actions.
-/

namespace Verif.Parallel

open Verif.LoadBalancer (Balancer)

/-- What a worker needs to know: `PthreadFunctionStruct`, src/PthreadsNg.h:111-128 (there
`start = 0`, `stop = total`), `PthreadFunctionStruct2`, src/Parallelizer2Pthread.h:28-47.
`nth` is the number of threads that `loopCreate`/`parallelFor` creates.
`body t j` are the atomic actions of the call `doTask(t, j)` / `lambda(t, j)`. -/
structure Job (Act : Type) where
  nth : Nat
  lb : Balancer
  start : Nat
  stop : Nat
  body : Nat → Nat → List Act

/-- One worker: the loop counter `p`, the actions still to be done of the current call,
and whether the loop has been left. -/
structure Worker (Act : Type) where
  p : Nat
  todo : List Act
  finished : Bool

/-- Global state: how many workers have been created and joined, the workers, the log of
functor calls `(task, thread)` in the order they began, and the shared memory. -/
structure State (Act Mem : Type) where
  created : Nat
  joined : Nat
  worker : Nat → Worker Act
  calls : List (Nat × Nat)
  mem : Mem

/-- State when `loopCreate`/`parallelFor` is entered. -/
def init {Act Mem : Type} (m : Mem) : State Act Mem where
  created := 0
  joined := 0
  worker := fun _ => { p := 0, todo := [], finished := false }
  calls := []
  mem := m

/-- Replace the state of worker `j`. -/
def setWorker {Act Mem : Type} (s : State Act Mem) (j : Nat) (w : Worker Act) : State Act Mem :=
  { s with worker := fun k => if k = j then w else s.worker k }

/-- One step of the system.
* `create`: the creation loop, src/PthreadsNg.h:232-271, src/Parallelizer2Pthread.h:128-163.
* `act`: an action of the running functor call.
* `call`: next iteration of the worker's `for` loop that calls the functor,
  src/PthreadsNg.h:148-153, src/Parallelizer2Pthread.h:67-71.
* `brk`: the `break`, src/PthreadsNg.h:150-151, src/Parallelizer2Pthread.h:69-70.
* `leave`: the loop condition `p < blockSize` fails.
* `join`: the joining loop, src/PthreadsNg.h:273-274, src/Parallelizer2Pthread.h:165-166,
  which blocks until the worker has finished. -/
inductive Step {Act Mem : Type} (job : Job Act) (run : Act → Mem → Mem) :
    State Act Mem → State Act Mem → Prop
  | create (s) : s.created < job.nth → Step job run s { s with created := s.created + 1 }
  | act (s j a rest) : j < s.created → (s.worker j).todo = a :: rest →
      Step job run s
        { setWorker s j { s.worker j with todo := rest } with mem := run a s.mem }
  | call (s j) : j < s.created → (s.worker j).todo = [] → (s.worker j).finished = false →
      (s.worker j).p < job.lb.blockSize j →
      job.lb.taskNumber j (s.worker j).p + job.start < job.stop →
      Step job run s
        { setWorker s j { p := (s.worker j).p + 1,
                          todo := job.body (job.lb.taskNumber j (s.worker j).p + job.start) j,
                          finished := false } with
          calls := s.calls ++ [(job.lb.taskNumber j (s.worker j).p + job.start, j)] }
  | brk (s j) : j < s.created → (s.worker j).todo = [] → (s.worker j).finished = false →
      (s.worker j).p < job.lb.blockSize j →
      ¬ job.lb.taskNumber j (s.worker j).p + job.start < job.stop →
      Step job run s (setWorker s j { s.worker j with finished := true })
  | leave (s j) : j < s.created → (s.worker j).todo = [] → (s.worker j).finished = false →
      ¬ (s.worker j).p < job.lb.blockSize j →
      Step job run s (setWorker s j { s.worker j with finished := true })
  | join (s) : s.created = job.nth → s.joined < job.nth → (s.worker s.joined).finished = true →
      Step job run s { s with joined := s.joined + 1 }

/-- `n` steps of some schedule. -/
inductive Steps {Act Mem : Type} (job : Job Act) (run : Act → Mem → Mem) :
    Nat → State Act Mem → State Act Mem → Prop
  | refl (s) : Steps job run 0 s s
  | tail (n s t u) : Steps job run n s t → Step job run t u → Steps job run (n + 1) s u

/-- The call returns when every created thread has been joined. -/
def Returned {Act Mem : Type} (job : Job Act) (s : State Act Mem) : Prop :=
  s.created = job.nth ∧ s.joined = job.nth

/-- `PthreadsNg::loopCreate(pfh)`, src/PthreadsNg.h:185-191 and 204-285 with
`LoadBalancerDefault`: `actualThreads = min(nthreads_, ntasks)` threads. -/
def pthreadsNg {Act : Type} (ntasks nthreads : Nat) (body : Nat → Nat → List Act) :
    Option (Job Act) :=
  (LoadBalancer.default ntasks nthreads).map fun lb =>
    { nth := min nthreads ntasks, lb := lb, start := 0, stop := ntasks, body := body }

/-- `PthreadsNg::loopCreate(pfh, weights)`, src/PthreadsNg.h:194-201, with
`LoadBalancerWeights` (as a relation, because of the unstable sort). -/
def PthreadsNgWeights {Act : Type} (ntasks nthreads : Nat) (weights : List Nat)
    (body : Nat → Nat → List Act) (job : Job Act) : Prop :=
  ∃ lists loads, LoadBalancer.WeightsRun weights nthreads (some (lists, loads)) ∧
    job = { nth := min nthreads ntasks, lb := LoadBalancer.ofTable lists, start := 0,
            stop := ntasks, body := body }

/-- `Parallelizer2::parallelFor(start, end, lambda)`, src/Parallelizer2Pthread.h:100-107 and
120-177: `nthreads_` threads are created.  `end - start` is unsigned; a call with
`end < start` is not modelled (`none`). -/
def parallelizer2 {Act : Type} (start stop nthreads : Nat) (body : Nat → Nat → List Act) :
    Option (Job Act) :=
  if stop < start then none
  else (LoadBalancer.default (stop - start) nthreads).map fun lb =>
    { nth := nthreads, lb := lb, start := start, stop := stop, body := body }

/-- Calls made by the serial back ends: `NoPthreadsNg::loopCreate`, src/NoPthreadsNg.h:126-134
(`start = 0`), and `Parallelizer2::parallelFor`, src/Parallelizer2Serial.h:20-25: a plain
`for` loop, always with thread number 0. -/
def serialCalls (start stop : Nat) : List (Nat × Nat) :=
  (List.range' start (stop - start)).map fun i => (i, 0)

/-- The loop of `InterNode::parallelFor`, src/InterNodeMpi.h:54-67, on one rank, as the list
of tasks it calls the functor with: iterate over `p`, stop at the first task past the end. -/
def rankLoop (lb : Balancer) (start stop rank : Nat) : Nat → Nat → List Nat
  | 0, _ => []
  | fuel + 1, p =>
    let taskNumber := lb.taskNumber rank p
    if taskNumber + start ≥ stop then []
    else (taskNumber + start) :: rankLoop lb start stop rank fuel (p + 1)

/-- `InterNode::parallelFor(start, end, lambda)` on rank `rank` of `size`,
src/InterNodeMpi.h:33-41 and 53-66. -/
def interNode (start stop size rank : Nat) : Option (List Nat) :=
  if stop < start then none
  else (LoadBalancer.default (stop - start) size).map fun lb =>
    rankLoop lb start stop rank (lb.blockSize rank) 0

end Verif.Parallel
