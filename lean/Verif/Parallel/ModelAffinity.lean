import Verif.Util.Out

/-!
# Model of the attributes of threads: CPUs and stacks

`src/PthreadsNg.h` and `src/Parallelizer2Pthread.h`.  What the system answers is an argument.  Messages are not modelled.
-/

namespace Verif.Parallel

/-- The attributes with which a thread is created: the size of the stack (`none` is the default) and the CPU (`none` if any). -/
structure Attr where
  stack : Option Nat
  cpu : Option Nat
  deriving DecidableEq

/-- A `pthread_attr_t`: before `pthread_attr_init` its bytes have no meaning. -/
abbrev AttrObj := Option Attr

/-- `pthread_attr_setstacksize`: an object that has not been initialized stays one, whatever is written to it. -/
def setStackSize (a : AttrObj) (n : Nat) : AttrObj := a.map fun a => { a with stack := some n }

/-- `pthread_attr_init`, which does not look at what the object was. -/
def attrInit (_ : AttrObj) : AttrObj := some ⟨none, none⟩

/-- `pthread_attr_setaffinity_np` with a set of one CPU, when it succeeds. -/
def setCpu (a : AttrObj) (c : Nat) : AttrObj := a.map fun a => { a with cpu := some c }

/-- `MAX_CPUS`, src/PthreadsNg.h:164. -/
def maxCpus : Nat := 1024

/-- A `cpu_set_t`. -/
abbrev CpuSet := Nat → Bool

/-- `getOneCpuFromSet`, src/PthreadsNg.h:331-346: `none` is -1. -/
def getOneCpu (s : CpuSet) : Option Nat := (List.range maxCpus).find? s

/-- `CPU_CLR`. -/
def CpuSet.clear (s : CpuSet) (c : Nat) : CpuSet := fun i => if i = c then false else s i

/-- `setAffinity`, src/PthreadsNg.h:308-329; `accepts` is whether the system takes the CPU for this thread. -/
def setAffinity (accepts : Nat → Bool) (a : AttrObj) (s : CpuSet) : AttrObj × CpuSet :=
  match getOneCpu s with
  | none => (a, s)
  | some c => if accepts c then (setCpu a c, s.clear c) else (a, s)

/-- What `getPidAffinity` leaves, src/PthreadsNg.h:296-306: an empty set after an error. -/
def pidAffinity (answer : Option CpuSet) : CpuSet := answer.getD fun _ => false

/-- The attributes of one thread and the CPUs left, src/PthreadsNg.h:239-266. -/
def prepare (stackSize : Nat) (affinities : Bool) (accepts : Nat → Bool) (s : CpuSet) : AttrObj × CpuSet :=
  let a : AttrObj := none
  let a := if stackSize > 0 then setStackSize a stackSize else a
  let a := attrInit a
  if affinities then setAffinity accepts a s else (a, s)

/-- The loop over the threads, src/PthreadsNg.h:232-271, from thread `j` on: the attributes, one after the other. -/
def prepareAll (stackSize : Nat) (affinities : Bool) (accepts : Nat → Nat → Bool) : Nat → Nat → CpuSet → List AttrObj
  | 0, _, _ => []
  | k + 1, j, s =>
    let r := prepare stackSize affinities (accepts j) s
    r.1 :: prepareAll stackSize affinities accepts k (j + 1) r.2

/-- `loopCreate`, src/PthreadsNg.h:207-274, for what concerns threads: `created j` is whether `pthread_create` succeeds for
thread `j`.  A failure is only reported, and then a thread that does not exist is joined. -/
def launch (nthreads ntasks stackSize : Nat) (affinities : Bool) (answer : Option CpuSet) (accepts : Nat → Nat → Bool)
    (created : Nat → Bool) : Out (List AttrObj) :=
  let actual := min nthreads ntasks
  if (List.range actual).all created then .ok (prepareAll stackSize affinities accepts actual 0 (pidAffinity answer)) else ubOut

/-- `Parallelizer2::parallelFor`, src/Parallelizer2Pthread.h:123-166: as many threads as asked for, and no CPUs. -/
def launch2 (nthreads stackSize : Nat) (created : Nat → Bool) : Out (List AttrObj) :=
  if (List.range nthreads).all created then .ok (prepareAll stackSize false (fun _ _ => true) nthreads 0 fun _ => false) else ubOut

end Verif.Parallel
