import Verif.Whole.ModelGemm
import Verif.Parallel.ModelNested

/-!
# A whole program: examples/testGemmR2.cpp

Each task of a parallel loop multiplies two random matrices with `GemmR`, that is with a parallel loop of its own, and again with BLAS,
and throws if the results differ.  The numbers each task draws from the common generator are given, and may be any: the tasks draw from it without
a lock, so that what they draw depends on the schedule (strictly this is a race, the effects of which on the generator are not modelled).
Numbers are exact.  The program is built with the pthreads library.
-/

namespace Verif.Whole.Gemm2

open Verif.Parallel Verif.Concurrency Verif.GemmR Verif.Whole.Range

/-- What a task draws: the size, examples/testGemmR2.cpp:52-57, and the elements, examples/testGemmR2.cpp:9-17 and 62-63. -/
structure Drawn where
  lda : Nat
  a : Nat → Nat → ℝ
  b : Nat → Nat → ℝ

/-- The arguments of both products, examples/testGemmR2.cpp:64 and 67. -/
noncomputable def argsOf (d : Drawn) : Args ℝ :=
  { transA := 'N'
    transB := 'N'
    m := d.lda
    n := d.lda
    k := d.lda
    alpha := 1
    A := Gemm.fill d.lda d.lda d.a
    ldA := d.lda
    B := Gemm.fill d.lda d.lda d.b
    ldB := d.lda
    beta := 0
    ldC := d.lda }

/-- `C` and `C2` of a task, examples/testGemmR2.cpp:60 and 66, and whether it has thrown, which ends the program. -/
structure State where
  c : List ℝ
  c2 : List ℝ
  threw : Bool

/-- The matrices of all tasks; `none`: an access out of bounds has happened. -/
abbrev Mem := Nat → Option State

/-- What task `t` does. -/
inductive Act
  /-- an entry of `C` is computed, examples/testGemmR2.cpp:64 -/
  | first (t : Nat) (s : Step)
  /-- an entry of `C2` is computed, examples/testGemmR2.cpp:67 -/
  | second (t : Nat) (s : Step)
  /-- examples/testGemmR2.cpp:68-69 -/
  | check (t : Nat)
  /-- a refusal by BLAS, or a position that is too large -/
  | bad (t : Nat)

/-- The task to which something belongs. -/
def Act.task : Act → Nat
  | .first t _ => t
  | .second t _ => t
  | .check t => t
  | .bad t => t

open Classical in
/-- `equalMatrices`, examples/testGemmR2.cpp:19-33, for two matrices of the same size. -/
noncomputable def equalMatrices (a b : List ℝ) (tolerance : ℝ) : Bool := (a.zip b).all fun x => !decide (|x.1 - x.2| > tolerance)

/-- The effect on the matrices of the task. -/
noncomputable def Act.on (d : Nat → Drawn) : Act → State → Option State
  | .first t s, x => (s.run (argsOf (d t)) x.c).map fun c => { x with c := c }
  | .second t s, x => (s.run (argsOf (d t)) x.c2).map fun c => { x with c2 := c }
  | .check _, x => some (if equalMatrices x.c x.c2 (1 / 1000000) then x else { x with threw := true })
  | .bad _, _ => none

/-- The effect on all matrices. -/
noncomputable def Act.run (d : Nat → Drawn) (a : Act) (m : Mem) : Mem := fun u => if u = a.task then (m u).bind (a.on d) else m u

/-- `parallelizer2.parallelFor(0, ntasks, lambda)` with `nthreads` threads, src/Parallelizer2Pthread.h:100-107 and 120-177: `body t j`
is what `lambda(t, j)` does.  A balancer of no threads divides by zero. -/
def parallelFor (ntasks nthreads : Nat) (body : Nat → Nat → Prog Act) : Out (Prog Act) :=
  match parallelizer2 0 ntasks nthreads fun _ _ => ([] : List Unit) with
  | some job => .ok (Prog.forkAll ((List.range job.nth).map fun j => Prog.seqAll ((threadTasks job j).map fun t => body t j)))
  | none => ubOut

/-- Steps of task `t` on its `C`. -/
def firsts (t : Nat) : Out (List Step) → Prog Act
  | .ok l => Prog.ofList (l.map (.first t))
  | .error _ => Prog.ofList [.bad t]

/-- `gemmR(...)`, examples/testGemmR2.cpp:51 and 64 with src/GemmR.h:24-114; `nb` is 99, examples/testGemmR2.cpp:41. -/
noncomputable def gemmR (d : Nat → Drawn) (nb nthreads t : Nat) : Out (Prog Act) :=
  let g := argsOf (d t)
  if isSmall nb g.m g.n then .ok (firsts t (blasSteps g g.m g.n 0 0 0))
  else do
    let nbI ← blockSize g.m (nblocks nb g.m)
    let nbJ ← blockSize g.n (nblocks nb g.n)
    let tasks := nblocks nb g.m * nblocks nb g.n
    parallelFor tasks (min tasks nthreads) fun u _ => firsts t (tileSteps g (nblocks nb g.m) nbI nbJ u)

/-- `psimag::BLAS::GEMM`, examples/testGemmR2.cpp:67. -/
noncomputable def blas (d : Nat → Drawn) (t : Nat) : Prog Act :=
  match blasSteps (argsOf (d t)) (argsOf (d t)).m (argsOf (d t)).n 0 0 0 with
  | .ok l => Prog.ofList (l.map (.second t))
  | .error _ => Prog.ofList [.bad t]

/-- The lambda, examples/testGemmR2.cpp:50-70. -/
noncomputable def taskOf (d : Nat → Drawn) (nthreadsInner t : Nat) : Out (Prog Act) := do
  let p ← gemmR d 99 nthreadsInner t
  return p.seq ((blas d t).seq (Prog.ofList [.check t]))

/-- The loop, examples/testGemmR2.cpp:72-76. -/
noncomputable def loopOf (d : Nat → Drawn) (total nthreadsOuter nthreadsInner : Nat) : Out (Prog Act) := do
  let ps ← (List.range total).mapM (taskOf d nthreadsInner)
  parallelFor total nthreadsOuter fun t _ => ps.getD t .done

/-- Before a task begins: both matrices are zero, src/Matrix.h:64-69 (the sizes are drawn later, but no other task sees them). -/
noncomputable def initial (d : Nat → Drawn) : Mem := fun t =>
  some ⟨List.replicate ((d t).lda * (d t).lda) 0, List.replicate ((d t).lda * (d t).lda) 0, false⟩

/-- `main`, examples/testGemmR2.cpp:35-77, built with the pthreads library, and with MPI or not; `args` are the arguments after the name
of the program.  Only the first is checked to be there: reading one that is missing is undefined. -/
noncomputable def start (mpi : Bool) (d : Nat → Drawn) (args : List (List Char)) : Out (Prog Act) :=
  match args with
  | [] => throwOut
  | a1 :: a2 :: a3 :: _ => do
    let total ← number a1
    let nthreadsOuter ← number a2
    let nthreadsInner ← number a3
    let _ ← ofRes (construct ⟨true, mpi⟩ nthreadsInner)
    loopOf d total nthreadsOuter nthreadsInner
  | _ => ubOut

end Verif.Whole.Gemm2
