import Verif.Whole.ModelRange
import Verif.GemmR.Model
import Verif.Dense.Model

/-!
# A whole program: examples/isBlasThreaded.cpp

Each task of a parallel loop multiplies two matrices of its own with BLAS and moves the factors on.  The numbers drawn from the
generator are given: `rand p` is the number that is drawn after `p` others.
-/

namespace Verif.Whole.Blas

open Verif.Parallel Verif.Concurrency Verif.Whole.Range Verif.Dense

variable {R : Type} [CommRing R] [StarRing R]

/-- `*a_[i]`, `*b_[i]` and `*c_[i]` of `MyBlasWrapper`, examples/isBlasThreaded.cpp:87-89. -/
structure Trip (R : Type) where
  a : Mat R
  b : Mat R
  c : Mat R

/-- `fillMatrix`, examples/isBlasThreaded.cpp:80-85, after `p` numbers have been drawn: column after column, which is the order of
the storage. -/
def fillMatrix (rand : Nat → R) (p rows cols : Nat) : Mat R := ⟨rows, cols, (List.range (rows * cols)).map fun q => rand (p + q)⟩

/-- `factor`, examples/isBlasThreaded.cpp:24. -/
def factor (i : Nat) : Nat := if i % 2 = 1 then 2 else 1

/-- A matrix of these sizes can be created (vectors with more than `limit` elements are refused by the standard library). -/
def fits (limit rows cols : Nat) : Bool := decide (rows * cols ≤ limit)

/-- One pass of the loop of the constructor, examples/isBlasThreaded.cpp:24-29: the matrices made so far and the count of numbers
drawn. -/
def makeOne (limit : Nat) (rand : Nat → R) (m n k : Nat) (s : List (Trip R) × Nat) (i : Nat) : Out (List (Trip R) × Nat) :=
  let f := factor i
  if fits limit (m * f) (k * f) && fits limit (k * f) (n * f) && fits limit (m * f) (n * f) then
    let a := fillMatrix rand s.2 (m * f) (k * f)
    let p := s.2 + m * f * (k * f)
    let b := fillMatrix rand p (k * f) (n * f)
    .ok (s.1 ++ [⟨a, b, Mat.mk0 (m * f) (n * f)⟩], p + k * f * (n * f))
  else throwOut

/-- `MyBlasWrapper(m, n, k, total)`, examples/isBlasThreaded.cpp:17-31. -/
def make (limit : Nat) (rand : Nat → R) (m n k total : Nat) : Out (List (Trip R)) := do
  if total > limit then throwOut
  else do
    let s ← (List.range total).foldlM (makeOne limit rand m n k) ([], 0)
    return s.1

/-- The matrices of all tasks; `none`: an access out of bounds has happened, or an assertion has failed. -/
abbrev Mem (R : Type) := Nat → Option (Trip R)

/-- What task `t` does. -/
inductive Act
  /-- BLAS computes an entry, examples/isBlasThreaded.cpp:61-72 -/
  | entry (t : Nat) (s : GemmR.Step)
  /-- examples/isBlasThreaded.cpp:74 -/
  | moveB (t : Nat)
  /-- examples/isBlasThreaded.cpp:75 -/
  | moveC (t : Nat)
  /-- a failed assertion, or a refusal by BLAS -/
  | bad (t : Nat)

/-- The arguments for BLAS, examples/isBlasThreaded.cpp:49-72. -/
def gemmArgs (x : Trip R) : GemmR.Args R :=
  { transA := 'N'
    transB := 'N'
    m := x.a.nrow
    n := x.b.ncol
    k := x.a.ncol
    alpha := 1
    A := x.a.data
    ldA := x.a.nrow
    B := x.b.data
    ldB := x.b.nrow
    beta := 0
    ldC := x.c.nrow }

/-- The task to which something belongs. -/
def Act.task : Act → Nat
  | .entry t _ => t
  | .moveB t => t
  | .moveC t => t
  | .bad t => t

/-- The effect on the matrices of the task. -/
def Act.on : Act → Trip R → Option (Trip R)
  | .entry _ s, x => (s.run (gemmArgs x) x.c.data).map fun d => { x with c := { x.c with data := d } }
  | .moveB _, x => some { x with a := x.b }
  | .moveC _, x => some { x with b := x.c }
  | .bad _, _ => none

/-- The effect on all matrices. -/
def Act.run (a : Act) (m : Mem R) : Mem R := fun u => if u = a.task then (m u).bind a.on else m u

/-- The assertions, examples/isBlasThreaded.cpp:52-53, and those of `operator()(0, 0)`, examples/isBlasThreaded.cpp:57-59. -/
def asserted (x : Trip R) : Bool :=
  x.a.ncol == x.b.nrow && (x.c.nrow == x.a.nrow && x.c.ncol == x.b.ncol) &&
    ((x.a.get 0 0).isSome && (x.b.get 0 0).isSome && (x.c.get 0 0).isSome)

/-- `doTask`, examples/isBlasThreaded.cpp:46-76, of task `t` with the matrices `x` (no other task changes them). -/
def doTask (t : Nat) (x : Trip R) : List Act :=
  if asserted x then
    match GemmR.blasSteps (gemmArgs x) x.a.nrow x.b.ncol 0 0 0 with
    | .ok l => l.map (.entry t) ++ [.moveB t, .moveC t]
    | .error _ => [.bad t]
  else [.bad t]

/-- What task `t` of these does. -/
def bodyOf (xs : List (Trip R)) (t : Nat) : List Act :=
  match xs[t]? with
  | some x => doTask t x
  | none => [.bad t]

/-- `parallel.loopCreate(myblasWrapper)`, examples/isBlasThreaded.cpp:110 with src/Parallelizer.h:90-119 and
src/NoPthreadsNg.h:103-134. -/
def loopOf (b : Build) (threads : Nat) (xs : List (Trip R)) : Out (Prog Act) :=
  if b.usePthreads then
    match loopCreate xs.length threads fun t _ => Prog.ofList (bodyOf xs t) with
    | some p => .ok p
    | none => ubOut
  else .ok (Prog.seqAll ((List.range xs.length).map fun t => Prog.ofList (bodyOf xs t)))

/-- The loop once started. -/
structure Started (R : Type) where
  mem : Mem R
  loop : Prog Act

/-- `main`, examples/isBlasThreaded.cpp:93-111, and the constructor src/NoPthreadsNg.h:94-99; `none` is `return 1`.  `args` are the
arguments after the name of the program.  Products of sizes are not reduced modulo `2^64`. -/
def start (b : Build) (limit : Nat) (rand : Nat → R) (args : List (List Char)) : Out (Option (Started R)) :=
  match args with
  | a1 :: a2 :: a3 :: a4 :: a5 :: _ => do
    let m ← number a1
    let k ← number a2
    let n ← number a3
    let total ← number a4
    let threads ← number a5
    if !b.usePthreads && threads != 1 then throwOut
    else do
      let xs ← make limit rand m n k total
      let p ← loopOf b threads xs
      return some ⟨fun t => xs[t]?, p⟩
  | _ => .ok none

end Verif.Whole.Blas
