import Verif.Whole.Model
import Verif.Krylov.ModelCurve

/-!
# A whole program: examples/sparseSolverTest.cpp

A random sparse symmetric matrix and its lowest energy.  Numbers of rows and columns, drawn at random, are rounded by `rnd`;
elements of the matrix and all that follows have no rounding.
-/

namespace Verif.Whole.Sparse

open Verif.Loop

/-- The matrix being built, the number of elements so far, and the state of the C library's generator. -/
structure Fill (α : Type) where
  m : Crs.Crs α
  counter : Nat
  rng : Nat

/-- `SizeType(random() * k)`: the number, and the new state of the generator. -/
def drawSize (rnd : ℚ → ℚ) (rng k : Nat) : Nat × Nat := (⌊rnd ((Random.drand48 rng).1 * k)⌋₊, (Random.drand48 rng).2)

/-- The body of the inner loop, examples/sparseSolverTest.cpp:108-117, with the flags of the columns seen; `none` is a column out of
range.  `val r` is the value for the random number `r`. -/
def fillOne {α : Type} (rnd : ℚ → ℚ) (n : Nat) (val : ℚ → α) (s : Fill α × List Bool) : Option (Fill α × List Bool) := do
  let c := drawSize rnd s.1.rng n
  let seen ← s.2[c.1]?
  if seen then some ({ s.1 with rng := c.2 }, s.2)
  else
    let r := Random.drand48 c.2
    some (⟨Crs.push s.1.m c.1 (val r.1), s.1.counter + 1, r.2⟩, s.2.set c.1 true)

/-- The body of the loop over rows, examples/sparseSolverTest.cpp:103-118. -/
def fillRow {α : Type} (rnd : ℚ → ℚ) (n maxCol : Nat) (val : ℚ → α) (i : Nat) (s : Fill α) : Option (Fill α) := do
  let m ← Crs.setRow s.m i s.counter
  let x := drawSize rnd s.rng maxCol
  let r ← loopN (1 + x.1) (fun _ s => fillOne rnd n val s) (⟨m, s.counter, x.2⟩, List.replicate n false)
  some r.1

/-- The random matrix, examples/sparseSolverTest.cpp:99-120. -/
def build {α : Type} (rnd : ℚ → ℚ) (n maxCol : Nat) (val : ℚ → α) (rng : Nat) : Option (Crs.Crs α) := do
  let s ← loopN n (fillRow rnd n maxCol val) ⟨Crs.resize2 n n, 0, rng⟩
  Crs.setRow s.m n s.counter

noncomputable section

open Classical in
/-- The matrix and its transpose, with the assertions, examples/sparseSolverTest.cpp:121-127. -/
def symmetrize (s : Crs.Crs ℝ) : Out (Crs.Crs ℝ) := do
  Lapack.acc (Crs.checkValidity s)
  let t ← Lapack.acc (Crs.transposeConjugate Crs.Crs.empty s)
  let h ← Lapack.acc (Crs.addAssign s t)
  Lapack.acc (Crs.checkValidity h)
  let b ← Lapack.acc (Crs.isHermitian (fun x : ℝ => |x|) (1 / 1000000) h)
  if b then return h else ubOut

/-- `maxCol`, examples/sparseSolverTest.cpp:90-91. -/
def columns (rnd : ℚ → ℚ) (n c : Nat) : Nat := if c = 0 then 1 + ⌊rnd (rnd (1 / 10) * n)⌋₊ else c

open Classical in
/-- `maxValue`, examples/sparseSolverTest.cpp:92-93. -/
def largest (m : ℝ) : ℝ := if |m| < 1 / 1000000 then 1 else m

/-- Numbers as a vector. -/
def startOf (v : List ℝ) (n : Nat) : Fin n → ℝ := fun i => v.getD i.val 0

/-- `fillRandom(initial)`, examples/sparseSolverTest.cpp:146-147. -/
def start (rnd : ℚ → ℚ) (now : Int) (n : Nat) : Out (Fin n → ℝ) :=
  match Random.fillRandom rnd now n with
  | some v => .ok (startOf v n)
  | none => throwOut

/-- `solver->computeOneState(gsEnergy, gsVector, initial, 0)`, examples/sparseSolverTest.cpp:148: with `-d` the solver is the one of
src/DavidsonSolver.h:122-127, which only throws.  The parameters are the ones of src/ParametersForSolver.h:101-115. -/
def ground (fs : Lapack.Stedc) (fh : Lapack.Heev ℝ) (reortho davidson : Bool) (n : Nat) (mul : (Fin n → ℝ) → Fin n → ℝ)
    (init : Fin n → ℝ) : Out ℝ :=
  if davidson then throwOut
  else do
    let r ← Krylov.computeOneState ⟨mul, reortho, 1 / 1000000000000, 4, Lapack.eigsOf fs, Lapack.diagOf fh true⟩ 200 0 init 0
    return r.1

/-- The program, examples/sparseSolverTest.cpp, where `-n`, `-c`, `-m`, `-r`, `-d` and `-x` have set `n`, `c`, `m`, `seed`, `davidson`, and
`lota` to false: the energy printed; `none` is the exit after the message on the usage.  Negative numbers for `-n` and `-c` are not
considered. -/
def program (fs : Lapack.Stedc) (fh : Lapack.Heev ℝ) (rnd : ℚ → ℚ) (now : Int) (n c : Nat) (m : ℝ) (seed : Int) (davidson lota : Bool) :
    Out (Option ℝ) :=
  if n = 0 then .ok none
  else do
    let g ← Lapack.acc (Random.make48 rnd (if seed = 0 then 3443331 else seed) 0 1)
    let s ← Lapack.acc (build rnd n (columns rnd n c) (fun r => (r : ℝ) * largest m) g.2)
    let h ← symmetrize s
    let reortho ← isReorthoEnabled [] lota
    Krylov.vectorsCtor lota
    let v ← start rnd now n
    let e ← ground fs fh reortho davidson n (crsMul h n) v
    return some e

end

end Verif.Whole.Sparse
