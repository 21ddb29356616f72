import Verif.Whole.ModelSparse
import Verif.Crs.ModelExpr
import Verif.Dense.ModelExpr
import Verif.TextIo.Model

/-!
# A whole program: `testCrsMatrix` of examples/closuresTest.cpp

Expressions of sparse matrices are compared with the same expressions of dense ones.  The other two functions of the example only print
(the expressions are those of C99 and of C100).  Numbers of rows and columns, drawn at random, are rounded by `rnd`; elements of the
matrices and all that follows have no rounding.
-/

namespace Verif.Whole.Closures

open Verif.Loop Verif.Dense

/-- The numbers of examples/closuresTest.cpp:123-127, 142, 156, 164. -/
structure Params where
  n : Nat
  seed : Int
  nonZeros : Nat
  maxValue : ℚ
  k1 : ℚ
  k2 : ℚ
  k3 : ℚ

/-- The loop of `createRandomCrs`, examples/closuresTest.cpp:89-97, with the matrix and the state of the generator. -/
def fillOne (rnd : ℚ → ℚ) (maxValue : ℚ) (s : Mat ℚ × Nat) : Option (Mat ℚ × Nat) := do
  let row := Sparse.drawSize rnd s.2 s.1.nrow
  let col := Sparse.drawSize rnd row.2 s.1.ncol
  let val := Random.drand48 col.2
  let m ← s.1.set row.1 col.1 (val.1 * maxValue)
  some (m, val.2)

/-- `createRandomCrs` for a matrix of `n` rows and columns, examples/closuresTest.cpp:84-100. -/
def createRandomCrs (rnd : ℚ → ℚ) (n : Nat) (seed : Int) (nonZeros : Nat) (maxValue : ℚ) : Option (Crs.Crs ℚ) := do
  let s ← loopN nonZeros (fun _ s => fillOne rnd maxValue s) (Mat.mk0 n n, Random.srand48 seed)
  Crs.fullMatrixToCrsMatrix s.1

/-- `checkCrs`, examples/closuresTest.cpp:102-119. -/
def checkCrs (m : Crs.Crs ℚ) (fm : Mat ℚ) : Option Bool := do
  let mf ← Crs.toDense m
  loopN fm.nrow (fun i b => loopN fm.ncol (fun j b =>
    if !b then some false
    else do
      let x ← mf.get i j
      let y ← fm.get i j
      some (!decide (|x - y| > 1 / 1000000))) b) true

/-- What is printed of a check: a number, and a line. -/
def checkText (b : Bool) : List Char := "CHECK PASSES=".toList ++ [if b then '1' else '0'] ++ ['\n']

/-- The dense variables at the beginning. -/
def noMem : Mem ℚ := ⟨fun _ => 0, fun _ => 0, fun _ => []⟩

/-- `fm4 += fm5`, src/Matrix.h:303-312. -/
def plusDense (d : Mem ℚ) (x y : Nat) : Option (Mem ℚ) := ((d.mat x).addAssign (d.mat y)).map (d.put x)

/-- How `+=` ends normally. -/
def fine : End ℚ → Option (Mem ℚ)
  | .fine m => some m
  | .threw _ => none

/-- The sparse and the dense variables, which have the numbers of their names. -/
abbrev Vars := Crs.Store ℚ × Mem ℚ

/-- The random matrices, examples/closuresTest.cpp:123-139. -/
def start (rnd : ℚ → ℚ) (p : Params) : Option Vars := do
  let m1 ← createRandomCrs rnd p.n p.seed p.nonZeros p.maxValue
  let fm1 ← Crs.toDense m1
  let m2 ← createRandomCrs rnd p.n (p.seed + 111) p.nonZeros p.maxValue
  let fm2 ← Crs.toDense m2
  some (fun x => if x = 1 then m1 else if x = 2 then m2 else Crs.Crs.empty, (noMem.put 1 fm1).put 2 fm2)

/-- The first test, examples/closuresTest.cpp:142-145. -/
def test1 (p : Params) (v : Vars) : Option (Bool × Vars) := do
  let s ← Crs.plusMul v.1 1 (.num p.k1) 2
  let e ← v.2.addMul 1 (.num p.k1) 2
  let d ← fine e
  let b ← checkCrs (s 1) (d.mat 1)
  some (b, s, d)

/-- The second test, examples/closuresTest.cpp:149-151. -/
def test2 (v : Vars) : Option (Bool × Vars) := do
  let s ← Crs.makeProd v.1 3 1 2
  let d ← v.2.assign 3 (.prod (.mat 1) (.mat 2))
  let b ← checkCrs (s 3) (d.mat 3)
  some (b, s, d)

/-- The third test, examples/closuresTest.cpp:156-159. -/
def test3 (p : Params) (v : Vars) : Option (Bool × Vars) := do
  let s ← Crs.assignMul v.1 4 (.num p.k2) 2
  let d ← v.2.assign 4 (.mul (.num p.k2) (.mat 2))
  let b ← checkCrs (s 4) (d.mat 4)
  some (b, s, d)

/-- The fourth test, examples/closuresTest.cpp:164-169. -/
def test4 (p : Params) (v : Vars) : Option (Bool × Vars) := do
  let s ← Crs.plusMulProd v.1 4 (.num p.k3) 1 3
  let d ← v.2.assign 5 (.prod (.mul (.num p.k3) (.mat 1)) (.mat 3))
  let d ← plusDense d 4 5
  let b ← checkCrs (s 4) (d.mat 4)
  some (b, s, d)

/-- `testCrsMatrix`, examples/closuresTest.cpp:121-171: the results of the four checks, of which the text is `report`, and the variables
at the end. -/
def checks (rnd : ℚ → ℚ) (p : Params) : Option (List Bool × Vars) := do
  let v ← start rnd p
  let r1 ← test1 p v
  let r2 ← test2 r1.2
  let r3 ← test3 p r2.2
  let r4 ← test4 p r3.2
  some ([r1.1, r2.1, r3.1, r4.1], r4.2)

/-- The text, examples/closuresTest.cpp:141-170, if all checks pass; a check that does not pass also prints the two matrices, which is
left out. -/
def report (bs : List Bool) : Option (List Char) :=
  match bs with
  | [b1, b2, b3, b4] =>
    some ("---operator+=scalar*crs----TEST 1/4\n".toList ++ checkText b1 ++ "-------------\n".toList ++
      "---ctor(crs*crs)----TEST 2/4\n".toList ++ checkText b2 ++ "---ctor(scalar*crs)----TEST 3/4\n".toList ++ checkText b3 ++
      "---ctor(scalar*crs)----TEST 4/4\n".toList ++ checkText b4 ++ "-------------\n".toList)
  | _ => none

end Verif.Whole.Closures
