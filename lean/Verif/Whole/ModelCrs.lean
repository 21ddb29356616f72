import Verif.Crs.Model
import Verif.TextIo.ModelMatFile
import Verif.Random.Model48
import Verif.Util.Out

/-!
# A whole program: examples/testCRSMatrix.cpp with the name of a file

It reads a matrix, makes a sparse matrix of it, multiplies a vector of random numbers and prints everything.
-/

namespace Verif.Whole.CrsTest

open Verif.Loop Verif.Dense Verif.TextIo Verif.IoSimple

/-- `operator<<` of a sparse matrix, src/CrsMatrix.h:692-718. -/
def crsText {α : Type} (pr : α → Str) (m : Crs.Crs α) : Option Str :=
  if m.nrow = 0 then some "0 0\n".toList
  else do
    let os ← loopN (m.nrow + 1) (fun i os => (m.rowptr[i]?).map fun p => os ++ (Nat.toDigits 10 p ++ [' ']))
      (Nat.toDigits 10 m.nrow ++ ' ' :: Nat.toDigits 10 m.ncol ++ ['\n'])
    let nz ← Crs.nonZeros m
    let os ← loopN nz (fun i os => (m.colind[i]?).map fun p => os ++ (Nat.toDigits 10 p ++ [' '])) (os ++ '\n' :: Nat.toDigits 10 nz ++ ['\n'])
    let os ← loopN nz (fun i os => (m.values[i]?).map fun p => os ++ (pr p ++ [' '])) (os ++ '\n' :: Nat.toDigits 10 nz ++ ['\n'])
    return os ++ ['\n']

/-- `operator<<` of a vector, src/Vector.h:436-443.  (The one in the example cannot be chosen by the compiler.) -/
def vecText {α : Type} (pr : α → Str) (v : List α) : Str := Nat.toDigits 10 v.length ++ '\n' :: v.flatMap fun x => pr x ++ ['\n']

/-- `fillRandomVector(x, maxValue)` of `n` numbers, examples/testCRSMatrix.cpp:26-32; `rnd` is the rounding of the product. -/
def randomVector (rnd : ℚ → ℚ) (n : Nat) : List ℚ := (Random.drands n (Random.srand48 7334211)).1.map fun d => rnd (d * 10)

/-- `testMultiply`, examples/testCRSMatrix.cpp:34-44. -/
def multiplyText (pr : ℚ → Str) (rnd : ℚ → ℚ) (m : Crs.Crs ℚ) : Option Str := do
  let y := randomVector rnd m.nrow
  let x ← Crs.matrixVectorProduct m (List.replicate m.nrow 0) y
  return "initial vector:\n".toList ++ vecText pr y ++ "final vector:\n".toList ++ vecText pr x

/-- What is printed for a dense matrix, examples/testCRSMatrix.cpp:88-95. -/
def printed (pr : ℚ → Str) (rnd : ℚ → ℚ) (a : Mat ℚ) : Option Str := do
  let t1 ← matText pr a
  let m ← Crs.ofDense (fun x : ℚ => |x|) a
  let t2 ← multiplyText pr rnd m
  let t3 ← crsText pr m
  let d ← Crs.toDense m
  let t4 ← matText pr d
  return t1 ++ t2 ++ t3 ++ "----------\n".toList ++ t4

/-- The values of the numbers of a text. -/
def values {N : Type} (val : N → ℚ) (m : Mat N) : Mat ℚ := ⟨m.nrow, m.ncol, m.data.map val⟩

/-- `main` with one argument, examples/testCRSMatrix.cpp:84-96: `st` is the file, a stream that has failed if it cannot be opened. -/
def program {N : Type} [Zero N] (limit : Nat) (rd : Stream → N → Out (Stream × N)) (val : N → ℚ) (pr : ℚ → Str) (rnd : ℚ → ℚ) (st : Stream) :
    Out Str := do
  let r ← matFromStream limit rd st
  match printed pr rnd (values val r.2) with
  | some t => .ok t
  | none => ubOut

end Verif.Whole.CrsTest
