import Verif.TextIo.ModelMatFile
import Verif.Crs.Model
import Verif.Krylov.ModelSolver
import Verif.Lapack.PropsTri
import Verif.Random.Model48

/-!
# A whole program: examples/testLanczosMatrixInFile.cpp

Numbers in the file are of a type `N`, the ones that the text can hold; `val` is their value, and from there on numbers have
no rounding.
-/

namespace Verif.Whole

open Verif.Loop Verif.Dense Verif.TextIo Verif.IoSimple

noncomputable section

/-- `isReorthoEnabled`, src/LanczosOrDavidsonBase.h:103-119. -/
def isReorthoEnabled (options : List Char) (lotaMemory : Bool) : Out Bool :=
  if (Str.find options "reortho".toList 0).isNone then .ok false
  else if lotaMemory then .ok true
  else throwOut

/-- The matrix from the file, examples/testLanczosMatrixInFile.cpp:26-36.  The number of elements is the product modulo
2⁶⁴, and a number above `limit` is refused by the standard library. -/
def readSquare {N : Type} [Zero N] (limit : Nat) (rd : Stream → N → Out (Stream × N)) (st : Stream) : Out (Mat N) := do
  let r ← readU64 st 0
  let c ← readU64 r.1 1
  if r.2 ≠ c.2 then throwOut
  else if c.2 * c.2 % 2 ^ 64 > limit then throwOut
  else do
    let x ← (List.range c.2).foldlM (fun s j => (List.range c.2).foldlM (readEntry rd j) s)
      (c.1, (⟨c.2, c.2, resizeL [] (c.2 * c.2 % 2 ^ 64) 0⟩ : Mat N))
    return x.2

/-- The values of the numbers. -/
def values {N : Type} (val : N → ℂ) (m : Mat N) : Mat ℂ := ⟨m.nrow, m.ncol, m.data.map val⟩

/-- `mat_.matrixVectorProduct(x, y)` for an `x` of zeros, src/LanczosVectors.h:209-212. -/
def crsMul {α : Type} [CommRing α] (c : Crs.Crs α) (n : Nat) (y : Fin n → α) : Fin n → α := fun i =>
  ((Crs.matrixVectorProduct c (List.replicate n 0) (List.ofFn y)).getD []).getD i.val 0

/-- The numbers printed, `eigs[excited]` for all `excited < n`, examples/testLanczosMatrixInFile.cpp:60-61 and 69-71. -/
def printed (eigs : List ℝ) (n : Nat) : Out (List ℝ) :=
  match (List.range n).mapM fun i => eigs[i]? with
  | some l => .ok l
  | none => ubOut

/-- Real numbers as a vector of complex numbers. -/
def startOf (v : List ℝ) (n : Nat) : Fin n → ℂ := fun i => ((v.getD i.val 0 : ℝ) : ℂ)

/-- `fillRandom(initial)`, examples/testLanczosMatrixInFile.cpp:53-54. -/
def start (rnd : ℚ → ℚ) (now : Int) (n : Nat) : Out (Fin n → ℂ) :=
  match Random.fillRandom rnd now n with
  | some v => .ok (startOf v n)
  | none => throwOut

/-- The program once the matrix has been read, examples/testLanczosMatrixInFile.cpp:38-72: the numbers printed after `EXACT`
and after `LANCZOS`.  The parameters are the ones of src/ParametersForSolver.h:101-115, but for the three that the program
sets. -/
def solve (fs : Lapack.Stedc) (fh : Lapack.Heev ℂ) (rnd : ℚ → ℚ) (now : Int) (n : Nat) (m : Mat ℂ) : Out (List ℝ × List ℝ) := do
  let c ← Lapack.acc (Crs.ofDense (fun z : ℂ => ‖z‖) m)
  let reortho ← isReorthoEnabled "reortho".toList true
  let v ← start rnd now n
  let d ← Lapack.diag fh false m (List.replicate n 0) 'V'
  let exact ← printed d.2 n
  let r ← Krylov.computeAllStatesBelow ⟨crsMul c n, reortho, -1, 4, Lapack.eigsOf fs, Lapack.diagOf fh false⟩ 200 [] v n
  let lanczos ← printed r.1 n
  return (exact, lanczos)

/-- The program, examples/testLanczosMatrixInFile.cpp, for a file that can be opened. -/
def program {N : Type} [Zero N] (limit : Nat) (rd : Stream → N → Out (Stream × N)) (val : N → ℂ) (fs : Lapack.Stedc)
    (fh : Lapack.Heev ℂ) (rnd : ℚ → ℚ) (now : Int) (st : Stream) : Out (List ℝ × List ℝ) := do
  let m ← readSquare limit rd st
  solve fs fh rnd now m.nrow (values val m)

end

end Verif.Whole
