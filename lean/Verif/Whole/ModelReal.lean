import Verif.Whole.ModelInput
import Verif.Ainur.ModelFun
import Verif.TextIo.Model

/-!
# A whole program: src/Ainur/testReal.cpp

The program puts the files named by its arguments one after the other, reads them as one file in the Ainur format, and prints a number, a
text, a vector and a matrix that the file gives.
-/

namespace Verif.Whole.Real

open Verif.Whole.Input

abbrev Str := List Char

/-- The loop over the files, src/Ainur/testReal.cpp:29-43.  `disk` gives the contents of the files that can be opened.  For another one
`tellg` returns `-1`, and `reserve` of that many characters throws. -/
def readFiles (disk : Str → Option Str) : List Str → Out Str
  | [] => .ok []
  | a :: as =>
    match disk a with
    | none => throwOut
    | some s => do
      let t ← readFiles disk as
      return s ++ t

/-- The matrix with these rows, src/Ainur/AinurConvert1.cpp:21-40, stored by columns. -/
def matOf (rs : List (List ℚ)) : Dense.Mat ℚ :=
  let c := (rs.head?.map List.length).getD 0
  ⟨rs.length, c, (List.range c).flatMap fun j => rs.map fun r => r.getD j 0⟩

/-- The matrix, src/Ainur/testReal.cpp:20-22.  `before` was printed before, and `pr` prints a number. -/
def readMatrix (fs : Ainur.Files) (pr : ℚ → Str) (s : Ainur.State) (before : Str) : Run :=
  match readAs (fun funs t => Ainur.convertMatrix realElem fs funs t []) s "mymatrix".toList with
  | .error b => ⟨before, .of b⟩
  | .ok (m, _) =>
    match TextIo.matText pr (matOf m) with
    | none => ⟨before, .undefined⟩
    | some t => ⟨before ++ t, .code 0⟩

/-- The vector and what follows, src/Ainur/testReal.cpp:16-22. -/
def readVector (fs : Ainur.Files) (pr : ℚ → Str) (s : Ainur.State) (before : Str) : Run :=
  match readAs (fun funs t => Ainur.convertVector realElem fs funs t []) s "myv2".toList with
  | .error b => ⟨before, .of b⟩
  | .ok (v, s) => readMatrix fs pr s (before ++ IoSimple.vectorText pr v)

/-- The text and what follows, src/Ainur/testReal.cpp:12-22. -/
def readModel (fs : Ainur.Files) (pr : ℚ → Str) (s : Ainur.State) (before : Str) : Run :=
  match readAs (Ainur.convertString fs) s "Model".toList with
  | .error b => ⟨before, .of b⟩
  | .ok (m, s) => readVector fs pr s (before ++ m ++ ['\n'])

/-- `partiallyReadSomething`, src/Ainur/testReal.cpp:5-23.  The number is an `int` that is stored in a `SizeType`. -/
def body (fs : Ainur.Files) (pr : ℚ → Str) (s : Ainur.State) : Run :=
  match readAs (convertInt fs) s "TotalNumberOfSites".toList with
  | .error b => ⟨[], .of b⟩
  | .ok (n, s) => readModel fs pr s ("Read: TotalNumberOfSites=".toList ++ Nat.toDigits 10 (Ainur.toSize n) ++ ['\n'])

/-- `main`, src/Ainur/testReal.cpp:25-48.  `args` are the arguments after the name of the program. -/
def main (fs : Ainur.Files) (pr : ℚ → Str) (disk : Str → Option Str) (args : List Str) : Run :=
  if args = [] then ⟨[], .code 1⟩
  else
    match readFiles disk args with
    | .error b => ⟨[], .of b⟩
    | .ok str =>
      match Ainur.ainur fs str with
      | .error b => ⟨[], .of b⟩
      | .ok s => body fs pr s

end Verif.Whole.Real
