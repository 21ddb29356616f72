import Verif.Whole.ModelReal

/-!
# A whole program: src/Ainur/test.cpp

The program puts the files named by its arguments one after the other, reads them as one file in the Ainur format, prints a number and two
texts, and evaluates the entries of a vector of expressions in `t`, which may call functions that are given by tables in other files.
-/

namespace Verif.Whole.Fun

open Verif.Whole.Input Verif.StrUtil

abbrev Str := List Char

/-- `AinurComplex::convert` to a text, src/Ainur/AinurComplex.hh:47. -/
def textElem : Ainur.Elem Str := ⟨fun s => .ok s⟩

/-- `resolve`, src/Ainur/AinurState.h:189-192, and `valueFromFunction`, src/Ainur/AinurMacros.hh:189-215.  A function with a name in `funs`
was made before, from the same file; another one cannot be there. -/
def resolve {Q : Type} [DecidableEq Q] (N : Ainur.Num Q) (fuel : Nat) (disk : Str → Option Str) (funs : List Str) (line : Str) : Out Str :=
  let nv := Ainur.getFunctionNameValue line
  if nv.2 = [] then .ok nv.1
  else if !isAfloat nv.2 then .ok line
  else if nv.1 ∉ funs then throwOut
  else
    match Ainur.makeFun N fuel disk nv.1 with
    | some (.ok data) => do
      let x ← Ainur.atofQ N (Ainur.deleteEnclosing nv.2 '(' ')')
      let y ← Ainur.callFun data x
      return N.text y
    | _ => ubOut

/-- `std::to_string(t)` for the `t` of src/Ainur/test.cpp:22. -/
def timeText : Str := "0.300000".toList

/-- One round of the loop, src/Ainur/test.cpp:24-29. -/
def entryAt {Q : Type} [DecidableEq Q] (N : Ainur.Num Q) (fuel : Nat) (disk : Str → Option Str) (funs : List Str) (w : Str) : Out Q :=
  match replaceAll w "%t".toList timeText with
  | none => ubOut
  | some str => do
    let str ← resolve N fuel disk funs str
    Ainur.atofQ N str

/-- What is printed of the numbers, src/Ainur/test.cpp:31-34. -/
def numbers {Q : Type} (pr : Q → Str) (v : List Q) : Str :=
  Nat.toDigits 10 v.length ++ ['\n'] ++
    match v with
    | [a, b] => pr a ++ [' '] ++ pr b ++ ['\n']
    | _ => []

/-- The vector, src/Ainur/test.cpp:20-34.  `before` was printed before, and `pr` prints a number. -/
def readVector {Q : Type} [DecidableEq Q] (N : Ainur.Num Q) (fuel : Nat) (disk : Str → Option Str) (pr : Q → Str) (s : Ainur.State)
    (before : Str) : Run :=
  match readAs (fun funs t => Ainur.convertVector textElem (Ainur.filesOf N fuel disk) funs t []) s "myvector".toList with
  | .error b => ⟨before, .of b⟩
  | .ok (ws, s) =>
    match ws.mapM (entryAt N fuel disk s.funs) with
    | .error b => ⟨before, .of b⟩
    | .ok v => ⟨before ++ numbers pr v, .code 0⟩

/-- The second text and what follows, src/Ainur/test.cpp:15-34. -/
def readUseit {Q : Type} [DecidableEq Q] (N : Ainur.Num Q) (fuel : Nat) (disk : Str → Option Str) (pr : Q → Str) (s : Ainur.State)
    (before : Str) : Run :=
  match readAs (Ainur.convertString (Ainur.filesOf N fuel disk)) s "useit".toList with
  | .error b => ⟨before, .of b⟩
  | .ok (u, s) => readVector N fuel disk pr s (before ++ u ++ ['\n'])

/-- The first text and what follows, src/Ainur/test.cpp:11-34. -/
def readModel {Q : Type} [DecidableEq Q] (N : Ainur.Num Q) (fuel : Nat) (disk : Str → Option Str) (pr : Q → Str) (s : Ainur.State)
    (before : Str) : Run :=
  match readAs (Ainur.convertString (Ainur.filesOf N fuel disk)) s "Model".toList with
  | .error b => ⟨before, .of b⟩
  | .ok (m, s) => readUseit N fuel disk pr s (before ++ m ++ ['\n'])

/-- `partiallyReadSomething`, src/Ainur/test.cpp:5-35.  The number is an `int` that is stored in a `SizeType`. -/
def body {Q : Type} [DecidableEq Q] (N : Ainur.Num Q) (fuel : Nat) (disk : Str → Option Str) (pr : Q → Str) (s : Ainur.State) : Run :=
  match readAs (convertInt (Ainur.filesOf N fuel disk)) s "TotalNumberOfSites".toList with
  | .error b => ⟨[], .of b⟩
  | .ok (n, s) =>
    readModel N fuel disk pr s ("Read: TotalNumberOfSites=".toList ++ Nat.toDigits 10 (Ainur.toSize n) ++ ['\n'])

/-- `main`, src/Ainur/test.cpp:37-60.  `args` are the arguments after the name of the program.  The loop over the files is that of
src/Ainur/testReal.cpp.  `disk` has the input and the tables; `fuel` bounds the rounds of the loops that read a table. -/
def main {Q : Type} [DecidableEq Q] (N : Ainur.Num Q) (fuel : Nat) (disk : Str → Option Str) (pr : Q → Str) (args : List Str) : Run :=
  if args = [] then ⟨[], .code 1⟩
  else
    match Real.readFiles disk args with
    | .error b => ⟨[], .of b⟩
    | .ok str =>
      match Ainur.ainur (Ainur.filesOf N fuel disk) str with
      | .error b => ⟨[], .of b⟩
      | .ok s => body N fuel disk pr s

end Verif.Whole.Fun
