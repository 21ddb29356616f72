import Verif.Ainur.ModelGrammar
import Verif.InputNg.ModelValues
import Verif.Cmplx.Model
import Verif.StrUtil.Spec

/-!
# A whole program: examples/testInputNg.cpp

The program reads an input file, in the Ainur format if it begins with `##` and in the other format if it does not, and then a number, a
list of numbers and, if it is there, a text.
-/

namespace Verif.Whole.Input

open Verif.StrUtil

abbrev Str := List Char

/-! ## Files in the Ainur format -/

/-- Whether the data are in the Ainur format, src/InputNg.h:254-255. -/
def isAinur : Str → Bool
  | '#' :: '#' :: _ :: _ => true
  | _ => false

/-- The new lines of `replaceLine` in the Ainur format, src/InputNg.h:357-363. -/
def newLines (a b : Str) : Nat → List Str → Str
  | _, [] => []
  | i, t :: ts => a ++ InputNg.ttos i ++ b ++ ('=' :: t) ++ (';' :: '\n' :: newLines a b (i + 1) ts)

/-- `replaceLine` in the Ainur format, src/InputNg.h:314-366. -/
def replaceLine (line : Str) : Out Str :=
  if line.head? ≠ some '!' then .ok (line ++ ['\n'])
  else
    let l := line.drop 1
    let a := l.takeWhile (· ≠ '$')
    match (l.dropWhile (· ≠ '$')).drop 1 with
    | [] => throwOut
    | c :: l =>
      if c ≠ 'i' then throwOut
      else
        let b := l.takeWhile (fun c => c ≠ ' ' ∧ c ≠ '\t')
        let rest := (l.dropWhile (fun c => c ≠ ' ' ∧ c ≠ '\t')).drop 1
        if rest = [] then throwOut
        else do
          let tokens ← ofThrow (split [] rest [' '])
          return newLines a b 0 tokens

/-- `changeDataIfNeeded` in the Ainur format, src/InputNg.h:278-288. -/
def changeData (data : Str) : Out Str := do
  let ls ← (InputNg.splitIntoLines data).mapM replaceLine
  return ls.flatten

/-- `MyInputCheck::import`, examples/testInputNg.cpp:63-69. -/
def importText : Str := "integer myscalar;\nvector myvector;\nstring mystring;\n".toList

/-- The other functions of `MyInputCheck`, src/InputCheckBase.h:87-107: they never throw and no list is special. -/
def check : InputNg.Check := ⟨fun _ => true, fun _ _ => true, fun _ _ => some false⟩

/-- The reader: of a file in the Ainur format, or of another file. -/
inductive Io
  | ainur (s : Ainur.State)
  | plain (r : InputNg.Readable)

/-- The constructors of `Writeable` and `Readable`, src/InputNg.h:194-206, 245-276, 598-618, for a file with these contents.  Left out: the
map of `setMap`, which is not looked at in the Ainur format. -/
def openIo (fs : Ainur.Files) (contents : Str) : Out Io :=
  let data := InputNg.readFile contents
  if isAinur data then do
    let data ← changeData data
    let s ← Ainur.ainur fs (importText ++ data)
    return .ainur s
  else do
    let r ← InputNg.load check data
    return .plain r

/-- `extensionOf`, src/InputNg.h:1071-1096. -/
def extensionOf (s : Str) : Str :=
  if s.all (· ≠ '.') then [] else (s.reverse.takeWhile (· ≠ '.')).reverse

/-- What the constructor of `Readable` prints, src/InputNg.h:604-611, with the colours of src/AnsiColors.h:17, 21. -/
def warning (fileName contents : Str) : Str :=
  if isAinur (InputNg.readFile contents) ∧ extensionOf fileName = "inp".toList then
    "\x1b[35m".toList ++ "WARNING: Ainur file but inp file extension\n".toList ++ "\x1b[0m".toList
  else []

/-! ## Reading -/

/-- `AinurState::readValue`, src/Ainur/AinurState.h:129-147, with the conversion as a parameter. -/
def readAs {α : Type} (conv : List Str → Str → Out α) (s : Ainur.State) (label : Str) : Out (α × Ainur.State) :=
  match Ainur.storageIndexByName s label with
  | none => throwOut
  | some x =>
    match s.vars[x]? with
    | none => ubOut
    | some a =>
      if Ainur.isEmptyValue a.value then throwOut
      else do
        let t ← conv s.funs a.value
        return (t, { s with used := s.used.modify x (· + 1) })

/-- `convert` to an integer, src/Ainur/AinurConvert.hh:71-86. -/
def convertInt (fs : Ainur.Files) (funs : List Str) (value : Str) : Out Int := do
  let label ← Ainur.valueFromFunction fs funs value
  ofNested (atoi label)

/-- `AinurComplex::convert` to a `double`, src/Ainur/AinurComplex.hh:31-34. -/
def realElem : Ainur.Elem ℚ := ⟨Cmplx.atof⟩

/-- The label without the `=` at its end, src/InputNg.h:655-661, 755-761. -/
def noEqual (label : Str) : Str := if label.getLast? = some '=' then label.dropLast else label

/-- `readline` of an `int`, src/InputNg.h:752-776. -/
def readInt (fs : Ainur.Files) (io : Io) (label : Str) : Out (Int × Io) :=
  match io with
  | .ainur s => do
    let (n, s) ← readAs (convertInt fs) s (noEqual label)
    return (n, .ainur s)
  | .plain r => do
    let (n, r) ← InputNg.readValue InputNg.asInt r label
    return (n, .plain r)

/-- `read` of an empty vector of `double`, src/InputNg.h:792-814. -/
def readReals (fs : Ainur.Files) (io : Io) (label : Str) : Out (List ℚ × Io) :=
  match io with
  | .ainur s => do
    let (v, s) ← readAs (fun funs t => Ainur.convertVector realElem fs funs t []) s label
    return (v, .ainur s)
  | .plain r => do
    let (ws, r) ← InputNg.readVector r label
    let v ← ws.mapM Cmplx.stringToReal
    return (v, .plain r)

/-- `readline` of a `String`, src/InputNg.h:652-674. -/
def readText (fs : Ainur.Files) (io : Io) (label : Str) : Out (Str × Io) :=
  match io with
  | .ainur s => do
    let (t, s) ← Ainur.readValue fs s (noEqual label)
    return (t, .ainur s)
  | .plain r => do
    let (t, r) ← InputNg.readline r label
    return (t, .plain r)

/-! ## The program -/

/-- How the program ends: it returns a number, an exception that nobody catches ends it, or its behaviour is undefined. -/
inductive Ends
  | code (n : Nat)
  | uncaught
  | undefined
  deriving DecidableEq, Repr

/-- The end of a program by an exception or by undefined behaviour. -/
def Ends.of : Bad → Ends
  | .thrown => .uncaught
  | .ub => .undefined

/-- What the program writes to `std::cout`, and how it ends. -/
structure Run where
  printed : Str
  ends : Ends
  deriving DecidableEq, Repr

/-- The optional text, examples/testInputNg.cpp:174-179: exceptions are caught. -/
def optional (fs : Ainur.Files) (io : Io) : Ends :=
  match readText fs io "mystring=".toList with
  | .error .ub => .undefined
  | _ => .code 0

/-- The line that is printed, examples/testInputNg.cpp:132-133. -/
def line (n : Int) (fileName : Str) : Str :=
  "I've read label myscalar with value ".toList ++ decimal n ++ " from ".toList ++ fileName ++ "\n".toList

/-- What follows the opening of the file, examples/testInputNg.cpp:129-179.  `before` was printed before. -/
def body (fs : Ainur.Files) (io : Io) (before fileName : Str) : Run :=
  match readInt fs io "myscalar=".toList with
  | .error b => ⟨before, .of b⟩
  | .ok (n, io) =>
    match readReals fs io "myvector".toList with
    | .error b => ⟨before ++ line n fileName, .of b⟩
    | .ok (_, io) => ⟨before ++ line n fileName, optional fs io⟩

/-- `main`, examples/testInputNg.cpp:90-180.  `args` are the arguments after the name of the program, `disk` the contents of the files that
can be opened. -/
def main (fs : Ainur.Files) (disk : Str → Option Str) (args : List Str) : Run :=
  match args with
  | [fileName] =>
    match disk fileName with
    | none => ⟨[], .uncaught⟩
    | some contents =>
      match openIo fs contents with
      | .error b => ⟨if isAinur (InputNg.readFile contents) ∧ (changeData (InputNg.readFile contents)).isOk then warning fileName contents else [], .of b⟩
      | .ok io => body fs io (warning fileName contents) fileName
  | _ => ⟨[], .code 1⟩

end Verif.Whole.Input
