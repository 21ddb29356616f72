import Verif.Ainur.Model

/-!
# Model of the functions of Ainur that are read from files, src/Ainur/AinurMacros.hh

The numbers are any type with decidable equality; the text of a number (`std::to_string`) and the number of a text
(`std::atof`) are given.
-/

namespace Verif.Ainur

open Verif.Str Verif.StrUtil

/-- `std::atof` and `std::to_string`. -/
structure Num (Q : Type) where
  ofText : Str → Q
  text : Q → Str

/-- `PsimagLite::atof`, src/PsimagLite.cpp:110-117. -/
def atofQ {Q : Type} (N : Num Q) (s : Str) : Out Q := if isAfloat s then .ok (N.ofText s) else throwOut

/-- The state of a `std::ifstream`: what is left, `eofbit` and `failbit`. -/
structure Stream where
  rest : Str
  eof : Bool
  fail : Bool
  deriving DecidableEq

/-- `std::istream::getline(char*, max)` (C++ standard): the characters stored, and the stream. -/
def getline (max : Nat) (st : Stream) : Str × Stream :=
  if st.eof || st.fail then ([], { st with fail := true })
  else
    let line := st.rest.takeWhile (· ≠ '\n')
    if line.length < max then
      match st.rest.drop line.length with
      | [] => (line, ⟨[], true, decide (line = [])⟩)
      | _ :: r => (line, ⟨r, false, false⟩)
    else (st.rest.take (max - 1), ⟨st.rest.drop (max - 1), false, true⟩)

/-- `MAX_LINE`, src/Ainur/AinurMacros.hh:21. -/
def maxLine : Nat := 2048

/-- `emptyLine`, src/Ainur/AinurMacros.hh:116-124. -/
def emptyLine (s : Str) : Bool := s.all fun c => !(c ≠ ' ' || c ≠ '\t')

/-- `setSeparatorForSplit`, src/Ainur/AinurMacros.hh:103-114. -/
def setSeparator (s : Str) : Out Str :=
  if s = "space".toList then .ok [' ']
  else if s = "comma".toList then .ok [',']
  else throwOut

/-- `tokens[column]` given to `atof`, src/Ainur/AinurMacros.hh:143-144. -/
def column {Q : Type} (N : Num Q) (tokens : List Str) (c : Nat) : Out Q :=
  match tokens[c]? with
  | none => ubOut
  | some t => atofQ N t

/-- One line of `readData`, src/Ainur/AinurMacros.hh:137-146: the separator is that of the default argument of `split`
(src/PsimagLite.h:61), and not the one of the function. -/
def readRow {Q : Type} (N : Num Q) (cx cy : Nat) (s : Str) : Out (Q × Q) :=
  match split [] s [' '] with
  | none => throwOut
  | some tokens =>
    if cx > tokens.length ∨ cy > tokens.length then throwOut
    else do
      let x ← column N tokens cx
      let y ← column N tokens cy
      return (x, y)

/-- The loop of `readData`, src/Ainur/AinurMacros.hh:133-147; `none` when the budget of rounds runs out.  A zero byte
ends the text of a line. -/
def readLoop {Q : Type} (N : Num Q) (cx cy : Nat) : Nat → Stream → List (Q × Q) → Option (Out (List (Q × Q)))
  | 0, _, _ => none
  | fuel + 1, st, acc =>
    if st.eof then some (.ok acc)
    else
      let r := getline maxLine st
      let s := r.1.takeWhile (· ≠ '\x00')
      if emptyLine s then readLoop N cx cy fuel r.2 acc
      else match readRow N cx cy s with
        | .error e => some (.error e)
        | .ok p => readLoop N cx cy fuel r.2 (acc ++ [p])

/-- `readData`, src/Ainur/AinurMacros.hh:125-148, with a budget of rounds for the loop. -/
def readData {Q : Type} (N : Num Q) (fuel : Nat) (cx cy : Nat) (file : Option Str) : Option (Out (List (Q × Q))) :=
  match file with
  | none => some throwOut
  | some text => readLoop N cx cy fuel ⟨text, false, false⟩ []

/-- An `int` as `SizeType` (64 bits). -/
def toSize (i : Int) : Nat := (i % 18446744073709551616).toNat

/-- An optional column of the arguments, src/Ainur/AinurMacros.hh:48-54. -/
def columnArg (tokens : List Str) (k dflt : Nat) : Out Nat :=
  match tokens[k]? with
  | none => .ok dflt
  | some t =>
    match atoi t with
    | none => ubOut
    | some none => throwOut
    | some (some i) => .ok (toSize i)

/-- The members that the constructor sets from its argument, src/Ainur/AinurMacros.hh:150-154. -/
structure FunArgs where
  filename : Str
  separator : Str
  columnX : Nat
  columnY : Nat
  deriving DecidableEq

/-- The constructor of `AinurFunction` up to `readData`, src/Ainur/AinurMacros.hh:25-58. -/
def parseFun (args : Str) : Out FunArgs :=
  match split [] (deleteEnclosing args '(' ')') [','] with
  | none => throwOut
  | some [] => throwOut
  | some (t0 :: ts) => do
    let sep ← setSeparator (ts.head?.getD "space".toList)
    let cx ← columnArg (t0 :: ts) 2 0
    let cy ← columnArg (t0 :: ts) 3 1
    if ts.length > 3 then throwOut
    return ⟨deleteEnclosing t0 '"' '"', sep, cx, cy⟩

/-- The constructor of `AinurFunction`, src/Ainur/AinurMacros.hh:25-61: `data_`.  `disk` has the texts of the files that
can be opened. -/
def makeFun {Q : Type} (N : Num Q) (fuel : Nat) (disk : Str → Option Str) (args : Str) : Option (Out (List (Q × Q))) :=
  match parseFun args with
  | .error e => some (.error e)
  | .ok a => readData N fuel a.columnX a.columnY (disk a.filename)

/-- `operator()`, src/Ainur/AinurMacros.hh:63-70: without an entry for the argument, the end of the vector is
dereferenced. -/
def callFun {Q : Type} [DecidableEq Q] (data : List (Q × Q)) (x : Q) : Out Q :=
  match data.find? fun p => p.1 = x with
  | none => ubOut
  | some p => .ok p.2

/-- What `Files` of Verif/Ainur/Model.lean is for functions that were made with the given budget: an argument without an
entry has no text there. -/
def filesOf {Q : Type} [DecidableEq Q] (N : Num Q) (fuel : Nat) (disk : Str → Option Str) : Files where
  make args := match makeFun N fuel disk args with
    | some (.ok _) => true
    | _ => false
  call args x := match makeFun N fuel disk args with
    | some (.ok data) =>
      match atofQ N x with
      | .error _ => none
      | .ok q => match callFun data q with
        | .ok y => some (N.text y)
        | .error _ => none
    | _ => none

end Verif.Ainur
