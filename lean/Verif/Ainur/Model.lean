import Verif.Util.Out
import Verif.StrUtil.Model

/-!
# Model of the Ainur input language, src/Ainur

Strings are lists of characters.  This file begins with the calls `declare` and `assign` that the actions of the grammar
make (src/Ainur/AinurSpirit1.cpp:13-41); the grammar itself is in ModelGrammar.lean.  The files src/Ainur/AinurReadable.h, AinurStatements.h and AinurStore.h are not
used by any other file and are not modelled.
-/

namespace Verif.Ainur

open Verif.Str Verif.StrUtil

abbrev Str := List Char

/-! ## Variables -/

/-- `AinurVariable`, src/Ainur/AinurConvert.hh:9-14. -/
structure Var where
  key : Str
  value : Str
  type : Str
  opaq : Str
  deriving DecidableEq, Repr

/-- The members of `AinurState` that change, src/Ainur/AinurState.h:321-323: `ainurVariables_`, `used_`, and the names
of the functions in `functionNameToIndex_`, src/Ainur/AinurMacros.hh:264-265, in the order of their index. -/
structure State where
  vars : List Var
  used : List Nat
  funs : List Str
  deriving DecidableEq, Repr

/-- `AinurState()`. -/
def State.init : State := ⟨[], [], []⟩

/-- `ZERO_CHAR_STRING_`, src/Ainur/AinurState.h:44. -/
def zeroCharString : Str := ['\x00']

/-- `storageIndexByName`, src/Ainur/AinurState.h:196-205 (`none` is -1). -/
def storageIndexByName (s : State) (key : Str) : Option Nat := s.vars.findIdx? (·.key = key)

/-- `assign`, src/Ainur/AinurState.h:48-60. -/
def assign (s : State) (k v : Str) : Out State :=
  match storageIndexByName s k with
  | none => throwOut
  | some x => .ok { s with vars := s.vars.modify x fun a => { a with value := v } }

/-- `declare` with a value, src/Ainur/AinurState.h:62-80. -/
def declare (s : State) (d key v : Str) : Out State :=
  match storageIndexByName s key with
  | some _ => throwOut
  | none =>
    if d.length > 1 ∧ d.getLast? = some '!' then
      .ok { s with vars := s.vars ++ [⟨key, v, d.dropLast, "NORMAL".toList⟩], used := s.used ++ [0] }
    else .ok { s with vars := s.vars ++ [⟨key, v, d, "NORMAL".toList⟩], used := s.used ++ [1] }

/-- `declare` without a value, src/Ainur/AinurState.h:82. -/
def declare2 (s : State) (d key : Str) : Out State := declare s d key zeroCharString

/-- `isEmptyValue`, src/Ainur/AinurState.h:207-210. -/
def isEmptyValue (v : Str) : Bool := v.length = 0 ∨ v = zeroCharString

/-- `printUnused`, src/Ainur/AinurState.h:93-117: the keys printed. -/
def unused (s : State) : List Str :=
  ((s.vars.zip s.used).filter fun e => e.2 = 0).map (·.1.key)

/-- `printAll`, src/Ainur/AinurState.h:119-127: the fields printed. -/
def printAll (s : State) : List (Str × Str × Str) := s.vars.map fun a => (a.type, a.key, a.value)

/-- `setMap`, src/Ainur/AinurState.h:149-160: the assignments to the map, in their order. -/
def setMap (s : State) : List (Str × Str) :=
  ((s.vars.zip s.used).filter fun e => e.2 ≠ 0).map fun e => (e.1.key, e.1.value)

/-! ## Functions from files -/

/-- What depends on the files: `make content` is whether the constructor of `AinurFunction` succeeds
(src/Ainur/AinurMacros.hh:25-61), and `call content argument` is the text of the value of the function
(src/Ainur/AinurMacros.hh:63-70, 209-214; `none`: `atof` throws; the undefined behaviour of an argument that is not in
the file is not modelled). -/
structure Files where
  make : Str → Bool
  call : Str → Str → Option Str

/-- `AINUR_FROM_FILE`, src/Ainur/AinurMacros.hh:159. -/
def fromFile : Str := "AinurFromFile".toList

/-- `procNativeMacro` and `addAinurFromFile`, src/Ainur/AinurMacros.hh:173-185, 250-260. -/
def procNativeMacro (fs : Files) (funs : List Str) (line : Str) : Out (Str × List Str) :=
  if (line.drop 1).take fromFile.length = fromFile then
    if line.length ≤ fromFile.length + 1 then ubOut else
    let content := line.drop (fromFile.length + 1)
    if content ∈ funs then .ok (content, funs)
    else if fs.make content then .ok (content, funs ++ [content])
    else throwOut
  else throwOut

/-- `deleteEnclosing`, src/Ainur/AinurMacros.hh:78-99. -/
def deleteEnclosing (content : Str) (b e : Char) : Str :=
  match content with
  | [] => []
  | c :: rest =>
    let total := content.length - (if c = b then 1 else 0) -
      (if rest ≠ [] ∧ content.getLast? = some e then 1 else 0)
    (content.drop (if c = b then 1 else 0)).take total

/-- The search of `getFunctionNameValue` for `)(`, src/Ainur/AinurMacros.hh:235-239: the position of the first `)`
with `(` after it, from `i` on. -/
def findBreak : Nat → Str → Option Nat
  | _, [] => none
  | i, c :: s => if c = ')' ∧ s.head? = some '(' then some i else findBreak (i + 1) s

/-- `getFunctionNameValue`, src/Ainur/AinurMacros.hh:222-248. -/
def getFunctionNameValue (line : Str) : Str × Str :=
  if line.length < 4 then (line, [])
  else if line.head? ≠ some '(' ∨ line.getLast? ≠ some ')' then (line, [])
  else
    match findBreak 1 (line.drop 1) with
    | none => (line, [])
    | some i => (line.take (i + 1), (line.drop (i + 2)).take (line.length - i - 3))

/-- `valueFromFunction`, src/Ainur/AinurMacros.hh:189-215. -/
def valueFromFunction (fs : Files) (funs : List Str) (line : Str) : Out Str :=
  let nv := getFunctionNameValue line
  if nv.2 = [] then .ok nv.1
  else if !isAfloat nv.2 then .ok line
  else if nv.1 ∉ funs then throwOut
  else ofThrow (fs.call nv.1 (deleteEnclosing nv.2 '(' ')'))

/-- `AinurConvert::convert` to a string, src/Ainur/AinurConvert.hh:102-112. -/
def convertString (fs : Files) (funs : List Str) (value : Str) : Out Str := do
  let label ← valueFromFunction fs funs value
  if label.length > 1 ∧ label.head? = some '"' ∧ label.getLast? = some '"' then
    return (label.drop 1).dropLast
  else return label

/-- `readValue` of a string, src/Ainur/AinurState.h:129-147: the value, and the state with the new `used_`.  Other types
call another `convert` at the end (see below for integers and vectors). -/
def readValue (fs : Files) (s : State) (label : Str) : Out (Str × State) :=
  match storageIndexByName s label with
  | none => throwOut
  | some x =>
    match s.vars[x]? with
    | none => ubOut
    | some a =>
      if isEmptyValue a.value then throwOut
      else do
        let t ← convertString fs s.funs a.value
        return (t, { s with used := s.used.modify x (· + 1) })

/-! ## Macros -/

/-- `isValidCharForMacroName`, src/Ainur/AinurState.h:298-305. -/
def isNameChar (c : Char) : Bool :=
  (96 < c.toNat && c.toNat < 123) || (64 < c.toNat && c.toNat < 91) || (47 < c.toNat && c.toNat < 58) || c == '_'

/-- `unquote`, src/Ainur/AinurState.h:307-318. -/
def unquote (str : Str) : Str :=
  let s := if str.head? = some '"' then str.drop 1 else str
  if s.getLast? = some '"' then s.dropLast else s

/-- The local variables of `expandOneValue`, src/Ainur/AinurState.h:259-263. -/
structure Exp where
  name : Str
  ret : Str
  has : Bool
  inside : Bool
  deriving DecidableEq, Repr

/-- One round of the loop of `expandOneValue`, src/Ainur/AinurState.h:265-292. -/
def expandChar (s : State) (e : Exp) (c : Char) : Out Exp :=
  if c = '\\' then .ok { e with inside := true }
  else if e.inside = false then .ok { e with ret := e.ret ++ [c] }
  else if isNameChar c then .ok { e with name := e.name ++ [c] }
  else
    match storageIndexByName s e.name with
    | none => throwOut
    | some x =>
      match s.vars[x]? with
      | none => ubOut
      | some a => .ok ⟨[], e.ret ++ unquote a.value ++ [c], true, false⟩

/-- `expandOneValue`, src/Ainur/AinurState.h:255-296. -/
def expandOneValue (s : State) (value : Str) : Out (Bool × Str) := do
  let e ← value.foldlM (expandChar s) ⟨[], [], false, false⟩
  return (e.has, unquote e.ret)

/-- One round of the loop of `expandMacros`, src/Ainur/AinurState.h:236-250. -/
def expandVar (fs : Files) (i : Nat) (r : State × Bool) : Out (State × Bool) :=
  match r.1.used[i]?, r.1.vars[i]? with
  | some u, some a =>
    if u = 0 then .ok r
    else do
      let m ← expandOneValue r.1 a.value
      if !m.1 then return r
      else do
        let (v, funs) ← (if m.2.head? = some '!' then procNativeMacro fs r.1.funs m.2 else .ok (m.2, r.1.funs))
        return ({ r.1 with
                  vars := r.1.vars.modify i fun a => { a with value := v, opaq := "MACRO".toList }
                  funs := funs }, true)
  | _, _ => ubOut

/-- `expandMacros`, src/Ainur/AinurState.h:231-253. -/
def expandMacros (fs : Files) (s : State) : Out (State × Bool) :=
  (List.range s.vars.length).foldlM (fun r i => expandVar fs i r) (s, false)

/-- The loop of `expandMacrosRecursively`, src/Ainur/AinurState.h:220-229, with the number of further rounds allowed. -/
def expandLoop (fs : Files) : Nat → State → Out State
  | n, s => do
    let (s, more) ← expandMacros fs s
    if more then
      match n with
      | 0 => throwOut
      | n + 1 => expandLoop fs n s
    else return s

/-- `expandMacrosRecursively`: the counter is 101 when the exception is thrown. -/
def expandMacrosRecursively (fs : Files) (s : State) : Out State := expandLoop fs 101 s

/-- `initMacros` and `installNativeMacros`, src/Ainur/AinurState.h:84-91, 210-218. -/
def initMacros (fs : Files) (s : State) : Out State := do
  let s ← declare s "function".toList fromFile ('!' :: fromFile)
  expandMacrosRecursively fs s

/-! ## Vectors and matrices -/

/-- Characters skipped by `qi::space`. -/
def isSpace (c : Char) : Bool := c = ' ' ∨ c = '\t' ∨ c = '\n' ∨ c = '\x0b' ∨ c = '\x0c' ∨ c = '\r'

/-- `+~char_(",[]")`, src/Ainur/AinurConvert1.cpp:17, on text without spaces: the characters and the rest. -/
def cell (s : Str) : Option (Str × Str) :=
  let w := s.takeWhile fun c => c ≠ ',' ∧ c ≠ '[' ∧ c ≠ ']'
  if w = [] then none else some (w, s.dropWhile fun c => c ≠ ',' ∧ c ≠ '[' ∧ c ≠ ']')

/-- The list parser `cell % ','` after its first cell: more cells as long as a comma and a cell follow.  The number
bounds the rounds. -/
def moreCells : Nat → Str → List Str × Str
  | n + 1, ',' :: s =>
    match cell s with
    | none => ([], ',' :: s)
    | some (w, s) => let r := moreCells n s; (w :: r.1, r.2)
  | _, s => ([], s)

/-- `ruleRows`, src/Ainur/AinurConvert1.cpp:11-19, on text without spaces (the skipper removes them everywhere). -/
def row (s : Str) : Option (List Str × Str) :=
  match s with
  | '[' :: s =>
    match cell s with
    | none => none
    | some (w, s) =>
      let r := moreCells s.length s
      match r.2 with
      | ']' :: rest => some (w :: r.1, rest)
      | _ => none
  | _ => none

/-- `AinurComplex::convert` to the type of the elements and the other elements of a conversion. -/
structure Elem (α : Type) where
  conv : Str → Out α

/-- `Action::operator()`, src/Ainur/AinurConvert1.cpp:44-75: the new vector, given the old one. -/
def actionRows {α : Type} (el : Elem α) (fs : Files) (funs : List Str) (attr : List Str) (t : List α) : Out (List α) :=
  match attr with
  | [a, b] =>
    if b = "...".toList then
      if t.length = 0 then throwOut
      else do
        let x ← el.conv a
        return List.replicate t.length x
    else if b.length > 4 ∧ b.take 4 = "...x".toList then do
      let mm ← ofNested (atoi (b.drop 4))
      if mm < 0 then throwOut
      else if mm = 0 then ubOut
      else do
        let x ← el.conv a
        return List.replicate mm.toNat x
    else attr.mapM fun w => do
      let v ← valueFromFunction fs funs w
      el.conv v
  | _ => attr.mapM fun w => do
    let v ← valueFromFunction fs funs w
    el.conv v

/-- `convert` to a vector, src/Ainur/AinurConvert1.cpp:106-133.  What follows the closing bracket is reported but
ignored. -/
def convertVector {α : Type} (el : Elem α) (fs : Files) (funs : List Str) (value : Str) (t : List α) : Out (List α) :=
  match row (value.filter fun c => !isSpace c) with
  | none => throwOut
  | some (attr, _) => actionRows el fs funs attr t

/-- `row % ","` after the first row. -/
def moreRows : Nat → Str → List (List Str) × Str
  | n + 1, ',' :: s =>
    match row s with
    | none => ([], ',' :: s)
    | some (w, s) => let r := moreRows n s; (w :: r.1, r.2)
  | _, s => ([], s)

/-- `"[" >> -(row % ",") >> "]"`, src/Ainur/AinurConvert1.cpp:93. -/
def rows (s : Str) : Option (List (List Str) × Str) :=
  match s with
  | '[' :: s =>
    let r := match row s with
      | none => ([], s)
      | some (w, s) => let r := moreRows s.length s; (w :: r.1, r.2)
    match r.2 with
    | ']' :: rest => some (r.1, rest)
    | _ => none
  | _ => none

/-- `ActionMatrix::operator()`, src/Ainur/AinurConvert1.cpp:21-40: the rows of the new matrix, given the old one.  If
there are no rows the matrix is left as it was. -/
def actionMatrix {α : Type} (el : Elem α) (fs : Files) (funs : List Str) (attr : List (List Str)) (t : List (List α)) :
    Out (List (List α)) :=
  match attr with
  | [] => .ok t
  | r :: _ => attr.mapM fun w =>
    if w.length ≠ r.length then throwOut
    else w.mapM fun a => do
      let v ← valueFromFunction fs funs a
      el.conv v

/-- `convert` to a matrix, src/Ainur/AinurConvert1.cpp:79-106. -/
def convertMatrix {α : Type} (el : Elem α) (fs : Files) (funs : List Str) (value : Str) (t : List (List α)) :
    Out (List (List α)) :=
  match rows (value.filter fun c => !isSpace c) with
  | none => throwOut
  | some (attr, _) => actionMatrix el fs funs attr t

end Verif.Ainur
