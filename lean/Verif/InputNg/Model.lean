import Verif.Util.Out
import Verif.StrUtil.Model

/-!
# Model of the reader of input files, src/InputNg.h

Strings are lists of characters.  `std::map` is the list of its entries in the order of its comparison.  The mode
`ainurMode_` (files that begin with `##`) is not modelled here.
-/

namespace Verif.InputNg

open Verif.Str Verif.StrUtil

abbrev Str := List Char

/-! ## The order of the maps -/

/-- The loop of `mysplit`, src/InputNg.h:130-139: the text before the first `@`, and the text after it without the
other `@`. -/
def splitAt' (x : Str) : Str × Str :=
  (x.takeWhile (· ≠ '@'), (x.dropWhile (· ≠ '@')).filter (· ≠ '@'))

/-- `mysplit`, src/InputNg.h:128-146.  `atoi` is the checked one of src/PsimagLite.cpp:66-78, which throws on other
characters than digits and signs; a negative number becomes a huge unsigned one. -/
def mysplit (x : Str) : Out (Str × Nat) := do
  let p := splitAt' x
  if p.2 = [] then return (p.1, 0)
  else do
    let n ← ofNested (atoi p.2)
    return (p.1, (n % 2 ^ 64).toNat)

/-- `MyCompare::operator()`, src/InputNg.h:111-124. -/
def less (x1 x2 : Str) : Out Bool := do
  let p1 ← mysplit x1
  let p2 ← mysplit x2
  if p1.2 = 0 ∧ p2.2 = 0 then return decide (x1 < x2)
  else if p1.2 = 0 then return true
  else if p2.2 = 0 then return false
  else if p1.1 ≠ p2.1 then return decide (x1 < x2)
  else return decide (p1.2 < p2.2)

/-- A map with the order above. -/
abbrev SMap (V : Type) := List (Str × V)

/-- `m[k] = v`: the entry goes to its place in the order, or replaces the value of an equivalent key. -/
def mapSet {V : Type} (k : Str) (v : V) : SMap V → Out (SMap V)
  | [] => .ok [(k, v)]
  | (k', v') :: m => do
    if ← less k' k then
      let r ← mapSet k v m
      return (k', v') :: r
    else if ← less k k' then return (k, v) :: (k', v') :: m
    else return (k', v) :: m

/-- `findRootLabel`, src/InputNg.h:1114-1124. -/
def findRootLabel (label : Str) : Str := label.takeWhile (· ≠ '@')

/-! ## Writeable -/

/-- The argument `InputCheckType`: `false` and `none` are exceptions; `checkVec` says whether the numbers are of a
special kind. -/
structure Check where
  checkSimpleLabel : Str → Bool
  checkText : Str → Str → Bool
  checkVec : Str → List Str → Option Bool

/-- `readFile`, src/InputNg.h:225-241: at the end of the file `get` leaves `c` as it was, and `c` is appended once
more; `c` is the null character if the file is empty. -/
def readFile (contents : Str) : Str := contents ++ [contents.getLastD '\x00']

/-- `splitIntoLines`, src/InputNg.h:290-305. -/
def splitIntoLines (data : Str) : List Str := data.splitOn '\n'

/-- `ttos` of a natural number. -/
def ttos (n : Nat) : Str := Nat.toDigits 10 n

/-- The new lines of `replaceLine`, src/InputNg.h:357-363 (not in Ainur mode). -/
def newLines (a b : Str) : Nat → List Str → Str
  | _, [] => []
  | i, t :: ts => a ++ ttos i ++ b ++ ('=' :: t) ++ ('\n' :: newLines a b (i + 1) ts)

/-- `replaceLine`, src/InputNg.h:314-366. -/
def replaceLine (line : Str) : Out Str :=
  if line.head? ≠ some '!' then .ok (line ++ ['\n'])
  else
    let l := line.drop 1
    let a := l.takeWhile (· ≠ '$')
    match (l.dropWhile (· ≠ '$')).drop 1 with
    | [] => throwOut
    | c :: l =>
      if c ≠ 'i' then throwOut
      else
        let b := l.takeWhile (fun c => c ≠ ' ' ∧ c ≠ '\t')
        let rest := (l.dropWhile (fun c => c ≠ ' ' ∧ c ≠ '\t')).drop 1
        if rest = [] then throwOut
        else do
          let tokens ← ofThrow (split [] rest [' '])
          return newLines a b 0 tokens

/-- `changeDataIfNeeded`, src/InputNg.h:278-288. -/
def changeData (data : Str) : Out Str := do
  let ls ← (splitIntoLines data).mapM replaceLine
  return ls.flatten

/-- The first enumeration, src/InputNg.h:153-160. -/
inductive CharType | whitespace | endOfLine | equalSign | alpha | numeric | comment
  deriving DecidableEq, Repr

/-- The second enumeration, src/InputNg.h:162-168. -/
inductive State | inLabel | inValueOrLabel | inValueText | inValueNumeric | inComment
  deriving DecidableEq, Repr

/-- `findTypeOf`, src/InputNg.h:472-489. -/
def findTypeOf (c : Char) : CharType :=
  if c = '\n' then .endOfLine
  else if c = ' ' ∨ c = '\t' then .whitespace
  else if c = '=' then .equalSign
  else if 48 ≤ c.toNat ∧ c.toNat ≤ 58 then .numeric
  else if c = '.' ∨ c = '+' ∨ c = '-' then .numeric
  else if c = '(' ∨ c = ')' ∨ c = ',' then .numeric
  else if c = '#' then .comment
  else .alpha

/-- The members that `parseInternal` changes, and its local `buffer`.  `line_` is used in messages only. -/
structure Parser where
  state : State
  numeric : List Str
  lastLabel : Str
  mapStr : SMap Str
  mapVec : SMap (List Str)
  removal : List Str
  buffer : Str

/-- The state before the first character. -/
def Parser.init : Parser := ⟨.inLabel, [], [], [], [], [], []⟩

/-- `findLastOccurrence`, src/InputNg.h:538-549: one less than the number of keys with this root. -/
def findLastOccurrence {V : Type} (root1 : Str) (m : SMap V) : Int :=
  (m.countP fun e => root1 = findRootLabel e.1 : Int) - 1

/-- `adjLabelForDuplicates`, src/InputNg.h:522-536: the label and the new `labelsForRemoval_`. -/
def adjLabel {V : Type} (label : Str) (m : SMap V) (removal : List Str) : Str × List Str :=
  let root := findRootLabel label
  let x := findLastOccurrence root m
  if x < 0 then (label, removal)
  else (root ++ ('@' :: ttos (x + 1).toNat), removal ++ [root])

/-- `saveBuffer`, src/InputNg.h:429-470. -/
def saveBuffer (chk : Check) (p : Parser) (what : CharType) : Out Parser :=
  match p.state with
  | .inLabel =>
    if chk.checkSimpleLabel p.buffer then
      .ok { p with lastLabel := p.buffer, state := if what = .equalSign then .inValueText else .inValueNumeric }
    else throwOut
  | .inValueText => do
    let (lab, rem) := adjLabel p.lastLabel p.mapStr p.removal
    let m ← mapSet lab p.buffer p.mapStr
    if chk.checkText lab p.buffer then .ok { p with mapStr := m, removal := rem, state := .inLabel }
    else throwOut
  | .inValueNumeric => .ok { p with numeric := p.numeric ++ [p.buffer], state := .inValueOrLabel }
  | _ => .ok p

/-- `checkNumbers`, src/InputNg.h:491-520. -/
def checkNumbers (chk : Check) (p : Parser) : Out Parser :=
  match p.numeric with
  | [] => throwOut
  | [_] => throwOut
  | n :: ns => do
    let expected ← ofNested (atoi n)
    let special ← ofThrow (chk.checkVec p.lastLabel (n :: ns))
    if !special ∧ (n :: ns).length ≠ (expected % 2 ^ 64).toNat + 1 then throwOut
    else do
      let (lab, rem) := adjLabel p.lastLabel p.mapVec p.removal
      let m ← mapSet lab (n :: ns) p.mapVec
      .ok { p with mapVec := m, removal := rem }

/-- One round of the loop of `parseInternal`, src/InputNg.h:371-424. -/
def parseChar (chk : Check) (p : Parser) (c : Char) : Out Parser :=
  let type := findTypeOf c
  if p.state = .inComment ∧ type ≠ .endOfLine then .ok p
  else
    match type with
    | .endOfLine =>
      if p.state = .inComment then .ok { p with state := .inLabel }
      else if p.buffer = [] then .ok p
      else do
        let p ← saveBuffer chk p .endOfLine
        .ok { p with buffer := [] }
    | .whitespace =>
      if p.buffer = [] then .ok p
      else do
        let p ← saveBuffer chk p .whitespace
        .ok { p with buffer := [] }
    | .equalSign =>
      if p.buffer = [] then .ok p
      else if p.state = .inValueText then .ok { p with buffer := p.buffer ++ [c] }
      else do
        let p ← saveBuffer chk p .equalSign
        .ok { p with buffer := [] }
    | .comment => .ok { p with state := .inComment }
    | _ => do
      let p ← (if p.state = .inValueOrLabel then
          (if type = .alpha then do
            let p ← checkNumbers chk p
            .ok { p with numeric := [], state := .inLabel }
          else .ok { p with state := .inValueNumeric })
        else .ok p)
      .ok { p with buffer := p.buffer ++ [c] }

/-- What a `Readable` holds, src/InputNg.h:1101-1109. -/
structure Readable where
  mapStr : SMap Str
  mapVec : SMap (List Str)
  removal : List Str

/-- `parseInternal`, src/InputNg.h:368-427. -/
def parseInternal (chk : Check) (data : Str) : Out Parser := do
  let p ← data.foldlM (parseChar chk) .init
  if p.numeric.length > 0 then checkNumbers chk p else return p

/-- Constructors of `Writeable` from a string, src/InputNg.h:180-192, 252-276, and of `Readable`, lines 598-620. -/
def load (chk : Check) (data : Str) : Out Readable := do
  let data ← changeData data
  let p ← parseInternal chk data
  return ⟨p.mapStr, p.mapVec, p.removal⟩

/-- The same from a file with the given contents, src/InputNg.h:188-200, 245-250. -/
def loadFile (chk : Check) (contents : Str) : Out Readable := load chk (readFile contents)

/-! ## Readable -/

/-- `label2label`, src/InputNg.h:959-970. -/
def label2label (label : Str) : Out Str :=
  if label = [] then throwOut
  else if label.getLast? = some '=' then .ok label.dropLast
  else .ok label

/-- `findFirstValueForLabel`, src/InputNg.h:972-985: the entries before, and the entry. -/
def findFirst {V : Type} (label : Str) : SMap V → Option (SMap V × (Str × V) × SMap V)
  | [] => none
  | e :: m =>
    if label = findRootLabel e.1 then some ([], e, m)
    else (findFirst label m).map fun r => (e :: r.1, r.2)

/-- `cleanLabelsIfNeeded`, src/InputNg.h:944-957: the map without the entry and the new `labelsForRemoval_`.  With
`forceRemoval` and a label not in `labelsForRemoval_`, the code erases the end of that vector, which is undefined. -/
def clean {V : Type} (label : Str) (m : SMap V) (without : SMap V) (removal : List Str) (force : Bool) :
    Out (SMap V × List Str) :=
  if label ∈ removal then .ok (without, removal.erase label)
  else if force then ubOut
  else .ok (m, removal)

/-- `readline` of a string, src/InputNg.h:652-674. -/
def readline (r : Readable) (label : Str) (doClean : Bool := true) (force : Bool := false) :
    Out (Str × Readable) := do
  let label2 ← label2label label
  match findFirst label2 r.mapStr with
  | none => throwOut
  | some (before, e, after) =>
    if doClean then do
      let (m, rem) ← clean label2 r.mapStr (before ++ after) r.removal force
      return (e.2, { r with mapStr := m, removal := rem })
    else return (e.2, r)

/-- `read` of a vector, src/InputNg.h:792-814, with its elements as strings. -/
def readVector (r : Readable) (label : Str) : Out (List Str × Readable) := do
  let label2 ← label2label label
  match findFirst label2 r.mapVec with
  | none => throwOut
  | some (before, e, after) => do
    let (m, rem) ← clean label2 r.mapVec (before ++ after) r.removal false
    return (e.2.drop 1, { r with mapVec := m, removal := rem })

end Verif.InputNg
