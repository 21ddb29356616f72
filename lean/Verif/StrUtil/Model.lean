import Verif.Util.Str
import Verif.Util.Loop

/-! # Model of the string and integer helpers in `src/PsimagLite.cpp` -/

namespace Verif.StrUtil

open Verif.Str

/-- `integerDivision`, src/PsimagLite.cpp:5-12.  The outer `none` is undefined behaviour
(division by zero), the inner `none` is the exception. -/
def integerDivision (a b : Nat) : Option (Option Nat) :=
  if b = 0 then none
  else if a % b ≠ 0 then some none
  else some (some (a / b))

/-- The loop of `log2Integer`, src/PsimagLite.cpp:33-36; `none` when the budget runs out. -/
def log2Loop : Nat → Nat → Nat → Option Nat
  | 0, _, _ => none
  | fuel + 1, x, count => if x > 0 then log2Loop fuel (x >>> 1) (count + 1) else some count

/-- `log2Integer`, src/PsimagLite.cpp:30-39. -/
def log2Integer (x : Nat) : Option Nat := log2Loop (x + 1) x 0

/-- The loop of `split`, src/PsimagLite.cpp:48-55.  `none` is a budget that ran out or an
exception from `substr`.  `pos - lastPos` with `pos = npos` is larger than any string, so
`substr` takes the rest. -/
def splitLoop (str delims : List Char) : Nat → Option Nat → Option Nat → List (List Char) →
    Option (List (List Char))
  | 0, _, _, _ => none
  | fuel + 1, lastPos, pos, tokens =>
    if pos = none ∧ lastPos = none then some tokens
    else do
      let tok ← match lastPos, pos with
        | none, _ => none
        | some l, none => substrFrom str l
        | some l, some p => substr str l (p - l)
      let last := findFirstNotOf str delims pos
      splitLoop str delims fuel last (findFirstOf str delims last) (tokens ++ [tok])

/-- `split`, src/PsimagLite.cpp:41-56; appends to `tokens`. -/
def split (tokens : List (List Char)) (str delims : List Char) : Option (List (List Char)) :=
  let lastPos := findFirstNotOf str delims (some 0)
  splitLoop str delims (str.length + 1) lastPos (findFirstOf str delims lastPos) tokens

/-- `basename`, src/PsimagLite.cpp:58-64: the characters after the last `/`. -/
def basename (path : List Char) : List Char :=
  (path.reverse.takeWhile (fun c => !(c == '/'))).reverse

/-- The characters `std::atoi` converts once white space is excluded: an optional sign and
the digits that follow.  (C standard; white space cannot get here.)  A value out of the range
of `int` is undefined behaviour and is `none`. -/
def stdAtoi (s : List Char) : Option Int :=
  let digits (t : List Char) : Nat := Nat.ofDigitChars 10 (t.takeWhile isDigit) 0
  let v : Int := match s with
    | '-' :: t => - (digits t : Int)
    | '+' :: t => digits t
    | t => digits t
  if -2147483648 ≤ v ∧ v ≤ 2147483647 then some v else none

/-- `atoi`, src/PsimagLite.cpp:66-78.  The outer `none` is undefined behaviour, the inner one
the exception. -/
def atoi (str : List Char) : Option (Option Int) :=
  if str.all (fun c => isDigit c || c == '-' || c == '+') then (stdAtoi str).map some
  else some none

/-- `isAnInteger`, src/PsimagLite.cpp:80-90. -/
def isAnInteger (str : List Char) : Bool :=
  if str.all isDigit then decide (str.length > 0) else false

/-- `isAfloat`, src/PsimagLite.cpp:92-108: the loop carries `hasDigit` and returns early. -/
def isAfloatLoop : List Char → Bool → Bool
  | [], hasDigit => hasDigit
  | c :: s, hasDigit =>
    if isDigit c then isAfloatLoop s true
    else if c == '-' || c == '+' || c == 'e' || c == 'E' || c == '.' then isAfloatLoop s hasDigit
    else false

/-- `isAfloat`, src/PsimagLite.cpp:92-108. -/
def isAfloat (str : List Char) : Bool := isAfloatLoop str false

/-- The loop of `replaceAll`, src/PsimagLite.cpp:126-130. -/
def replaceLoop (pat new : List Char) : Nat → List Char → Nat → Option (List Char)
  | 0, _, _ => none
  | fuel + 1, str, start =>
    match find str pat start with
    | none => some str
    | some p => do
      let str ← replace str p pat.length new
      replaceLoop pat new fuel str (p + new.length)

/-- `replaceAll`, src/PsimagLite.cpp:119-131. -/
def replaceAll (str pat new : List Char) : Option (List Char) :=
  if pat = [] then some str else replaceLoop pat new (str.length + 1) str 0

end Verif.StrUtil
