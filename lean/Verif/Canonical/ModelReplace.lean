import Verif.Util.Str

/-!
# Model of the replacements in expressions, src/CanonicalExpression.h
-/

namespace Verif.Canonical

open Verif.Str

/-- `replaceOne(str, label, value)`, src/CanonicalExpression.h:111-126; `text` is `ttos(value)`. -/
def replaceOne (label text str : List Char) : Option (Bool × List Char) :=
  match find str label 0 with
  | none => some (false, str)
  | some x => do
    let head ← if x = 0 then some [] else substr str 0 x
    let tail ← substr str (x + label.length) (str.length - x - label.length)
    some (true, head ++ text ++ tail)

/-- The loop of `replaceAll`, src/CanonicalExpression.h:100-106, with a budget: `none` if it is not over by then. -/
def replaceTurns (label text : List Char) : Nat → Bool → List Char → Option (Bool × List Char)
  | 0, _, _ => none
  | fuel + 1, retFlag, str => do
    let r ← replaceOne label text str
    if r.1 then replaceTurns label text fuel (retFlag || r.1) r.2 else some (retFlag || r.1, r.2)

/-- `replaceAll(str, label, value)`, src/CanonicalExpression.h:97-109. -/
def replaceEvery (label text : List Char) (fuel : Nat) (str : List Char) : Option (Bool × List Char) :=
  replaceTurns label text fuel false str

end Verif.Canonical
