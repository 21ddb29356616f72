import Verif.Util.Out
import Verif.Dense.Model
import Mathlib.Algebra.Group.Basic

/-!
# `symbolicPrint` (src/Matrix.h:695-747)

Elements are of any additive group; `small x` is `PsimagLite::norm(x) < 1e-6`, and `pr` is `os <<`.
-/

namespace Verif.TextIo

open Verif

abbrev SymText := List Char

/-- The letter of the value number `k`: `char chark = k + 65`. -/
def symLetter (k : Nat) : Char := Char.ofNat (k + 65)

/-- The limit `maxCharacters`, src/Matrix.h:702. -/
def maxCharacters : Nat := 25

/-- The body of the two loops, src/Matrix.h:706-738: what is written for `val`, and the values after it. -/
def symCell {α : Type} [AddGroup α] (small : α → Bool) (values : List α) (val : α) : Out (SymText × List α) :=
  if small val then .ok (" 0 ".toList, values)
  else
    let k := values.findIdx fun v => small (v - val)
    let k2 := values.findIdx fun v => small (v + val)
    if k = values.length then
      if k2 = values.length then
        let values := values ++ [val]
        if values.length > maxCharacters then throwOut else .ok ([' ', symLetter k, ' '], values)
      else .ok (['-', symLetter k2, ' '], values)
    else .ok ([' ', symLetter k, ' '], values)

/-- The element `(i, j)`, src/Matrix.h:706-738; the state is the text and the values. -/
def symPut {α : Type} [AddGroup α] (small : α → Bool) (m : Dense.Mat α) (i : Nat) (s : SymText × List α) (j : Nat) :
    Out (SymText × List α) :=
  match m.get i j with
  | none => ubOut
  | some val => do
    let r ← symCell small s.2 val
    return (s.1 ++ r.1, r.2)

/-- One row, src/Matrix.h:705-740; the state is the text and the values. -/
def symRow {α : Type} [AddGroup α] (small : α → Bool) (m : Dense.Mat α) (s : SymText × List α) (i : Nat) :
    Out (SymText × List α) := do
  let s ← (List.range m.ncol).foldlM (symPut small m i) s
  return (s.1 ++ ['\n'], s.2)

/-- The values after the line, src/Matrix.h:742-746. -/
def symLegend {α : Type} (pr : α → SymText) (values : List α) : SymText :=
  (List.range values.length).flatMap fun i =>
    match values[i]? with
    | none => []
    | some v => symLetter i :: '=' :: pr v ++ [' ']

/-- `symbolicPrint(os, A)`, src/Matrix.h:695-747: the text written. -/
def symbolicPrint {α : Type} [AddGroup α] (small : α → Bool) (pr : α → SymText) (m : Dense.Mat α) : Out SymText := do
  let s ← (List.range m.nrow).foldlM (symRow small m)
    (Nat.toDigits 10 m.nrow ++ ' ' :: Nat.toDigits 10 m.ncol ++ ['\n'], [])
  return s.1 ++ "---------------------------\n".toList ++ symLegend pr s.2 ++ ['\n']

end Verif.TextIo
