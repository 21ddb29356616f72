import Verif.IoSimple.Model
import Verif.Dense.Model

/-!
# Model of the text of vectors, pairs and matrices

Streams are as in `Verif.IoSimple`.  The texts of numbers are the integers' ones, or parameters `pr` (`<<`) and `rd` (`>>`),
which is given the old value of the variable, kept if nothing can be extracted.
-/

namespace Verif.TextIo

open Verif.Loop Verif.IoSimple

/-- `is >> x` for a `SizeType` (`std::num_get`, trusted): a minus sign wraps around. -/
def readU64 (st : Stream) (old : Nat) : Out (Stream × Nat) :=
  if st.good then
    match st.rest.dropWhile isWs with
    | [] => .ok (⟨[], true, true⟩, old)
    | c :: r =>
      let body := if c = '-' ∨ c = '+' then r else c :: r
      let ds := body.takeWhile Str.isDigit
      let r' := body.dropWhile Str.isDigit
      let v := Nat.ofDigitChars 10 ds 0
      if ds = [] then .ok (⟨r', r'.isEmpty, true⟩, 0)
      else if v ≥ 2 ^ 64 then .ok (⟨r', r'.isEmpty, true⟩, 2 ^ 64 - 1)
      else .ok (⟨r', r'.isEmpty, false⟩, if c = '-' then (2 ^ 64 - v) % 2 ^ 64 else v)
  else .ok (⟨st.rest, st.eof, true⟩, old)

/-- `is >> x` for an `int`. -/
def readI32 (st : Stream) (old : Int) : Out (Stream × Int) :=
  let r := readInt st
  .ok (r.1, r.2.getD old)

/-- `os << x` for an `int`. -/
def intText (i : Int) : Str := if i < 0 then '-' :: Nat.toDigits 10 i.natAbs else Nat.toDigits 10 i.natAbs

/-- `operator<<` of a pair, src/PsimagLite.cpp:14-19. -/
def pairText (p : Nat × Nat) : Str := Nat.toDigits 10 p.1 ++ ' ' :: Nat.toDigits 10 p.2 ++ [' ']

/-- `operator>>` of a pair, src/PsimagLite.cpp:21-26. -/
def readPair (st : Stream) (old : Nat × Nat) : Out (Stream × (Nat × Nat)) := do
  let a ← readU64 st old.1
  let b ← readU64 a.1 old.2
  return (b.1, (a.2, b.2))

/-- `operator<<` of a vector of pairs, src/Vector.h:445-452. -/
def pairsText {α β : Type} (pr : α → Str) (pr2 : β → Str) (v : List (α × β)) : Str :=
  Nat.toDigits 10 v.length ++ '\n' :: v.flatMap fun x => pr x.1 ++ ' ' :: pr2 x.2 ++ ['\n']

/-- The loop of `operator>>` of a vector, src/Vector.h:463-465, over the elements it has after `resize`. -/
def readInto {α : Type} (rd : Stream → α → Out (Stream × α)) : Stream → List α → Out (Stream × List α)
  | st, [] => .ok (st, [])
  | st, a :: as => do
    let r ← rd st a
    let rs ← readInto rd r.1 as
    return (rs.1, r.2 :: rs.2)

/-- `operator>>` of a vector, src/Vector.h:455-467; `dflt` is a value-initialized element. -/
def readVec {α : Type} (dflt : α) (rd : Stream → α → Out (Stream × α)) (st : Stream) (v : List α) : Out (Stream × List α) :=
  let r := readInt st
  let xsize := r.2.getD 0
  if xsize < 0 then throwOut else readInto rd r.1 (resizeL v xsize.toNat dflt)

/-- One row of `operator<<` of a matrix, src/Matrix.h:669-671. -/
def rowText {α : Type} (pr : α → Str) (m : Dense.Mat α) (i : Nat) (os : Str) : Option Str := do
  let os ← loopN m.ncol (fun j os => do
    let a ← m.get i j
    return os ++ pr a ++ [' ']) os
  return os ++ ['\n']

/-- `operator<<` of a matrix, src/Matrix.h:663-674. -/
def matText {α : Type} (pr : α → Str) (m : Dense.Mat α) : Option Str :=
  loopN m.nrow (rowText pr m) (Nat.toDigits 10 m.nrow ++ ' ' :: Nat.toDigits 10 m.ncol ++ ['\n'])

/-- `is >> A(j, i)`, src/Matrix.h:789. -/
def readEntry {α : Type} (rd : Stream → α → Out (Stream × α)) (j : Nat) (s : Stream × Dense.Mat α) (i : Nat) :
    Out (Stream × Dense.Mat α) :=
  match s.2.get j i with
  | none => ubOut
  | some old =>
    match rd s.1 old with
    | .error e => .error e
    | .ok (st, a) =>
      match s.2.set j i a with
      | none => ubOut
      | some m => .ok (st, m)

/-- `operator>>` of a matrix, src/Matrix.h:778-798.  The size of the array is the product modulo 2⁶⁴, and a size above
`limit` (`std::vector`'s `max_size`, or the memory) is refused with an exception of the standard library. -/
def readMat {α : Type} [Zero α] (limit : Nat) (rd : Stream → α → Out (Stream × α)) (st : Stream) (m : Dense.Mat α) :
    Out (Stream × Dense.Mat α) := do
  let r ← readU64 st 0
  let c ← readU64 r.1 0
  if c.1.fail then throwOut
  else if m.nrow > 0 ∧ m.nrow ≠ r.2 then throwOut
  else if r.2 * c.2 % 2 ^ 64 > limit then throwOut
  else
    (List.range r.2).foldlM (fun s j => (List.range c.2).foldlM (readEntry rd j) s)
      (c.1, (⟨r.2, c.2, resizeL m.data (r.2 * c.2 % 2 ^ 64) 0⟩ : Dense.Mat α))

/-- Second part of `printNonZero`, src/Matrix.h:769-775. -/
def diagText {α : Type} [Zero α] [DecidableEq α] (pr : α → Str) (m : Dense.Mat α) (os : Str) : Option Str :=
  loopN m.nrow (fun i os => do
    let a ← m.get i i
    if a ≠ 0 then some (os ++ pr a ++ [' ']) else some os) os

/-- One row of `printNonZero`, src/Matrix.h:757-766. -/
def nonZeroRow {α : Type} [Zero α] [DecidableEq α] (pr : α → Str) (m : Dense.Mat α) (i : Nat) (os : Str) : Option Str := do
  let r ← loopN m.ncol (fun j (s : Str × Nat) => do
    let a ← m.get i j
    if a ≠ 0 then some (s.1 ++ pr a ++ [' '], s.2 + 1) else some s) (os, 0)
  if r.2 > 0 then some (r.1 ++ ['\n']) else some r.1

/-- `printNonZero`, src/Matrix.h:752-776; `none`: an element out of range is read. -/
def printNonZero {α : Type} [Zero α] [DecidableEq α] (pr : α → Str) (m : Dense.Mat α) : Option Str := do
  let os ← loopN m.nrow (nonZeroRow pr m)
    ("#size=".toList ++ Nat.toDigits 10 m.nrow ++ 'x' :: Nat.toDigits 10 m.ncol ++ ['\n'])
  let os ← diagText pr m (os ++ "#diagonal non-zero\n".toList)
  return os ++ ['\n']

/-- One row of `mathematicaPrint`, src/Matrix.h:681-689. -/
def mathRow {α : Type} (pr : α → Str) (m : Dense.Mat α) (i : Nat) (os : Str) : Option Str := do
  let os ← loopN m.ncol (fun j os => do
    let a ← m.get i j
    if j + 1 < m.ncol then some (os ++ pr a ++ [',']) else some (os ++ pr a)) (os ++ ['{'])
  let os := os ++ ['}']
  if i + 1 < m.nrow then some (os ++ ",\n".toList) else some os

/-- `mathematicaPrint`, src/Matrix.h:676-692. -/
def mathematicaPrint {α : Type} (pr : α → Str) (m : Dense.Mat α) : Option Str := do
  let os ← loopN m.nrow (mathRow pr m) "m:={".toList
  return os ++ "}\n".toList

end Verif.TextIo
