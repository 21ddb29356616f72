import Verif.Crs.Model

/-! # Model of SampleCRSMatrix, src/SampleCRSMatrix.h -/

namespace Verif.Crs

open Verif.Loop

variable {α : Type}

/-- Data of a `SampleCRSMatrix`, src/SampleCRSMatrix.h:223-226. -/
structure Sample (α : Type) where
  rank : Nat
  rowptr : List Nat
  colind : List Nat
  values : List α
  deriving DecidableEq

/-- The same three arrays as a CRS matrix. -/
def Sample.crs (m : Sample α) : Crs α := ⟨m.rowptr, m.colind, m.values, m.rank, m.rank⟩

/-- `matrixVectorProduct`, src/SampleCRSMatrix.h:135-141: the sizes are not compared; out of range is `none`. -/
def Sample.matrixVectorProduct [Add α] [Mul α] (m : Sample α) (x y : List α) : Option (List α) :=
  loopN y.length (fun i x => rowLoop m.crs i (fun j v x => do
    let b ← y[j]?
    updAt x i (· + v * b)) x) x

/-- `saveVector`, src/SampleCRSMatrix.h:174-183; blanks and line ends separate the tokens. -/
def saveVector {β : Type} (tok : β → Tok α) (v : List β) : List (Tok α) := Tok.num v.length :: v.map tok

/-- `save`, src/SampleCRSMatrix.h:145-152. -/
def Sample.save (m : Sample α) : List (Tok α) :=
  Tok.num m.rank :: (saveVector Tok.num m.rowptr ++ saveVector Tok.num m.colind ++ saveVector Tok.val m.values)

/-- `readVector`, src/SampleCRSMatrix.h:185-197: the size is read into an `int`, which fails from 2³¹ on. -/
def readSize (toks : List (Tok α)) : Option (Nat × List (Tok α)) := do
  let (n, toks) ← readNum toks
  if n < 2147483648 then some (n, toks) else none

/-- The constructor from a stream, src/SampleCRSMatrix.h:120-127. -/
def Sample.read (toks : List (Tok α)) : Option (Sample α × List (Tok α)) := do
  let (rank, toks) ← readNum toks
  let (n, toks) ← readSize toks
  let (rowptr, toks) ← readNums n toks
  let (n, toks) ← readSize toks
  let (colind, toks) ← readNums n toks
  let (n, toks) ← readSize toks
  let (values, toks) ← readVals n toks
  some (⟨rank, rowptr, colind, values⟩, toks)

/-- `fillMatrix`, src/SampleCRSMatrix.h:200-221, on the arrays of a matrix without elements; `rows` and `iperm` are the result of
`Sort` (see C22). -/
def Sample.fillMatrix (rank : Nat) (rows iperm cols : List Nat) (vals : List α) : Option (Sample α) := do
  let r0 ← rows[0]?
  let s ← loopN rows.length (fun i (s : Sample α × Nat × Nat) => do
    let row ← rows[i]?
    let (m, counter, prev) := s
    let (m, counter, prev) ←
      if prev ≠ row then (setAt m.rowptr row counter).map fun r => ({ m with rowptr := r }, counter + 1, row)
      else some (m, counter, prev)
    let p ← iperm[i]?
    let c ← cols[p]?
    let v ← vals[p]?
    some ({ m with colind := m.colind ++ [c], values := m.values ++ [v] }, counter, prev))
    (⟨rank, List.replicate (rank + 1) 0, [], []⟩, 0, r0 + 1)
  let last ← rows[rows.length - 1]?
  loopFrom (last + 1) (rank + 1) (fun i m => (setAt m.rowptr i s.2.1).map fun r => { m with rowptr := r }) s.1

end Verif.Crs
