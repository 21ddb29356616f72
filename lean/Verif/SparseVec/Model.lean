import Verif.SortM.Model
import Verif.Util.Loop
import Verif.Crs.Model

/-!
# Model of `src/SparseVector.h`, `src/SparseRow.h` and `src/SparseRowCached.h`

Elements are of an abstract type; `nrm` stands for `PsimagLite::norm` and `eps` for the
literal threshold next to it.  Out-of-range accesses and failed assertions are `none`.
-/

namespace Verif.SparseVec

open Verif.Loop Verif.SortM

variable {α : Type}

/-- The members of `SparseVector`, src/SparseVector.h:348-349. -/
structure SVec (α : Type) where
  values : List α
  indices : List Nat
  size : Nat
  isSorted : Bool
  deriving DecidableEq

/-- Constructor from a dense vector, src/SparseVector.h:98-109. -/
def ofVec [Zero α] [DecidableEq α] (v : List α) : SVec α :=
  let r := v.zipIdx.foldl (fun (s : List α × List Nat) p =>
    if p.1 ≠ 0 then (s.1 ++ [p.1], s.2 ++ [p.2]) else s) ([], [])
  ⟨r.1, r.2, v.length, false⟩

/-- Constructor of a given size, src/SparseVector.h:122-126. -/
def ofSize (n : Nat) : SVec α := ⟨[], [], n, false⟩

/-- `resize`, src/SparseVector.h:128-133 (keeps the flag). -/
def resize (s : SVec α) (x : Nat) : SVec α := ⟨[], [], x, s.isSorted⟩

/-- `fromChunk`, src/SparseVector.h:111-120. -/
def fromChunk (s : SVec α) (v : List α) (offset total : Nat) : SVec α :=
  v.zipIdx.foldl (fun (s : SVec α) p =>
    ⟨s.values ++ [p.1], s.indices ++ [p.2 + offset], s.size, s.isSorted⟩) (resize s total)

/-- `add`, src/SparseVector.h:136-142.  The index is an `int` in the code; only non-negative
ones are modelled. -/
def add (s : SVec α) (index : Nat) (value : α) : SVec α :=
  ⟨s.values ++ [value], s.indices ++ [index], s.size, false⟩

/-- `clear`, src/SparseVector.h:328-333. -/
def clear (s : SVec α) : SVec α := ⟨[], [], s.size, false⟩

/-- `operator*=(val)`, src/SparseVector.h:221-226, and `val * sv`, lines 362-369. -/
def mulAssign [Mul α] (s : SVec α) (x : α) : SVec α := { s with values := s.values.map (· * x) }

/-- `operator-=`, src/SparseVector.h:228-236.  `v.indices_[i]` is read for `i` below the number
of values. -/
def subAssign [Neg α] (s v : SVec α) : Option (SVec α) :=
  (loopN v.values.length (fun i (r : List α × List Nat) => do
    let x ← v.values[i]?
    let k ← v.indices[i]?
    some (r.1 ++ [-x], r.2 ++ [k])) (s.values, s.indices)).map fun r => ⟨r.1, r.2, s.size, false⟩

/-- The inner loop over `j` of `scalarProduct`, src/SparseVector.h:262-270: `rest` is what is
left of `v` from position `j` on.  Returns the position where the loop stops and the sum. -/
def spInner [Add α] [Mul α] [Star α] (index : Nat) (a : α) : List (Nat × α) → Nat → α → Nat × α
  | [], j, sum => (j, sum)
  | p :: ps, j, sum =>
    if p.1 < index then spInner index a ps (j + 1) sum
    else if p.1 > index then (j, sum)
    else spInner index a ps (j + 1) (sum + a * star p.2)

/-- `scalarProduct`, src/SparseVector.h:253-275, with its two assertions. -/
def scalarProduct [Zero α] [Add α] [Mul α] [Star α] (s v : SVec α) : Option α :=
  if (s.indices.length = 1 ∨ s.isSorted = true) ∧ (v.indices.length = 1 ∨ v.isSorted = true) then
    (loopN s.indices.length (fun i (st : Nat × α) => do
      let index ← s.indices[i]?
      let a ← s.values[i]?
      let r := spInner index a ((v.indices.zip v.values).drop st.1) st.1 st.2
      some (if r.1 > 0 then r.1 - 1 else r.1, r.2)) (0, 0)).map fun st => st.2
  else none

/-- The merging loop of `sort`, src/SparseVector.h:301-323, on the sorted indices and the
values rearranged to match. -/
def sortMerge [Add α] {R : Type} [LT R] [DecidableLT R] (nrm : α → R) (eps : R) (indices : List Nat)
    (values : List α) : Option (List α × List Nat) := do
  let v0 ← values[0]?
  let i0 ← indices[0]?
  let (outV, outI, sum, prev) ← loopFrom 1 indices.length
    (fun i (st : List α × List Nat × α × Nat) => do
      let (outV, outI, sum, prev) := st
      let c ← indices[i]?
      let v ← values[i]?
      if c ≠ prev then
        if nrm sum > eps then some (outV ++ [sum], outI ++ [prev], v, c)
        else some (outV, outI, v, c)
      else some (outV, outI, sum + v, prev)) ([], [], v0, i0)
  if nrm sum > eps then some (outV ++ [sum], outI ++ [prev]) else some (outV, outI)

/-- `sort`, src/SparseVector.h:290-326, as a relation because `std::sort` is not stable: any
result allowed by `Sort` may be used. -/
def SortTo [Add α] {R : Type} [LT R] [DecidableLT R] (nrm : α → R) (eps : R) (s s' : SVec α) : Prop :=
  if s.indices.length < 2 ∨ s.isSorted = true then s' = s
  else ∃ (indices iperm : List Nat) (values : List α) (r : List α × List Nat),
    SortRun s.indices (List.replicate s.indices.length 0) 0 indices iperm ∧
    iperm.mapM (fun p => s.values[p]?) = some values ∧
    sortMerge nrm eps indices values = some r ∧
    s' = ⟨r.1, r.2, s.size, true⟩

/-- `operator==`, src/SparseVector.h:238-250, with its assertions.  `small d` stands for
`isAlmostZero(d, 1e-8)`, a function the header uses but the library does not define. -/
def eq [Sub α] (small : α → Bool) (s v : SVec α) : Option Bool :=
  if s.isSorted = true ∧ v.isSorted = true then
    loopN v.values.length (fun i b => do
      if b = false then some false
      else
        let k ← s.indices[i]?
        let k' ← v.indices[i]?
        if k ≠ k' then some false
        else
          let x ← s.values[i]?
          let y ← v.values[i]?
          some (small (x - y))) true
  else none

/-- `norm` of a sparse vector before the square root, src/SparseVector.h:379-394. -/
def norm2 [Zero α] [Add α] [Mul α] [Star α] (s : SVec α) : Option α :=
  loopN s.indices.length (fun i sum => (s.values[i]?).map fun x => sum + star x * x) 0

/-- `isOne`, src/SparseVector.h:277-288, with `small x` for `isAlmostZero(x, 1e-4)`. -/
def isOne (small : α → Bool) (s : SVec α) : Option Bool :=
  (loopN s.indices.length (fun i (st : Nat × Bool) => do
    if st.2 = false then some st
    else
      let x ← s.values[i]?
      if small x then some st
      else some (st.1 + 1, decide (¬ st.1 + 1 > 1))) (0, true)).map fun st => st.2

/-- `toChunk(dest, i0, total)` without the test, src/SparseVector.h:163-174.  The subtraction
wraps in the code; an index below `i0` is out of range. -/
def toChunk [Zero α] (s : SVec α) (dest : List α) (i0 total : Nat) : Option (List α) :=
  loopN s.indices.length (fun i (d : List α) => do
    let k ← s.indices[i]?
    let x ← s.values[i]?
    if k < i0 then none else setAt d (k - i0) x) (resizeL dest total 0)

/-! ## SparseRow -/

/-- The members of `SparseRow`, src/SparseRow.h:158. -/
structure SRow (α : Type) where
  cols : List Nat
  values : List α
  deriving DecidableEq

/-- `SparseRow::add`, src/SparseRow.h:95-99. -/
def SRow.add (r : SRow α) (col : Nat) (v : α) : SRow α := ⟨r.cols ++ [col], r.values ++ [v]⟩

/-- `SparseRow::matrixVectorProduct`, src/SparseRow.h:101-107, and `finalize(y)`, lines
144-154, which returns the same number. -/
def SRow.mvp [Zero α] [Add α] [Mul α] (r : SRow α) (y : List α) : Option α :=
  loopN r.cols.length (fun i sum => do
    let v ← r.values[i]?
    let c ← r.cols[i]?
    let b ← y[c]?
    some (sum + v * b)) 0

/-- The loop of `SparseRow::finalize(matrix)` and `SparseRowCached::finalize`,
src/SparseRow.h:123-141 and src/SparseRowCached.h:145-163, on sorted columns, the unsorted
values and the permutation.  The state is (matrix, counter, value, prevCol); columns are
checked against the matrix if `check` (the assertion at src/SparseRow.h:127). -/
def finLoop [Zero α] [Add α] (check : Bool) (matrix : Crs.Crs α) (cols iperm : List Nat) (values : List α)
    (n : Nat) : Option (Crs.Crs α × Nat) := do
  let c0 ← cols[0]?
  let (m, counter, value, prev) ← loopN n
    (fun i (st : Crs.Crs α × Nat × α × Nat) => do
      let (m, counter, value, prev) := st
      let c ← cols[i]?
      if check = true ∧ ¬ c < m.ncol then none
      else
        let p ← iperm[i]?
        let v ← values[p]?
        if c = prev then some (m, counter, value + v, prev)
        else some (Crs.push m prev value, counter + 1, v, c)) (matrix, 0, 0, c0)
  some (Crs.push m prev value, counter + 1)

/-- `SparseRow::finalize(matrix)`, src/SparseRow.h:114-142, as a relation (see `SortTo`):
row and matrix before, row, matrix and returned count after.  The columns are sorted in
place, the values are not. -/
def SRow.FinalizeTo [Zero α] [Add α] (r : SRow α) (m : Crs.Crs α) (r' : SRow α) (m' : Crs.Crs α)
    (count : Nat) : Prop :=
  r.cols.length = r.values.length ∧
  if r.cols.length = 0 then r' = r ∧ m' = m ∧ count = 0
  else ∃ cols iperm, SortRun r.cols (List.replicate r.cols.length 0) 0 cols iperm ∧
    finLoop true m cols iperm r.values r.cols.length = some (m', count) ∧ r' = ⟨cols, r.values⟩

/-- The members of `SparseRowCached`, src/SparseRowCached.h:168-170. -/
structure CRow (α : Type) where
  cols : List Nat
  values : List α
  counter : Nat
  deriving DecidableEq

/-- Constructor, src/SparseRowCached.h:99-104. -/
def CRow.mk0 [Zero α] (cacheSize : Nat) : CRow α :=
  ⟨List.replicate cacheSize 0, List.replicate cacheSize 0, 0⟩

/-- `SparseRowCached::add`, src/SparseRowCached.h:106-120. -/
def CRow.add [Zero α] (r : CRow α) (col : Nat) (v : α) : Option (CRow α) := do
  let (cols, values) :=
    if r.counter ≥ r.cols.length then
      (resizeL r.cols (r.cols.length * 2) 0, resizeL r.values (r.cols.length * 2) 0)
    else (r.cols, r.values)
  let cols ← setAt cols r.counter col
  let values ← setAt values r.counter v
  some ⟨cols, values, r.counter + 1⟩

/-- `SparseRowCached::matrixVectorProduct`, src/SparseRowCached.h:122-129; it also empties the
row. -/
def CRow.mvp [Zero α] [Add α] [Mul α] (r : CRow α) (y : List α) : Option (α × CRow α) :=
  (loopN r.counter (fun i sum => do
    let v ← r.values[i]?
    let c ← r.cols[i]?
    let b ← y[c]?
    some (sum + v * b)) 0).map fun s => (s, ⟨r.cols, r.values, 0⟩)

/-- `SparseRowCached::finalize`, src/SparseRowCached.h:136-164. -/
def CRow.FinalizeTo [Zero α] [Add α] (r : CRow α) (m : Crs.Crs α) (r' : CRow α) (m' : Crs.Crs α)
    (count : Nat) : Prop :=
  if r.counter = 0 then r' = r ∧ m' = m ∧ count = 0
  else ∃ cols iperm, SortRun r.cols (List.replicate r.counter 0) r.counter cols iperm ∧
    finLoop false m cols iperm r.values r.counter = some (m', count) ∧ r' = ⟨cols, r.values, 0⟩

end Verif.SparseVec
