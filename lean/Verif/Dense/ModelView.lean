import Verif.Dense.Model

/-!
# `MatrixNonOwned` (src/MatrixNonOwned.h)

A matrix that is a window of somebody else's vector.  The vector is an argument of each operation and a write gives
the new vector.  `SizeType` has 64 bits: sums and products are modulo `2^64`.
-/

namespace Verif.Dense

open Verif.Loop

variable {α : Type}

/-- The members `nrow_`, `ncol_` and `offset_`, src/MatrixNonOwned.h:91-93; `data_` points to the vector given to
the operations below. -/
structure View where
  nrow : Nat
  ncol : Nat
  offset : Nat
  deriving DecidableEq

/-- Two to the number of bits of `SizeType`. -/
def word : Nat := 18446744073709551616

/-- `check`, src/MatrixNonOwned.h:81-85: the index of the last element, with the wrap of `nrow_ - 1` and
`ncol_ - 1`, is compared to the size. -/
def View.last (v : View) : Nat :=
  (v.offset + v.nrow + (word - 1) + (v.ncol + (word - 1)) * v.nrow) % word

/-- `MatrixNonOwned(nrow, ncol, data, offset)`, src/MatrixNonOwned.h:22-29; `none` is the failed assertion. -/
def View.make (nrow ncol : Nat) (data : List α) (offset : Nat) : Option View :=
  let v : View := ⟨nrow, ncol, offset⟩
  if v.last < data.length then some v else none

/-- `MatrixNonOwned(m)`, src/MatrixNonOwned.h:31-49. -/
def View.ofMat (m : Mat α) : Option View := View.make m.nrow m.ncol m.data 0

/-- The index in the vector, src/MatrixNonOwned.h:55-56 and 63-64. -/
def View.index (v : View) (i j : Nat) : Nat := (v.offset + i + j * v.nrow) % word

/-- `operator()(i, j)` for reading, src/MatrixNonOwned.h:51-57. -/
def View.get (v : View) (data : List α) (i j : Nat) : Option α :=
  if i < v.nrow ∧ j < v.ncol then data[v.index i j]? else none

/-- `operator()(i, j) = a`, src/MatrixNonOwned.h:59-65. -/
def View.set (v : View) (data : List α) (i j : Nat) (a : α) : Option (List α) :=
  if i < v.nrow ∧ j < v.ncol then setAt data (v.index i j) a else none

end Verif.Dense
