import Verif.Crs.Model
import Verif.Dense.Spec
import Mathlib.Data.Fintype.BigOperators

/-!
# What a CSR object stands for

`row m i` are the `(column, value)` pairs stored for row `i`; `entry m i j` is the matrix
element, the sum of the values stored for column `j` in row `i` (zero if there are none).
-/

namespace Verif.Crs

variable {α : Type}

/-- `rowptr[i]` -/
def ptr (m : Crs α) (i : Nat) : Nat := m.rowptr.getD i 0

/-- The `(column, value)` pairs stored at positions `rowptr[i] .. rowptr[i+1]-1`. -/
def row (m : Crs α) (i : Nat) : List (Nat × α) :=
  ((m.colind.zip m.values).drop (ptr m i)).take (ptr m (i + 1) - ptr m i)

/-- Sum of the values listed for column `j`. -/
def sumAt [AddCommMonoid α] (l : List (Nat × α)) (j : Nat) : α :=
  ((l.filter fun p => p.1 = j).map fun p => p.2).sum

/-- The matrix element `(i, j)`. -/
def entry [AddCommMonoid α] (m : Crs α) (i j : Nat) : α := sumAt (row m i) j

/-- Structural well-formedness of the three arrays. -/
structure Wf (m : Crs α) : Prop where
  rowptr_length : m.rowptr.length = m.nrow + 1
  start : ptr m 0 = 0
  finish : ptr m m.nrow = m.colind.length
  values_length : m.values.length = m.colind.length
  mono : ∀ i, i < m.nrow → ptr m i ≤ ptr m (i + 1)
  cols : ∀ c ∈ m.colind, c < m.ncol

/-- Well-formed, and no column is stored twice in a row. -/
structure Valid (m : Crs α) : Prop extends Wf m where
  nodup : ∀ i, i < m.nrow → ((row m i).map fun p => p.1).Nodup

/-- `m` is well formed and represents the `r × c` matrix `A`. -/
structure Represents [AddCommMonoid α] (m : Crs α) (r c : Nat) (A : Matrix (Fin r) (Fin c) α) :
    Prop where
  wf : Wf m
  nrow : m.nrow = r
  ncol : m.ncol = c
  entry : ∀ (i : Fin r) (j : Fin c), entry m i j = A i j

/-- A matrix extended by zeros (or cut off) to other dimensions. -/
def pad [Zero α] {r c : Nat} (A : Matrix (Fin r) (Fin c) α) (r' c' : Nat) :
    Matrix (Fin r') (Fin c') α :=
  fun i j => if h : i.1 < r ∧ j.1 < c then A ⟨i, h.1⟩ ⟨j, h.2⟩ else 0

end Verif.Crs
