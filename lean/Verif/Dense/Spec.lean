import Verif.Dense.Model
import Mathlib.LinearAlgebra.Matrix.ConjTranspose

/-! # What a `Matrix` object stands for: a mathematical matrix of Mathlib -/

namespace Verif.Dense

/-- The object `m` represents the `r × c` matrix `A`: right dimensions, right amount of
storage, and `m(i,j)` is the `(i,j)` entry of `A`. -/
structure Represents {α : Type} (m : Mat α) (r c : Nat) (A : Matrix (Fin r) (Fin c) α) : Prop where
  nrow : m.nrow = r
  ncol : m.ncol = c
  size : m.data.length = r * c
  entry : ∀ (i : Fin r) (j : Fin c), m.get i j = some (A i j)

end Verif.Dense
