import Verif.Util.Loop

/-! # Model of `src/SumDecomposition.h` and `src/PackIndices.h` -/

namespace Verif.SumDec

open Verif.Loop

/-- `SelEnum`, src/SumDecomposition.h:18-20. -/
inductive Sel where
  | all
  | size
  | index
  deriving DecidableEq

/-- The mutable state: the working vector passed by reference, `size_` and `data_`. -/
structure St where
  data : List Nat
  size : Nat
  stored : List (List Nat)
  deriving DecidableEq

/-- `reentrant1_`, src/SumDecomposition.h:46-64.  `fuel` bounds the recursion depth (`none` when
exhausted; the constructor passes enough).  `selection_` is an `int`; only non-negative values
are modelled, and `size_` is not allowed to overflow. -/
def reentrant (sum : Nat) (sel : Sel) (selection : Nat) : Nat → St → Nat → Nat → Option St
  | fuel, st, n, x =>
    if x ≥ st.data.length then
      if st.data.foldl (· + ·) 0 ≠ sum then some st
      else
        let b1 := decide (sel = .all)
        let b2 := decide (sel = .index ∧ selection = st.size)
        some ⟨st.data, st.size + 1, if b1 || b2 then st.stored ++ [st.data] else st.stored⟩
    else
      match fuel with
      | 0 => none
      | fuel + 1 => loopN (n + 1) (fun i st => do
          let data ← setAt st.data x i
          reentrant sum sel selection fuel ⟨data, st.size, st.stored⟩ (n - i) (x + 1)) st

/-- The constructor, src/SumDecomposition.h:22-30. -/
def ctor (total sum : Nat) (sel : Sel) (selection : Nat) : Option St :=
  reentrant sum sel selection total ⟨List.replicate total 0, 0, []⟩ sum 0

/-- `operator()(i)`, src/SumDecomposition.h:36-42; `none` is the exception. -/
def at_ (st : St) (i : Nat) : Option (List Nat) := st.stored[i]?

/-! ## PackIndices.  `SizeType` has `w` bits. -/

/-- `PackIndices::unpack`, src/PackIndices.h:95-103, for values that fit in a `long` (so that
`std::ldiv` sees the same numbers).  Dividing by zero is `none`. -/
def unpack (n ind : Nat) : Option (Nat × Nat) :=
  if n = 0 then none else some (ind % n, ind / n)

/-- `PackIndices::pack`, src/PackIndices.h:105-109, with its assertion; the index is computed
in `SizeType`, so modulo `2^w`. -/
def pack (w n x0 x1 : Nat) (permInverse : List Nat) : Option Nat :=
  permInverse[(x0 + n * x1 % 2 ^ w) % 2 ^ w]?

end Verif.SumDec
