import Mathlib.Order.Defs.LinearOrder
import Mathlib.Data.Nat.Basic

/-!
# Model of `src/Sort.h`

`std::sort` is represented by its contract: the result is *some* rearrangement of the
input that is sorted for the comparison.  It is not assumed stable, so everything proved
about users of `Sort` holds for every result `std::sort` may produce.
-/

namespace Verif.SortM

variable {α : Type _} [LinearOrder α]

/-- Contract of `std::sort(p.begin(), p.end(), Compare(p))` with `Compare` comparing the
`first` members only, src/Sort.h:18-33 and 52. -/
def StdSort (p q : List (α × Nat)) : Prop :=
  q.Perm p ∧ q.Pairwise (fun a b => ¬ b.1 < a.1)

/-- The vector of pairs `p[i] = (x[i], i)` for `i < n`, src/Sort.h:46-51. -/
def pairsOf (x : List α) (n : Nat) : List (α × Nat) := (x.take n).zipIdx

/-- `Sort::sort(x, iperm, smallSize)`, src/Sort.h:36-57, as a relation between the
arguments before and after the call.  The `assert(n == iperm.size())` and the requirement
that `n` does not exceed `x.size()` (out-of-range reads otherwise) are part of the
relation: a call violating them is related to nothing. -/
def SortRun (x : List α) (iperm : List Nat) (smallSize : Nat)
    (x' : List α) (iperm' : List Nat) : Prop :=
  if x = [] then x' = x ∧ iperm' = iperm
  else
    let n := if smallSize ≠ 0 then smallSize else x.length
    iperm.length = n ∧ n ≤ x.length ∧
    ∃ q, StdSort (pairsOf x n) q ∧ x' = q.map Prod.fst ++ x.drop n ∧ iperm' = q.map Prod.snd

/-- Insertion used to exhibit one possible behaviour of `std::sort` (not in the C++). -/
def insertPair (a : α × Nat) : List (α × Nat) → List (α × Nat)
  | [] => [a]
  | b :: l => if b.1 < a.1 then b :: insertPair a l else a :: b :: l

/-- One possible behaviour of `std::sort` (not in the C++; used for examples and to show
that the contract can be met). -/
def sortPairs : List (α × Nat) → List (α × Nat)
  | [] => []
  | a :: l => insertPair a (sortPairs l)

end Verif.SortM
