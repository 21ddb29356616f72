import Verif.SortM.Model
import Verif.Util.Loop

/-!
# Model of `src/Permutations.h`

The elements are natural numbers (`SizeType`); `int` against `SizeType` conversions of indices
are not modelled (vectors of more than 2^31 elements).
-/

namespace Verif.Perms

open Verif.Loop Verif.SortM

/-- The constructor, src/Permutations.h:95-103: the data sorted (a relation, see `SortRun`). -/
def CtorTo (orig data : List Nat) : Prop :=
  ∃ iperm, SortRun orig (List.replicate orig.length 0) 0 data iperm

/-- `largestk`, src/Permutations.h:146-155; `none` inside stands for -1. -/
def largestk (a : List Nat) : Option (Option Nat) :=
  loopN (a.length - 1) (fun i saved => do
    let x ← a[i]?
    let y ← a[i + 1]?
    if x < y then some (some i) else some saved) none

/-- `largestl`, src/Permutations.h:157-165. -/
def largestl (a : List Nat) (k : Nat) : Option Nat :=
  loopN a.length (fun i saved => do
    let x ← a[k]?
    let y ← a[i]?
    if x < y then some i else some saved) 0

/-- `std::swap(data_[k], data_[l])`. -/
def swap (a : List Nat) (k l : Nat) : Option (List Nat) := do
  let x ← a[k]?
  let y ← a[l]?
  let a ← setAt a k y
  setAt a l x

/-- The loop at src/Permutations.h:130-131: `data_[c--] = tmp[i]` for `i` from `k+1`, where `c`
starts at the last position.  At step `i` of the loop below, `c` is `n - 1 - i`. -/
def reverseTail (a : List Nat) (k : Nat) : Option (List Nat) :=
  loopN (a.length - (k + 1)) (fun i d => do
    let x ← a[k + 1 + i]?
    setAt d (a.length - 1 - i) x) a

/-- `increase`, src/Permutations.h:116-133: whether there was a next one, and the data after. -/
def increase (a : List Nat) : Option (Bool × List Nat) :=
  if a.length = 0 then some (false, a)
  else do
    let k ← largestk a
    match k with
    | none => some (false, a)
    | some k =>
      let l ← largestl a k
      let a ← swap a k l
      if k + 1 ≥ a.length - 1 then some (true, a)
      else
        let a ← reverseTail a k
        some (true, a)

end Verif.Perms
