import Verif.SparseVec.Model
import Verif.Crs.Spec

/-!
# What a sparse vector stands for
-/

namespace Verif.SparseVec

open Verif.Crs (sumAt)

variable {α : Type}

/-- Component `k` of the represented vector: the sum of the values stored for index `k`. -/
def coeff [AddCommMonoid α] (s : SVec α) (k : Nat) : α := sumAt (s.indices.zip s.values) k

/-- Indices in strictly increasing order (so none is repeated). -/
def Increasing (l : List Nat) : Prop := l.Pairwise (· < ·)

/-- What every sparse vector a program can build satisfies (`inv_reachable`): as many values as
indices, and a vector marked as sorted has strictly increasing indices. -/
structure Inv (s : SVec α) : Prop where
  length : s.indices.length = s.values.length
  sorted : s.isSorted = true → Increasing s.indices

/-- The vectors a program can build. -/
inductive Reachable [CommRing α] [DecidableEq α] {R : Type} [LT R] [DecidableLT R] (nrm : α → R) (eps : R) :
    SVec α → Prop
  | ofVec (v : List α) : Reachable nrm eps (ofVec v)
  | ofSize (n : Nat) : Reachable nrm eps (ofSize n)
  | resize {s : SVec α} (n : Nat) : Reachable nrm eps s → Reachable nrm eps (resize s n)
  | fromChunk {s : SVec α} (v : List α) (offset total : Nat) :
      Reachable nrm eps s → Reachable nrm eps (fromChunk s v offset total)
  | add {s : SVec α} (k : Nat) (x : α) : Reachable nrm eps s → Reachable nrm eps (add s k x)
  | clear {s : SVec α} : Reachable nrm eps s → Reachable nrm eps (clear s)
  | mulAssign {s : SVec α} (x : α) : Reachable nrm eps s → Reachable nrm eps (mulAssign s x)
  | subAssign {s v s' : SVec α} : Reachable nrm eps s → Reachable nrm eps v → subAssign s v = some s' →
      Reachable nrm eps s'
  | sort {s s' : SVec α} : Reachable nrm eps s → SortTo nrm eps s s' → Reachable nrm eps s'

/-- A row after the calls `add(c, v)` for the listed pairs, in order. -/
def rowOf (adds : List (Nat × α)) : SRow α := adds.foldl (fun r p => r.add p.1 p.2) ⟨[], []⟩

/-- A cached row after the calls `add(c, v)` for the listed pairs, in order. -/
def cachedAfter [Zero α] (r : CRow α) (adds : List (Nat × α)) : Option (CRow α) :=
  adds.foldlM (fun r p => r.add p.1 p.2) r

end Verif.SparseVec
