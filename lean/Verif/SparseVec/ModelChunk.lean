import Verif.SparseVec.Model
import Verif.Util.Out

/-!
# Chunks, partitions and printing of sparse vectors, src/SparseVector.h

Exceptions and undefined behaviour are told apart.
-/

namespace Verif.SparseVec

variable {α : Type}

/-- Text. -/
abbrev Str := List Char

/-- `findFirstLast`, src/SparseVector.h:341-346; without elements the end of the vector is read. -/
def findFirstLast (s : SVec α) : Option (Nat × Nat) :=
  match s.indices.min?, s.indices.max? with
  | some a, some b => some (a, b)
  | _, _ => none

/-- Undefined behaviour of the loops. -/
def ofLoop {β : Type} : Option β → Out β
  | some x => .ok x
  | none => ubOut

/-- `toChunk(dest, i0, total, true)`, src/SparseVector.h:163-174. -/
def toChunkTest [Zero α] (s : SVec α) (dest : List α) (i0 total : Nat) : Out (List α) :=
  match findFirstLast s with
  | none => ubOut
  | some (first, last) =>
    if i0 > first ∨ i0 + total < last then throwOut
    else ofLoop (toChunk s dest i0 total)

/-- A loop over the partition that stops at the first number without the property, src/SparseVector.h:195-203 and 205-212. -/
def scan (c : Nat → Bool) : List Nat → Nat → Nat → Nat
  | [], _, ret => ret
  | p :: ps, i, ret => if c p then scan c ps (i + 1) i else ret

/-- `findPartition(parts)`, src/SparseVector.h:191-218; `P` are the numbers `parts.partition(i)`. -/
def findPartition (s : SVec α) (P : List Nat) : Out Nat :=
  match findFirstLast s with
  | none => ubOut
  | some (first, last) =>
    if scan (fun p => decide (first ≥ p)) P 0 0 ≠ scan (fun p => decide (last > p)) P 0 1 then throwOut
    else .ok (scan (fun p => decide (first ≥ p)) P 0 0)

/-- `toChunk(dest, parts)`, src/SparseVector.h:176-188: the part and the chunk. -/
def toChunkParts [Zero α] (s : SVec α) (P : List Nat) : Out (Nat × List α) := do
  let part ← findPartition s P
  let offset ← ofLoop P[part]?
  let next ← ofLoop P[part + 1]?
  let d ← ofLoop (toChunk s [] offset (next - offset))
  return (part, d)

/-- `print(os, label)`, src/SparseVector.h:146-154; `txt` is what is printed for a value. -/
def print (txt : α → Str) (s : SVec α) (label : Str) : Str :=
  label ++ ", ".toList ++ Nat.toDigits 10 s.size ++ ", ".toList ++ Nat.toDigits 10 s.indices.length ++ ", ".toList ++
    (s.indices.zip s.values).flatMap (fun p => Nat.toDigits 10 p.1 ++ ' ' :: txt p.2 ++ [',']) ++ ['\n']

end Verif.SparseVec
