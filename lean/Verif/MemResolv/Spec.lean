import Verif.MemResolv.Model
import Mathlib.Data.List.Chain

/-!
# What a copy of a set of chunks must look like
-/

namespace Verif.MemResolv

/-- The chunks are in the order of their addresses and do not overlap. -/
def Ordered (cs : List Chunk) : Prop := cs.IsChain fun a b => a.ptr + a.length ≤ b.ptr

/-- Chunks of pointers are made of whole words, no chunk is empty and none is at the null address. -/
def Sound (cs : List Chunk) : Prop :=
  ∀ c ∈ cs, 0 < c.length ∧ 0 < c.ptr ∧ (c.kind = .heapPtr → 8 ∣ c.length)

/-- `dst i` is where the copy of chunk `i` begins in the image: the copies follow each other, each
hole between two chunks is kept modulo 8. -/
def Layout (cs : List Chunk) (dst : Nat → Nat) : Prop :=
  dst 0 = 0 ∧
  ∀ i a b, cs[i]? = some a → cs[i + 1]? = some b →
    dst (i + 1) = dst i + a.length + (b.ptr - (a.ptr + a.length)) % 8

/-- The pointer `v` into the old chunks has become `v'`: null stays null, and a pointer to byte `k` of chunk `j` (or
just past its end) points to byte `k` of the copy of chunk `j`. -/
def Relocated (cs : List Chunk) (dst : Nat → Nat) (newStart v v' : Nat) : Prop :=
  (v = 0 → v' = 0) ∧
  ∀ j c k, cs[j]? = some c → k ≤ c.length → v = c.ptr + k → v' = newStart + dst j + k

/-- `n` bytes of the image at `o`. -/
def slice (img : List Byte) (o n : Nat) : List Byte := (img.drop o).take n

/-- The image of the chunks, to be used at address `newStart`. -/
structure IsImage (mem : Nat → Byte) (cs : List Chunk) (newStart : Nat) (fill : Byte) (dst : Nat → Nat)
    (img : List Byte) : Prop where
  /-- where the copies are -/
  layout : Layout cs dst
  /-- the image ends with the last copy -/
  size : ∀ c, cs.getLast? = some c → img.length = dst (cs.length - 1) + c.length
  /-- what does not hold pointers is copied byte by byte -/
  bytes : ∀ i c, cs[i]? = some c → c.kind ≠ .heapPtr → slice img (dst i) c.length = readMem mem c.ptr c.length
  /-- what holds pointers is copied word by word, each pointer relocated -/
  words : ∀ i c w, cs[i]? = some c → c.kind = .heapPtr → 8 * w + 8 ≤ c.length →
    Relocated cs dst newStart (wordOf (readMem mem (c.ptr + 8 * w) 8)) (wordOf (slice img (dst i + 8 * w) 8))
  /-- between the copies there are only filling bytes -/
  holes : ∀ i a b k, cs[i]? = some a → cs[i + 1]? = some b → dst i + a.length ≤ k → k < dst (i + 1) →
    img[k]? = some fill

end Verif.MemResolv
