import Verif.Util.Out

/-!
# Model of the copier of objects in memory, src/MemResolv.h

Memory is a function from addresses to bytes.  Addresses are natural numbers; the code computes with 64-bit words.
Addresses of user memory are below 2^63, so that none of the sums and differences below wraps, except the final
addition of `adjustPointer`, where the wrap is kept.
-/

namespace Verif.MemResolv

abbrev Byte := BitVec 8

/-- `MemoryKindEnum`, src/MemResolv.h:32-33. -/
inductive Kind | data | heapPtr | textPtr
  deriving DecidableEq, Repr

/-- `MemoryPointer`, src/MemResolv.h:14-18. -/
structure Chunk where
  kind : Kind
  length : Nat
  ptr : Nat
  deriving DecidableEq, Repr

/-- `push`, src/MemResolv.h:193-211: the length is an `unsigned int`, so a longer one loses its upper bits. -/
def push (vmptr : List Chunk) (kind : Kind) (length : Nat) (ptr : Nat) : List Chunk :=
  let mptr : Chunk := ⟨kind, length % 2 ^ 32, ptr⟩
  if mptr ∈ vmptr then vmptr else vmptr ++ [mptr]

/-- Result of `findSizes`: `total`, `maxHoleSize`, `offsetsForHoles`. -/
structure Sizes where
  total : Nat
  maxHole : Nat
  offsets : List (Nat × Int)

/-- One round of the loop of `findSizes`, src/MemResolv.h:587-606; the state also has `end`. -/
def sizesStep (st : Sizes × Nat) (c : Chunk) : Out (Sizes × Nat) :=
  let end2 := c.ptr + c.length
  if c.ptr < st.2 then throwOut
  else
    let srcHole := c.ptr - st.2
    let destHole := srcHole % 8
    .ok (⟨st.1.total + c.length + destHole, if destHole > st.1.maxHole then destHole else st.1.maxHole,
      st.1.offsets ++ [(c.ptr, (destHole : Int) - srcHole)]⟩, end2)

/-- `findSizes`, src/MemResolv.h:578-606. -/
def findSizes : List Chunk → Out Sizes
  | [] => .ok ⟨0, 1, []⟩
  | c :: rest => do
    let r ← rest.foldlM sizesStep (⟨c.length, 1, []⟩, c.ptr + c.length)
    return r.1

/-- `correctionForHoles`, src/MemResolv.h:720-735. -/
def correctionForHoles (value : Nat) : List (Nat × Int) → Int
  | [] => 0
  | (start, off) :: rest => if value < start then 0 else off + correctionForHoles value rest

/-- The 64-bit word stored in memory as the given bytes (lowest byte first). -/
def wordOf : List Byte → Nat
  | [] => 0
  | b :: bs => b.toNat + 256 * wordOf bs

/-- The `n` bytes of a word, lowest first. -/
def bytesOf : Nat → Nat → List Byte
  | 0, _ => []
  | n + 1, w => BitVec.ofNat 8 w :: bytesOf n (w / 256)

/-- New value of one word, src/MemResolv.h:711-717. -/
def adjustWord (offset : Int) (offsets : List (Nat × Int)) (value : Nat) : Nat :=
  if value ≠ 0 then ((value + (correctionForHoles value offsets + offset)) % 2 ^ 64).toNat else value

/-- The loop of `adjustPointer`, src/MemResolv.h:694-717, over `n` words. -/
def adjustWords (offset : Int) (offsets : List (Nat × Int)) : Nat → List Byte → List Byte
  | 0, bytes => bytes
  | n + 1, bytes =>
    bytesOf 8 (adjustWord offset offsets (wordOf (bytes.take 8))) ++ adjustWords offset offsets n (bytes.drop 8)

/-- `adjustPointer`, src/MemResolv.h:694-717. -/
def adjustPointer (offset : Int) (offsets : List (Nat × Int)) (bytes : List Byte) : Out (List Byte) :=
  if bytes.length < 8 ∨ bytes.length % 8 ≠ 0 then throwOut
  else .ok (adjustWords offset offsets (bytes.length / 8) bytes)

/-- The `n` bytes of memory at `ptr`. -/
def readMem (mem : Nat → Byte) (ptr n : Nat) : List Byte := (List.range n).map fun k => mem (ptr + k)

/-- What `copyData` puts in the destination, src/MemResolv.h:655-666. -/
def copyData (mem : Nat → Byte) (offset : Int) (offsets : List (Nat × Int)) (c : Chunk) : Out (List Byte) :=
  let src := readMem mem c.ptr c.length
  if c.kind = .heapPtr then adjustPointer offset offsets src else .ok src

/-- Writing `bytes` after the part of the buffer already written: a write past the end of the buffer is undefined. -/
def write (total : Nat) (img bytes : List Byte) : Out (List Byte) :=
  if total < img.length + bytes.length then ubOut else .ok (img ++ bytes)

/-- The members `lenOfZeroes_` and the value in `zeroes_`. -/
structure Zeroes where
  len : Nat
  value : Byte
  deriving DecidableEq, Repr

/-- `updateZeroes`, src/MemResolv.h:420-433: nothing happens if the length is already right. -/
def updateZeroes (z : Zeroes) (x : Nat) (value : Byte) : Zeroes := if z.len = x then z else ⟨x, value⟩

/-- One round of the loop of `deepCopy`, src/MemResolv.h:624-646; the state is the part of the buffer written
(`total2` is its length) and `end`. -/
def copyStep (mem : Nat → Byte) (z : Zeroes) (total : Nat) (offset : Int) (offsets : List (Nat × Int))
    (st : List Byte × Nat) (c : Chunk) : Out (List Byte × Nat) := do
  if st.1.length ≥ total then throwOut
  else if c.ptr < st.2 then throwOut
  else do
    let destHole := (c.ptr - st.2) % 8
    if z.len ≤ destHole then throwOut
    else do
      let img ← write total st.1 (List.replicate destHole z.value)
      let bytes ← copyData mem offset offsets c
      let img ← write total img bytes
      return (img, c.ptr + c.length)

/-- `deepCopy`, src/MemResolv.h:608-653: the contents of the buffer, whose address is `newStart`. -/
def deepCopy (mem : Nat → Byte) (z : Zeroes) (newStart total : Nat) (offsets : List (Nat × Int)) :
    List Chunk → Out (List Byte)
  | [] => .ok []
  | c :: rest => do
    let offset : Int := (newStart : Int) - c.ptr
    let bytes ← copyData mem offset offsets c
    let img ← write total [] bytes
    let r ← rest.foldlM (copyStep mem z total offset offsets) (img, c.ptr + c.length)
    if r.1.length < total then
      if z.len < total - r.1.length then ubOut else return r.1 ++ List.replicate (total - r.1.length) z.value
    else return r.1

/-- `dup`, src/MemResolv.h:213-230: the contents of the new buffer, which `new` has put at `newStart`.  The member
`intoOffset_` is zero as nothing calls `finish`.  `-128` is the byte `0x80`. -/
def dup (mem : Nat → Byte) (z : Zeroes) (newStart : Nat) (vmptr : List Chunk) : Out (List Byte) := do
  let s ← findSizes vmptr
  deepCopy mem (updateZeroes z (s.maxHole + 1) 0x80#8) newStart s.total s.offsets vmptr

/-- One round of the loop of `saveChunkData`, src/MemResolv.h:520-562; the state is what is written and the end of the
chunk before. -/
def saveStep (mem : Nat → Byte) (z : Zeroes) (offsets : List (Nat × Int)) (st : List Byte × Option Nat)
    (c : Chunk) : Out (List Byte × Option Nat) := do
  let hole ← (match st.2 with
    | none => .ok []
    | some e =>
      let destHole := (c.ptr - e) % 8
      if z.len ≤ destHole then throwOut else .ok (List.replicate destHole z.value))
  let bytes ← copyData mem 0 offsets c
  return (st.1 ++ hole ++ bytes, some (c.ptr + c.length))

/-- The image written to the file by `save`, src/MemResolv.h:127-188, and read back by the constructor,
lines 99-108, into a new buffer; `adjustPointers`, lines 667-698, does nothing. -/
def saveLoad (mem : Nat → Byte) (z : Zeroes) (vmptr : List Chunk) : Out (List Byte) := do
  let s ← findSizes vmptr
  let r ← vmptr.foldlM (saveStep mem (updateZeroes z (s.maxHole + 1) 0x80#8) s.offsets) ([], none)
  return r.1

end Verif.MemResolv
