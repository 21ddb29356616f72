import Verif.MemResolv.Model

/-!
# Model of snapshots of memory in files, `save` and the constructor from a file of src/MemResolv.h

A file is a list of bytes.  Words are stored with their lowest byte first.
-/

namespace Verif.MemResolv

/-- The members of `MemResolv`, src/MemResolv.h:742-749: `into` is `intoOffset_`, `refText` is `refTextPtr_` as a word, and `garbage`
has the contents of the buffers of `garbage_`.  `rankVector_` is only used by `finish`, which nothing calls. -/
structure MR where
  vmptr : List Chunk
  into : Nat
  refText : Nat
  z : Zeroes
  garbage : List (List Byte)

/-- The label with zeros added to it, src/MemResolv.h:55-59 and 131-135. -/
def padLabel (label : List Byte) : List Byte :=
  if label.length < 128 then label ++ List.replicate (128 - label.length) 0 else label

/-- `MemoryKindEnum` as a number, src/MemResolv.h:31-33. -/
def Kind.code : Kind → Nat
  | .data => 0
  | .heapPtr => 1
  | .textPtr => 2

/-- The kind with a number.  A number that is not a kind is kept by the code; only `== MEMORY_HEAPPTR` is ever asked of it. -/
def kindOf (n : Nat) : Kind := if n = 1 then .heapPtr else if n = 2 then .textPtr else .data

/-- The bytes of one `MemoryPointer` in the file, src/MemResolv.h:508-516 and 14-18. -/
def chunkBytes (offsets : List (Nat × Int)) (c : Chunk) : List Byte :=
  bytesOf 4 c.kind.code ++ bytesOf 4 c.length ++ bytesOf 8 (adjustWord 0 offsets c.ptr)

/-- `saveChunkInfo`, src/MemResolv.h:502-518. -/
def saveChunkInfo (offsets : List (Nat × Int)) (vmptr : List Chunk) : List Byte :=
  bytesOf 8 vmptr.length ++ vmptr.flatMap (chunkBytes offsets)

/-- `save`, src/MemResolv.h:127-188: the contents of the file.  What is in the file if an exception is thrown while writing is not
modelled.  Without a buffer (nothing was copied yet) or without chunks an assertion or `vmptr_[0]` fails. -/
def MR.save (mem : Nat → Byte) (m : MR) (label : List Byte) : Out (List Byte) :=
  if m.garbage = [] then ubOut
  else if (padLabel label).length ≠ 128 then throwOut
  else do
    let s ← findSizes m.vmptr
    match m.vmptr with
    | [] => ubOut
    | p :: _ => do
      let data ← m.vmptr.foldlM (saveStep mem (updateZeroes m.z (s.maxHole + 1) 0x80#8) s.offsets) ([], none)
      return bytesOf 8 128 ++ bytesOf 8 128 ++ padLabel label ++ bytesOf 8 (adjustWord 0 s.offsets p.ptr) ++ bytesOf 8 m.refText ++
        bytesOf 8 m.into ++ saveChunkInfo s.offsets m.vmptr ++ bytesOf 8 s.total ++ data.1

/-- A file that is being read: what is left, and whether no read has failed. -/
structure Rd where
  rest : List Byte
  good : Bool

/-- `fin.read(ptr, n)` where the `n` bytes at `ptr` are `old`: a file that is too short changes only the first of them, and after
that nothing is read. -/
def Rd.read (r : Rd) (old : List Byte) : Rd × List Byte :=
  if r.good then
    if old.length ≤ r.rest.length then (⟨r.rest.drop old.length, true⟩, r.rest.take old.length)
    else (⟨[], false⟩, r.rest ++ old.drop r.rest.length)
  else (r, old)

/-- `fin.read` of a word that is `v` before. -/
def Rd.word (r : Rd) (v : Nat := 0) : Rd × Nat :=
  let q := r.read (bytesOf 8 v)
  (q.1, wordOf q.2)

/-- `stringEqual`, src/MemResolv.h:435-448. -/
def stringEqual (a b : List Byte) : Bool :=
  if a.length ≠ b.length then false
  else
    match a, b with
    | x :: a, y :: b => if x = 0 ∧ y = 0 then true else if x ≠ y then false else stringEqual a b
    | _, _ => true

/-- One round of the loop of `loadChunkInfo`, src/MemResolv.h:571-573: `resize` has set the chunk to zeros. -/
def loadChunk (r : Rd) : Rd × Chunk :=
  let q := r.read (List.replicate 16 0)
  (q.1, ⟨kindOf (wordOf (q.2.take 4)), wordOf ((q.2.drop 4).take 4), wordOf ((q.2.drop 8).take 8)⟩)

/-- The loop of `loadChunkInfo`, src/MemResolv.h:570-575. -/
def loadChunks : Nat → Rd → Rd × List Chunk
  | 0, r => (r, [])
  | n + 1, r =>
    let q := loadChunk r
    let t := loadChunks n q.1
    (t.1, q.2 :: t.2)

/-- What is read after the label, src/MemResolv.h:83-114: `junk` are the bytes that `new` leaves in the buffer.  No memory is ever
too large for `resize` and `new`. -/
def loadRest (junk : Nat → Byte) (r : Rd) : MR :=
  let oldStart := r.word
  let refText := oldStart.1.word
  let into := refText.1.word
  let len := into.1.word
  let chunks := loadChunks len.2 len.1
  let size := chunks.1.word
  let data := size.1.read ((List.range size.2).map junk)
  ⟨chunks.2, into.2, refText.2, ⟨0, 0⟩, [data.2]⟩

/-- The constructor from a file, src/MemResolv.h:49-115; the file is `none` if it cannot be opened. -/
def MR.load (junk : Nat → Byte) (file : Option (List Byte)) (label : List Byte) : Out MR :=
  match file with
  | none => throwOut
  | some file =>
    let l1 := Rd.word ⟨file, true⟩
    let l2 := l1.1.word l1.2
    if l2.2 ≠ 128 then throwOut
    else if (padLabel label).length ≠ 128 then throwOut
    else
      let r := l2.1.read (List.replicate 128 0)
      if stringEqual r.2 (padLabel label) then .ok (loadRest junk r.1) else throwOut

/-- `get`, src/MemResolv.h:190: the place in the first buffer. -/
def MR.get (m : MR) : Out Nat := if m.garbage = [] then ubOut else .ok m.into

end Verif.MemResolv
