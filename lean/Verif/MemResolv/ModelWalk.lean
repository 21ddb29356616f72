import Verif.MemResolv.Model

/-!
# Model of the functions `memResolv` that register the chunks of an object, src/MemResolv.h
-/

namespace Verif.MemResolv

/-- The types that `memResolv` is for: `pod` is a type that is not a class, and `pair` has its size. -/
inductive Ty
  | pod (size : Nat)
  | vec (e : Ty)
  | pair (a b : Ty) (size : Nat)
  | complex (size : Nat)
  | map
  deriving DecidableEq

/-- `sizeof`. -/
def Ty.size : Ty → Nat
  | .pod n => n
  | .vec _ => 24
  | .pair _ _ n => n
  | .complex n => n
  | .map => 48

/-- `IsClass`. -/
def Ty.isClass : Ty → Bool
  | .pod _ => false
  | _ => true

/-- Memory, and the members of `MemResolv` that change. -/
structure Wk where
  mem : Nat → Byte
  z : Zeroes
  chunks : List Chunk

/-- The word at an address. -/
def wordAt (mem : Nat → Byte) (p : Nat) : Nat := wordOf (readMem mem p 8)

/-- `memcpy(ptr, zeroes_, r)` where `zeroes_` has bytes `v`. -/
def fillMem (mem : Nat → Byte) (p r : Nat) (v : Byte) : Nat → Byte := fun a => if p ≤ a ∧ a < p + r then v else mem a

/-- `push`. -/
def Wk.push (s : Wk) (k : Kind) (n p : Nat) : Wk := { s with chunks := MemResolv.push s.chunks k n p }

/-- `memResolv` of something that is not a class, src/MemResolv.h:232-246. -/
def walkPod (n : Nat) (s : Wk) (c x : Nat) : Out (Wk × Nat) :=
  if x < n then ubOut
  else
    let z := updateZeroes s.z (x - n + 1) 0
    let s' : Wk := ⟨fillMem s.mem (c + n) (x - n) z.value, z, s.chunks⟩
    .ok (s'.push .data x c, x)

/-- The loop over the elements of a vector, src/MemResolv.h:358-359: `f` is `memResolv` of an element. -/
def walkElems (f : Wk → Nat → Out (Wk × Nat)) (es : Nat) : Nat → Nat → Wk → Out Wk
  | 0, _, s => .ok s
  | n + 1, p, s => do
    let r ← f s p
    walkElems f es n (p + es) r.1

/-- The number of elements of a vector, read from its first two words. -/
def vecCount (mem : Nat → Byte) (v es : Nat) : Nat := (wordAt mem (v + 8) - wordAt mem v) / es

/-- The end of `memResolv` of a vector of things that are not classes, src/MemResolv.h:331-338, for `n` elements of `es` bytes at
`b`. -/
def walkData (k : Kind) (s : Wk) (es n b : Nat) : Wk := if es * n = 0 then s else s.push k (es * n) b

/-- The end of `memResolv` of a pair, src/MemResolv.h:300-312. -/
def walkTail (s : Wk) (c size x total : Nat) : Out (Wk × Nat) :=
  if x < size then ubOut
  else if x = size then .ok (s, total)
  else
    let z := updateZeroes s.z (x - size + 1) 0
    .ok (⟨fillMem s.mem (c + size) (x - size) z.value, z, s.chunks⟩, total)

/-- `memResolv`, src/MemResolv.h:232-257, 285-362 and 390-395.  Messages and the warning of `checkForVectorReserve` are not
modelled. -/
def walk : Ty → Wk → Nat → Nat → Out (Wk × Nat)
  | .pod n, s, c, x => walkPod n s c x
  | .complex _, _, _, _ => throwOut
  | .map, _, _, _ => throwOut
  | .pair a b size, s, c, x => do
    let r ← walk a s c a.size
    let q ← walk b r.1 (c + 8) b.size
    walkTail q.1 c size x (r.2 + q.2)
  | .vec e, s, v, _ =>
    if e.isClass then do
      let s2 ← walkElems (fun s p => walk e s p e.size) e.size (vecCount s.mem v e.size) (wordAt s.mem v) (s.push .heapPtr 24 v)
      return (s2, 24)
    else .ok (walkData .data (s.push .heapPtr 24 v) e.size (vecCount s.mem v e.size) (wordAt s.mem v), 24)

/-- `memResolvPtr`, src/MemResolv.h:364-388: a vector of pointers, of `8` bytes each. -/
def walkPtrs (s : Wk) (v : Nat) : Wk × Nat :=
  (walkData .heapPtr (s.push .heapPtr 24 v) 8 (vecCount s.mem v 8) (wordAt s.mem v), 24 + 8 * vecCount s.mem v 8)

/-- `ResolveFinalOrNot::resolve`, src/MemResolv.h:763-782: an array of `size` elements; elements that are classes are given their
default size. -/
def resolve (e : Ty) (s : Wk) (size p : Nat) : Out (Wk × Nat) :=
  if e.isClass then
    (List.range size).foldlM (fun (r : Wk × Nat) i => do
      let q ← walk e r.1 (p + i * e.size) e.size
      return (q.1, r.2 + q.2)) (s, 0)
  else .ok (s.push .data (e.size * size) p, e.size * size)

end Verif.MemResolv
