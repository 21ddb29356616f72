import Verif.MemResolv.ModelWalk

/-!
# Model of the functions `memResolv` of dense and sparse matrices, of meshes and of strings
-/

namespace Verif.MemResolv

/-- `Matrix::memResolv`, src/Matrix.h:203-218, of a matrix at `c` with elements `e`: the numbers of rows and of columns, and the vector
of the elements. -/
def walkDense (e : Ty) (s : Wk) (c : Nat) : Out (Wk × Nat) := do
  let r ← walk (.pod 8) s c 8
  let q ← walk (.pod 8) r.1 (c + 8) 8
  let t ← walk (.vec e) q.1 (c + 16) (40 - (r.2 + q.2))
  return (t.1, r.2 + q.2 + t.2)

/-- `CrsMatrix::memResolv`, src/CrsMatrix.h:255-279, of a matrix at `c` with elements `e`. -/
def walkCrs (e : Ty) (s : Wk) (c : Nat) : Out (Wk × Nat) := do
  let r ← walk (.vec (.pod 4)) s c 24
  let k ← walk (.vec (.pod 4)) r.1 (c + 24) 24
  let v ← walk (.vec e) k.1 (c + 48) 24
  let n ← walk (.pod 8) v.1 (c + 72) 8
  let m ← walk (.pod 8) n.1 (c + 80) (88 - (r.2 + k.2 + v.2 + n.2))
  return (m.1, r.2 + k.2 + v.2 + n.2 + m.2)

/-- `GeometryEx::memResolv`, src/Geometry/GeometryEx.h:52-68, in a place of `x` bytes. -/
def walkMesh (s : Wk) (c x : Nat) : Out (Wk × Nat) := do
  let l ← walk (.pod 8) s c 8
  let e ← walk (.pod 1) l.1 (c + 8) 8
  if x ≤ l.2 + e.2 then ubOut
  else do
    let m ← walk (.pod 8) e.1 (c + 16) (x - (l.2 + e.2))
    return (m.1, l.2 + e.2 + m.2)

/-- `memResolv` of a string, src/MemResolv.h:260-283.  A string has 32 bytes, the first two words are the address of the characters and
their number: that is so in the standard library of gcc, with its current application binary interface. -/
def walkString (s : Wk) (c x : Nat) : Out (Wk × Nat) :=
  if x ≠ 32 then ubOut
  else
    let s1 := s.push .heapPtr x c
    let c3 := wordAt s1.mem c
    if c3 < 12 then ubOut
    else
      let z := updateZeroes s1.z 5 0
      let s2 : Wk := ⟨fillMem s1.mem (c3 - 4) 4 z.value, z, s1.chunks⟩
      let s3 := s2.push .data 12 (c3 - 12)
      let len := wordAt s3.mem (c + 8)
      if len = 0 then .ok (s3, x) else .ok (s3.push .data len c3, x)

end Verif.MemResolv
