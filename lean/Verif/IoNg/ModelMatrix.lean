import Verif.IoNg.Spec
import Verif.Crs.Spec

/-!
# Model of writing and reading matrices with `IoNgSerializer`, src/Matrix.h and src/CrsMatrix.h
-/

namespace Verif.IoNg

open Verif.Dense

variable {α T : Type}

/-- How a vector of the elements of a matrix is written: the overloads of `write` for vectors, src/Io/IoNgSerializer.h:225-263. -/
structure Elem (α T : Type) where
  kind : LeafKind
  toLeaf : List T → Leaf α
  ofLeaf : Leaf α → Option (List T)

/-- Real elements. -/
def realElem (α : Type) : Elem α α where
  kind := .vec .real
  toLeaf xs := .vec .real (xs.map .real)
  ofLeaf
    | .vec _ xs => xs.mapM fun
      | .real x => some x
      | .int _ => none
    | _ => none

/-- Complex elements. -/
def complexElem (α : Type) : Elem α (α × α) where
  kind := .cvec
  toLeaf xs := .cvec xs
  ofLeaf
    | .cvec xs => some xs
    | _ => none

/-- Elements of type `int`, which is also the type of the indices of sparse matrices. -/
def intElem (α : Type) : Elem α Int where
  kind := .vec .int
  toLeaf xs := .vec .int (xs.map .int)
  ofLeaf
    | .vec _ xs => xs.mapM fun
      | .int x => some x
      | .real _ => none
    | _ => none

/-- `ioSerializer.write(label + "/" + part, n, mode)` with a `SizeType`. -/
def writeDim [DecidableEq α] (f : File α) (name part : Str) (n : Nat) (m : Mode) : File α :=
  writeScalar f (name ++ '/' :: part) .size (.int n) m

/-- What that call returns when overwriting, src/Io/IoNgSerializer.h:608-645. -/
def dimWritten [DecidableEq α] (f : File α) (name part : Str) (n : Nat) : Bool :=
  match (match f.unlink (inDef (name ++ '/' :: part)) with
    | .ok f => f
    | .error _ => f).createDataSet (inDef (name ++ '/' :: part)) ⟨.size, [.int n]⟩ with
  | .ok _ => true
  | .error _ => false

/-- `ioSerializer.read(n, label + "/" + part)`. -/
def readDim (h : H5 α) (f : File α) (name part : Str) : Out Nat := do
  let x ← readScalar h f (name ++ '/' :: part) .size (.int 0)
  match x with
  | .int z => return z.toNat
  | .real _ => throwOut

/-- `ioSerializer.read(v, label + "/" + part)` with a vector of elements. -/
def readElems [DecidableEq α] [Zero α] (el : Elem α T) (h : H5 α) (f : File α) (name part : Str) : Out (List T) := do
  let v ← Leaf.read h f (name ++ '/' :: part) el.kind
  match el.ofLeaf v with
  | some xs => return xs
  | none => ubOut

/-- `Matrix::write` without overwriting, src/Matrix.h:161-177. -/
def writeMat [DecidableEq α] (el : Elem α T) (f : File α) (name : Str) (m : Mat T) : Out (File α) := do
  let f ← createGroup f name
  let f := writeDim f name "nrow_".toList m.nrow .no
  let f := writeDim f name "ncol_".toList m.ncol .no
  if m.nrow = 0 ∨ m.ncol = 0 then return f
  else (el.toLeaf m.data).write f (name ++ '/' :: "data_".toList) .no

/-- `Matrix::overwrite`, src/Matrix.h:179-193: the result, and the file. -/
def overwriteMat [DecidableEq α] (el : Elem α T) (f : File α) (name : Str) (m : Mat T) : Out (Bool × File α) :=
  if dimWritten f name "nrow_".toList m.nrow = false then .ok (false, writeDim f name "nrow_".toList m.nrow .allow)
  else
    let f := writeDim f name "nrow_".toList m.nrow .allow
    if dimWritten f name "ncol_".toList m.ncol = false then .ok (false, writeDim f name "ncol_".toList m.ncol .allow)
    else
      let f := writeDim f name "ncol_".toList m.ncol .allow
      if m.nrow = 0 ∨ m.ncol = 0 then .ok (true, f)
      else do
        let f ← (el.toLeaf m.data).write f (name ++ '/' :: "data_".toList) .allow
        return (true, f)

/-- `Matrix::write` with overwriting, src/Matrix.h:161-177. -/
def writeMatOver [DecidableEq α] (el : Elem α T) (f : File α) (name : Str) (m : Mat T) : Out (File α) := do
  let (b, f) ← overwriteMat el f name m
  if b then return f else writeMat el f name m

/-- `Matrix::read`, src/Matrix.h:152-159; `old` is what the object held before. -/
def readMat [DecidableEq α] [Zero α] (el : Elem α T) (old : Mat T) (h : H5 α) (f : File α) (name : Str) : Out (Mat T) := do
  let r ← readDim h f name "nrow_".toList
  let c ← readDim h f name "ncol_".toList
  if r = 0 ∨ c = 0 then return ⟨r, c, old.data⟩
  else do
    let d ← readElems el h f name "data_".toList
    return ⟨r, c, d⟩

/-- A vector of indices is written. -/
def writeInts [DecidableEq α] (f : File α) (name part : Str) (xs : List Nat) (m : Mode) : Out (File α) :=
  ((intElem α).toLeaf (xs.map fun (n : Nat) => (n : Int))).write f (name ++ '/' :: part) m

/-- A vector of indices is read. -/
def readInts [DecidableEq α] [Zero α] (h : H5 α) (f : File α) (name part : Str) : Out (List Nat) := do
  let xs ← readElems (intElem α) h f name part
  return xs.map Int.toNat

/-- The group is created unless overwriting, src/CrsMatrix.h:605-606. -/
def openCrs [DecidableEq α] (f : File α) (name : Str) (mode : Mode) : Out (File α) :=
  if mode = .allow then .ok f else createGroup f name

/-- `CrsMatrix::write`, src/CrsMatrix.h:600-617; failed assertions are undefined behaviour. -/
def writeCrs [DecidableEq α] (el : Elem α T) (f : File α) (name : Str) (m : Crs.Crs T) (mode : Mode) : Out (File α) :=
  if 0 < m.nrow ∧ Crs.checkValidity m = none then ubOut
  else do
    let f ← openCrs f name mode
    let f := writeDim f name "nrow_".toList m.nrow mode
    let f := writeDim f name "ncol_".toList m.ncol mode
    if m.nrow = 0 ∨ m.ncol = 0 then return f
    else do
      let f ← writeInts f name "rowptr_".toList m.rowptr mode
      if m.rowptr.length ≠ m.nrow + 1 then ubOut
      else if m.rowptr.getD m.nrow 0 = 0 then return f
      else do
        let f ← writeInts f name "colind_".toList m.colind mode
        (el.toLeaf m.values).write f (name ++ '/' :: "values_".toList) mode

/-- `CrsMatrix::read`, src/CrsMatrix.h:623-636; `old` is what the object held before. -/
def readCrs [DecidableEq α] [Zero α] (el : Elem α T) (old : Crs.Crs T) (h : H5 α) (f : File α) (name : Str) : Out (Crs.Crs T) := do
  let r ← readDim h f name "nrow_".toList
  let c ← readDim h f name "ncol_".toList
  if r = 0 ∨ c = 0 then return ⟨old.rowptr, old.colind, old.values, r, c⟩
  else do
    let p ← readInts h f name "rowptr_".toList
    if p.length ≠ r + 1 then ubOut
    else if p.getD r 0 = 0 then return ⟨p, old.colind, old.values, r, c⟩
    else do
      let j ← readInts h f name "colind_".toList
      let v ← readElems el h f name "values_".toList
      if Crs.checkValidity (⟨p, j, v, r, c⟩ : Crs.Crs T) = none then ubOut
      else return ⟨p, j, v, r, c⟩

end Verif.IoNg
