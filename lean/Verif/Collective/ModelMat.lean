import Verif.Collective.Model
import Verif.Dense.Model
import Verif.Crs.Model

/-!
# Model of messages with vectors and matrices

Between two ranks there is a queue of messages in the order in which they were sent; a receive takes the first one with its
tag, and waits forever if there is none.  A message is what it is made of: four bytes, eight bytes or numbers.  Vectors of
indices and vectors of elements are two kinds of messages here; an element is made of `k` numbers (1, or 2 if it is a
complex number), and counts are counts of numbers.
-/

namespace Verif.Collective

open Verif.Loop
open Verif.Dense (Mat)
open Verif.Crs (Crs)

variable {α : Type}

/-- What is in a message. -/
inductive Payload (α : Type) where
  | int32 (n : Nat)
  | word (n : Nat)
  | indices (l : List Nat)
  | elements (l : List α)
  deriving DecidableEq

/-- The messages from one rank to another. -/
abbrev Chan (α : Type) := List (Nat × Payload α)

/-- `MPI_Recv` of the tag: the oldest message with it, and the messages that are left. -/
def takeTag (tag : Nat) : Chan α → Option (Payload α × Chan α)
  | [] => none
  | (t, p) :: c =>
    if t = tag then some (p, c)
    else match takeTag tag c with
      | some (q, d) => some (q, (t, p) :: d)
      | none => none

/-- The four low bytes of a number: `int total = v.size()`, src/MpiYes.h:197 and 212. -/
def low32 (n : Nat) : Nat := n % 2 ^ 32

/-- A number of eight bytes after four bytes are written over its low ones, src/MpiYes.h:145-146 and 163-164. -/
def overlay (old n : Nat) : Nat := old / 2 ^ 32 * 2 ^ 32 + n

/-- `send` of a `SizeType`, src/MpiYes.h:171-179 and src/MpiYes.cpp:86-87. -/
def sendWord (n tag : Nat) : Chan α := [(tag, .word n)]

/-- `recv` of a `SizeType`, src/MpiYes.h:117-126.  A message of four bytes changes the four low bytes.  `ubOut` if there is no
message: the receive waits forever. -/
def recvWord (old tag : Nat) (c : Chan α) : Out (Nat × Chan α) :=
  match takeTag tag c with
  | some (.word n, d) => .ok (n, d)
  | some (.int32 n, d) => .ok (overlay old n, d)
  | _ => ubOut

/-- The count of a call, which is an `int`: `none` if it is negative, which is an error, and `checkError` ends the program. -/
def mpiCount (n : Nat) : Option Nat := if toInt n < 0 then none else some (toInt n).toNat

/-- The messages of `send` of a vector, src/MpiYes.h:196-200 and 211-215: the size as an `int`, then the elements, with the
same tag. -/
def sendCount {β : Type} (k : Nat) (wrap : List β → Payload α) (v : List β) (tag : Nat) : Option Nat → Out (Chan α)
  | none => throwOut
  | some count => .ok [(tag, .int32 (low32 v.length)), (tag, wrap (v.take (count / k)))]

/-- `send` of a vector, src/MpiYes.h:188-201 and 203-216. -/
def sendVec {β : Type} (k : Nat) (wrap : List β → Payload α) (v : List β) (tag : Nat) : Out (Chan α) :=
  sendCount k wrap v tag (mpiCount (k * v.length))

/-- `MPI_Recv` of a count: an error if the message has more numbers. -/
def recvCount {β : Type} (k : Nat) (v w : List β) : Option Nat → Out (List β)
  | none => throwOut
  | some count => if count < k * w.length then throwOut else .ok (w ++ v.drop w.length)

/-- `MPI_Recv` of elements into a vector, src/MpiYes.h:149-150 and 167-168. -/
def recvInto {β : Type} (k : Nat) (v w : List β) : Out (List β) := recvCount k v w (mpiCount (k * v.length))

/-- The new size of the vector, src/MpiYes.h:147-148 and 165-166. -/
def fit {β : Type} [Zero β] (v : List β) (total : Nat) : List β := if v.length ≠ total then resizeL v total 0 else v

/-- The elements of `recv` of a vector, src/MpiYes.h:147-150 and 165-168. -/
def recvRest {β : Type} [Zero β] (k : Nat) (unwrap : Payload α → Option (List β)) (v : List β) (tag : Nat) (x : Nat × Chan α) :
    Out (List β × Chan α) :=
  match takeTag tag x.2 with
  | some (p, d) =>
    match unwrap p with
    | some w => do
      let v ← recvInto k (fit v x.1) w
      return (v, d)
    | none => ubOut
  | none => ubOut

/-- `recv` of a vector, src/MpiYes.h:135-151 and 153-169: the size is received into a `SizeType`. -/
def recvVec {β : Type} [Zero β] (k : Nat) (unwrap : Payload α → Option (List β)) (v : List β) (tag : Nat) (c : Chan α) :
    Out (List β × Chan α) := do
  let x ← recvWord v.length tag c
  recvRest k unwrap v tag x

/-- The elements in a message. -/
def Payload.elements? : Payload α → Option (List α)
  | .elements l => some l
  | _ => none

/-- The indices in a message. -/
def Payload.indices? : Payload α → Option (List Nat)
  | .indices l => some l
  | _ => none

/-- `Matrix::send`, src/Matrix.h:371-376. -/
def sendMat (k : Nat) (m : Mat α) (tag : Nat) : Out (Chan α) := do
  let d ← sendVec k .elements m.data (tag + 2)
  return sendWord m.nrow tag ++ sendWord m.ncol (tag + 1) ++ d

/-- `Matrix::recv`, src/Matrix.h:378-383. -/
def recvMat [Zero α] (k : Nat) (m : Mat α) (tag : Nat) (c : Chan α) : Out (Mat α × Chan α) := do
  let (nrow, c) ← recvWord m.nrow tag c
  let (ncol, c) ← recvWord m.ncol (tag + 1) c
  let (data, c) ← recvVec k Payload.elements? m.data (tag + 2) c
  return (⟨nrow, ncol, data⟩, c)

/-- `CrsMatrix::send`, src/CrsMatrix.h:582-589. -/
def sendCrs (k : Nat) (m : Crs α) (tag : Nat) : Out (Chan α) := do
  let a ← sendVec 1 .indices m.rowptr (tag + 2)
  let b ← sendVec 1 .indices m.colind (tag + 3)
  let d ← sendVec k .elements m.values (tag + 4)
  return sendWord m.nrow tag ++ sendWord m.ncol (tag + 1) ++ a ++ b ++ d

/-- `CrsMatrix::recv`, src/CrsMatrix.h:591-598. -/
def recvCrs [Zero α] (k : Nat) (m : Crs α) (tag : Nat) (c : Chan α) : Out (Crs α × Chan α) := do
  let (nrow, c) ← recvWord m.nrow tag c
  let (ncol, c) ← recvWord m.ncol (tag + 1) c
  let (rowptr, c) ← recvVec 1 Payload.indices? m.rowptr (tag + 2) c
  let (colind, c) ← recvVec 1 Payload.indices? m.colind (tag + 3) c
  let (values, c) ← recvVec k Payload.elements? m.values (tag + 4) c
  return (⟨rowptr, colind, values, nrow, ncol⟩, c)

/-- One rank sends objects with tags, one after the other. -/
def sendAll {γ : Type} (send : γ → Nat → Out (Chan α)) : List (γ × Nat) → Out (Chan α)
  | [] => .ok []
  | (m, tag) :: l => do
    let a ← send m tag
    let b ← sendAll send l
    return a ++ b

/-- The other rank receives into objects, with tags. -/
def recvAll {γ : Type} (recv : γ → Nat → Chan α → Out (γ × Chan α)) : List (γ × Nat) → Chan α → Out (List γ × Chan α)
  | [], c => .ok ([], c)
  | (m, tag) :: l, c => do
    let (m, c) ← recv m tag c
    let (ms, c) ← recvAll recv l c
    return (m :: ms, c)

/-- The three parts of the matrices of all ranks. -/
def joinMat (r c : List Nat) (d : List (List α)) : List (Mat α) :=
  List.zipWith (fun (x : Nat × Nat) y => ⟨x.1, x.2, y⟩) (r.zip c) d

/-- `Matrix::bcast`, src/Matrix.h:385-390, of real matrices. -/
def bcastMat [Zero α] (root : Nat) (world : List (Mat α)) : Out (List (Mat α)) := do
  let r ← bcastOne root (world.map Mat.nrow)
  let c ← bcastOne root (world.map Mat.ncol)
  let d ← bcastVec root (world.map Mat.data)
  return joinMat r c d

/-- `Matrix::bcast`, src/Matrix.h:385-390, of complex matrices. -/
def bcastMatComplex (root : Nat) (world : List (Mat (α × α))) : Out (List (Mat (α × α))) := do
  let r ← bcastOne root (world.map Mat.nrow)
  let c ← bcastOne root (world.map Mat.ncol)
  let d ← bcastComplex root (world.map Mat.data)
  return joinMat r c d

/-- The five parts of the sparse matrices of all ranks. -/
def joinCrs (a b : List (List Nat)) (v : List (List α)) (r c : List Nat) : List (Crs α) :=
  List.zipWith (fun (x : (List Nat × List Nat) × List α) (y : Nat × Nat) => ⟨x.1.1, x.1.2, x.2, y.1, y.2⟩)
    ((a.zip b).zip v) (r.zip c)

/-- `bcast` of a sparse matrix, src/CrsMatrix.h:763-771, from rank 0. -/
def bcastCrs [Zero α] (world : List (Crs α)) : Out (List (Crs α)) := do
  let a ← bcastVec 0 (world.map Crs.rowptr)
  let b ← bcastVec 0 (world.map Crs.colind)
  let v ← bcastVec 0 (world.map Crs.values)
  let r ← bcastOne 0 (world.map Crs.nrow)
  let c ← bcastOne 0 (world.map Crs.ncol)
  return joinCrs a b v r c

/-- `bcast` of a sparse matrix of complex numbers, src/CrsMatrix.h:763-771. -/
def bcastCrsComplex (world : List (Crs (α × α))) : Out (List (Crs (α × α))) := do
  let a ← bcastVec 0 (world.map Crs.rowptr)
  let b ← bcastVec 0 (world.map Crs.colind)
  let v ← bcastComplex 0 (world.map Crs.values)
  let r ← bcastOne 0 (world.map Crs.nrow)
  let c ← bcastOne 0 (world.map Crs.ncol)
  return joinCrs a b v r c

/-- `bcast` of a vector of objects, src/MpiYes.h:395-404, which call their own `bcast`.  If the sizes are not the same then
some ranks call `MPI_Bcast` and others do not. -/
def bcastEach {γ : Type} (one : List γ → Out (List γ)) (world : List (List γ)) : Out (List (List γ)) :=
  match world with
  | [] => ubOut
  | b :: bs =>
    if sameLength (b :: bs) = true then
      (List.range b.length).foldlM (fun (w : List (List γ)) i => do
        let column ← one (w.filterMap fun v => v[i]?)
        return List.zipWith (fun v x => v.set i x) w column) (b :: bs)
    else ubOut

/-- `allReduce` of a matrix, src/Matrix.h:1112-1124: `v(0, 0)` has to exist (src/Matrix.h:273-278). -/
def allReduceMat (op : α → α → α) (world : List (Mat α)) : Out (List (Mat α)) := do
  if world.any fun m => m.nrow == 0 || m.ncol == 0 then ubOut
  else do
    let d ← allReduce op (world.map Mat.data)
    return List.zipWith (fun (m : Mat α) d => { m with data := d }) world d

/-- `allReduce` of a matrix of complex numbers, src/Matrix.h:1126-1138. -/
def allReduceMatComplex (op : α → α → α) (world : List (Mat (α × α))) : Out (List (Mat (α × α))) := do
  if world.any fun m => m.nrow == 0 || m.ncol == 0 then ubOut
  else do
    let d ← allReduceComplex op (world.map Mat.data)
    return List.zipWith (fun (m : Mat (α × α)) d => { m with data := d }) world d

end Verif.Collective
