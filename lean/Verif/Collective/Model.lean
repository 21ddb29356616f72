import Verif.Util.Out
import Verif.Util.Loop

/-!
# Model of the collective operations of `MpiYes.h`

All ranks call the same function; what they hold is a list, by rank.  MPI itself (`MPI_Bcast`, `MPI_Reduce`,
`MPI_Allreduce`) is trusted: the counts have to be the same on all ranks, and otherwise, or if the ranks call different
functions, nothing is known (`ubOut`).  `&(v[0])` of a vector without elements is an address that is not used.
-/

namespace Verif.Collective

open Verif.Loop

/-- The lists have the same length. -/
def sameLength {α : Type} (world : List (List α)) : Bool :=
  match world with
  | [] => true
  | b :: bs => bs.all fun x => x.length == b.length

/-- `int total = n`: also the conversion of counts, which are `int` for MPI. -/
def toInt (n : Nat) : Int := (n : Int).bmod (2 ^ 32)

/-- `MPI_Bcast`, and `checkError`, which ends the program (`throwOut`): `count` elements of every buffer become those of the
root. -/
def mpiBcast {α : Type} (root : Nat) (world : List (List α)) : Out (List (List α)) :=
  if sameLength world = true then
    match world[root]? with
    | some b =>
      let count := toInt b.length
      if count < 0 then throwOut else .ok (world.map fun v => b.take count.toNat ++ v.drop count.toNat)
    | none => ubOut
  else ubOut

/-- What `MPI_Reduce` and `MPI_Allreduce` compute: `count` elements. -/
def mpiCombine {α : Type} (op : α → α → α) (world : List (List α)) : Out (List α) :=
  if sameLength world = true then
    match world with
    | [] => ubOut
    | b :: bs =>
      let count := toInt b.length
      if count < 0 then throwOut else .ok ((bs.foldl (List.zipWith op) b).take count.toNat)
  else ubOut

/-- The receive buffer after `w` was written to its beginning, which is undefined behaviour if there is no room for it. -/
def receive {α : Type} (w buffer : List α) : Out (List α) :=
  if w.length ≤ buffer.length then .ok (w ++ buffer.drop w.length) else ubOut

/-- `MPI_Bcast` of one number. -/
def bcastOne {α : Type} (root : Nat) (world : List α) : Out (List α) := do
  let w ← mpiBcast root (world.map fun x => [x])
  return w.flatten

/-- `bcast` of a number, src/MpiYes.h:344-351. -/
def bcast {α : Type} (root : Nat) (world : List α) : Out (List α) := bcastOne root world

/-- `bcast` of a pair, src/MpiYes.h:379-393. -/
def bcastPair {α β : Type} (root : Nat) (world : List (α × β)) : Out (List (α × β)) := do
  let a ← bcastOne root (world.map Prod.fst)
  let b ← bcastOne root (world.map Prod.snd)
  return a.zip b

/-- `bcast` of a vector of numbers, src/MpiYes.h:353-366.  The size is a `SizeType`. -/
def bcastVec {α : Type} [Zero α] (root : Nat) (world : List (List α)) : Out (List (List α)) := do
  let totals ← bcastOne root (world.map List.length)
  mpiBcast root (List.zipWith (fun v total => if total ≠ v.length then resizeL v total 0 else v) world totals)

/-- The numbers of a vector of complex numbers. -/
def flat {α : Type} (v : List (α × α)) : List α := v.flatMap fun x => [x.1, x.2]

/-- The complex numbers of a vector of numbers. -/
def unflat {α : Type} : List α → List (α × α)
  | a :: b :: t => (a, b) :: unflat t
  | _ => []

/-- `bcast` of a vector of complex numbers, src/MpiYes.h:368-377: the size is not sent. -/
def bcastComplex {α : Type} (root : Nat) (world : List (List (α × α))) : Out (List (List (α × α))) := do
  let w ← mpiBcast root (world.map flat)
  return w.map unflat

/-- The new size of the vector of one rank, src/MpiYes.h:335-336; a negative number is too large a size, and
`std::length_error` is thrown. -/
def resizeTo {α : Type} [Zero α] (v : List α) (total : Int) : Out (List α) :=
  if total < 0 then throwOut
  else .ok (if total.toNat ≠ v.length then resizeL v total.toNat 0 else v)

/-- One round of `bcast` of a vector of vectors, src/MpiYes.h:331-341. -/
def bcastRound {α : Type} [Zero α] (root : Nat) (column : List (List α)) : Out (List (List α)) := do
  let totals ← bcastOne root (column.map fun v => toInt v.length)
  let column ← (column.zip totals).mapM fun x => resizeTo x.1 x.2
  mpiBcast root column

/-- `bcast` of a vector of vectors of numbers, src/MpiYes.h:323-342: rounds for `i = 0`, `1`, ... below the size that each
rank has.  If the sizes are not the same then some ranks call `MPI_Bcast` and others do not. -/
def bcastNested {α : Type} [Zero α] (root : Nat) (world : List (List (List α))) : Out (List (List (List α))) :=
  match world with
  | [] => ubOut
  | b :: bs =>
    if sameLength (b :: bs) = true then
      (List.range b.length).foldlM (fun (w : List (List (List α))) i => do
        let column ← bcastRound root (w.map fun v => v.getD i [])
        return List.zipWith (fun v x => v.set i x) w column) (b :: bs)
    else ubOut

/-- `reduce` of a vector of numbers, src/MpiYes.h:406-421, with a communicator that is not null. -/
def reduce {α : Type} [Zero α] (op : α → α → α) (root : Nat) (world : List (List α)) : Out (List (List α)) := do
  let w ← mpiCombine op world
  match world[root]? with
  | some v => do
    let x ← receive w (List.replicate v.length 0)
    return world.set root x
  | none => ubOut

/-- `reduce` of a vector of complex numbers, src/MpiYes.h:423-438. -/
def reduceComplex {α : Type} [Zero α] (op : α → α → α) (root : Nat) (world : List (List (α × α))) : Out (List (List (α × α))) := do
  let w ← mpiCombine op (world.map flat)
  match world[root]? with
  | some v => do
    let x ← receive w (List.replicate (2 * v.length) 0)
    return world.set root (unflat x)
  | none => ubOut

/-- `allReduce` of a vector of numbers, src/MpiYes.h:440-451. -/
def allReduce {α : Type} (op : α → α → α) (world : List (List α)) : Out (List (List α)) := do
  let w ← mpiCombine op world
  world.mapM fun v => receive w v

/-- `allReduce` of a vector of complex numbers, src/MpiYes.h:453-464. -/
def allReduceComplex {α : Type} (op : α → α → α) (world : List (List (α × α))) : Out (List (List (α × α))) := do
  let w ← mpiCombine op (world.map flat)
  world.mapM fun v => do
    let x ← receive w (flat v)
    return unflat x

/-- `allReduce` of a number with the given number of bits, src/MpiYes.h:466-475: the result is written into an `int`, which
has 32 bits.  (There are no numbers with fewer bits.) -/
def allReduceOne {w : Nat} (op : BitVec w → BitVec w → BitVec w) (world : List (BitVec w)) : Out (List (BitVec w)) := do
  let r ← mpiCombine op (world.map fun x => [x])
  if w > 32 then ubOut
  else
    match r with
    | [x] => return world.map fun _ => x
    | _ => ubOut

/-- The operations. -/
inductive Op where
  | sum
  | prod
  | max
  deriving DecidableEq

/-- The operations on `MPI_LONG` and `MPI_INTEGER`, which are signed, and which stand for unsigned numbers as well,
src/MpiYes.cpp:86-96. -/
def Op.signed {w : Nat} : Op → BitVec w → BitVec w → BitVec w
  | .sum, x, y => x + y
  | .prod, x, y => x * y
  | .max, x, y => if x.slt y then y else x

end Verif.Collective
