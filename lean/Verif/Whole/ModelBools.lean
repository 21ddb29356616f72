import Verif.IoNg.Spec
import Verif.Random.Model48
import Verif.Whole.ModelRange

/-!
# Whole programs that store vectors in HDF5 files and read them back

`examples/testIoNgBoolean.cpp` and `examples/testIoNg.cpp`.  The state of `drand48` at the start is an argument; memory
does not run out.
-/

namespace Verif.Whole.Bools

open Verif.IoNg

abbrev Str := List Char

/-- `createVector`, examples/testIoNgBoolean.cpp:3-8: `n` random truth values and the state of `drand48` after them. -/
def createVector (n x : Nat) : List Bool × Nat :=
  let r := Random.drands n x
  (r.1.map fun y => decide (y < 1 / 2), r.2)

/-- `saveAll`, examples/testIoNgBoolean.cpp:10-15; the destructor of `io` (src/Io/IoNgSerializer.h:77-85) ends it. -/
def saveAll {α : Type} [DecidableEq α] (v1 : List Bool) (name1 : Str) (v2 : List Bool) (name2 : Str) : Out (File α) := do
  let f ← openTrunc
  let f ← writeBools f name1 v1 .no
  let f ← writeBools f name2 v2 .no
  writeCanary f

/-- One turn of the loop of `compare`, examples/testIoNgBoolean.cpp:23-27; an access out of range is undefined
behaviour. -/
def compareAt (v w : List Bool) (s : Str) (i : Nat) : Out Str :=
  match v[i]?, w[i]? with
  | some a, some b => .ok (if a = b then s else s ++ "DIFFER!!!\n".toList)
  | _, _ => ubOut

/-- `compare`, examples/testIoNgBoolean.cpp:17-30: what it prints. -/
def compare (v w : List Bool) : Out Str := do
  let s := if v.length ≠ w.length then "DIFFER on SIZE!!!\n".toList else []
  let s ← (List.range v.length).foldlM (compareAt v w) s
  return s ++ "OK\n".toList

/-- `vector<bool>::max_size` of libstdc++. -/
def maxBools : Nat := 2 ^ 63 - 64

/-- What the program leaves: the status, what is on the error stream and the file. -/
structure Result (α : Type) where
  status : Nat
  err : Str
  file : Option (File α)

/-- `main` of examples/testIoNgBoolean.cpp:31-52; `args` are the arguments after the name of the program and `x` is the
state of `drand48`. -/
def boolean {α : Type} [DecidableEq α] (h : H5 α) (x : Nat) (args : List Str) : Out (Result α) :=
  match args with
  | [] => .ok ⟨1, [], none⟩
  | s :: _ => do
    let n ← Range.number s
    if maxBools < n then throwOut
    else do
      let (v1, x) := createVector n x
      let (v2, _) := createVector n x
      let disk ← saveAll v1 "myv1".toList v2 "myv2".toList
      let io ← openRead h disk
      let w1 ← readBools h io "myv1".toList
      let w2 ← readBools h io "myv2".toList
      let s1 ← compare v1 w1
      let s2 ← compare v2 w2
      return ⟨0, s1 ++ s2, some disk⟩

/-- `operator<<` of a vector, src/Vector.h:436-443; `pr` prints a number. -/
def printVector {α : Type} (pr : α → Str) (v : List α) : Str :=
  Range.digits v.length ++ "\n".toList ++ v.flatMap fun a => pr a ++ "\n".toList

/-- The numbers of a data set of real numbers. -/
def reals {α : Type} : List (Num α) → Out (List α)
  | [] => .ok []
  | .real a :: xs => do
    let r ← reals xs
    return a :: r
  | .int _ :: _ => throwOut

/-- `test1` and `main` of examples/testIoNg.cpp:3-23: what is printed and the file.  `fortyTwo` is the number `42.0`. -/
def hello {α : Type} [DecidableEq α] (h : H5 α) (pr : α → Str) (fortyTwo : α) : Out (Str × File α) := do
  let v := List.replicate 10 fortyTwo
  let f ← openTrunc
  let f := writeVector f "MyVector".toList .real (v.map .real) .no
  let disk ← writeCanary f
  let io ← openRead h disk
  let w ← readVector h io "MyVector".toList .real
  let w ← reals w
  return (printVector pr w, disk)

end Verif.Whole.Bools
