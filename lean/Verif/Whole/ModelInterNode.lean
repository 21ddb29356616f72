import Verif.Whole.ModelRange
import Verif.Lapack.Model

/-!
# A whole program: examples/internode.cpp

A loop that prints its index, and the same loop shared out among the processes of MPI.  `psiApp` (examples/internode.cpp:6) prints
nothing.
-/

namespace Verif.Whole.InterNode

open Verif.Parallel Verif.Whole.Range

/-- What a process prints to the standard output and to the standard error, and what it returns. -/
structure Result where
  out : List Char
  err : List Char
  code : Nat
  deriving DecidableEq

/-- The indices that `InterNode::parallelFor` calls its function with, src/InterNodeSerial.h:15-20 without MPI, and
src/InterNodeMpi.h:33-41 and 54-67 with MPI in process `rank` of `size`. -/
def parallelFor (mpi : Option (Nat × Nat)) (start stop : Nat) : Out (List Nat) :=
  match mpi with
  | none => .ok ((serialCalls start stop).map Prod.fst)
  | some (size, rank) => Lapack.acc (interNode start stop size rank)

/-- Numbers printed one after the other, examples/internode.cpp:15-17. -/
def printAll (l : List Nat) : List Char := l.foldl (fun os i => os ++ digits i) []

/-- examples/internode.cpp:19 and 25. -/
def line : List Char := "\n--------------------------\n".toList

/-- examples/internode.cpp:26-34; `host` is the name that `gethostname` gives, or `none` if it fails. -/
def printHost (prog : List Char) (host : Option (List Char)) : List Char × List Char :=
  match host with
  | none => ([], prog ++ ": Could not gethostname\n".toList)
  | some name => (name ++ ['\n'], [])

/-- `main`, examples/internode.cpp:4-35; `argv` begins with the name of the program. -/
def main (mpi : Option (Nat × Nat)) (host : Option (List Char)) (argv : List (List Char)) : Out Result :=
  match argv with
  | [] => ubOut
  | [prog] => .ok ⟨[], "USAGE ".toList ++ prog ++ " number\n".toList, 1⟩
  | prog :: a :: _ => do
    let n ← number a
    let mine ← parallelFor mpi 0 n
    let h := printHost prog host
    return ⟨printAll (List.range n) ++ line ++ printAll mine ++ line ++ h.1, h.2, 0⟩

end Verif.Whole.InterNode
