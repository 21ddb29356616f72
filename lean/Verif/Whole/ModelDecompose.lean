import Verif.SumDec.Model
import Verif.Host.ModelRunId
import Verif.Util.Out

/-!
# A whole program: examples/sumDecomposition.cpp
-/

namespace Verif.Whole.Decompose

open Verif.SumDec

/-- `atoi` of the C library for one of the two sizes; numbers out of range are undefined behaviour.  Negative ones, with which the
program runs out of memory or of time, are not modelled (also `ub`). -/
def size (s : List Char) : Out Nat :=
  match Host.atoi s with
  | some i => if i < 0 then ubOut else .ok i.toNat
  | none => ubOut

/-- `operator<<` of a vector of numbers, src/Vector.h:436-443. -/
def vecText (v : List Nat) : List Char := Nat.toDigits 10 v.length ++ '\n' :: v.flatMap fun x => Nat.toDigits 10 x ++ ['\n']

/-- `operator<<`, src/SumDecomposition.h:73-80. -/
def text (st : St) : List Char := Nat.toDigits 10 st.stored.length ++ '\n' :: st.stored.flatMap fun v => vecText v ++ ['\n']

/-- What is selected, examples/sumDecomposition.cpp:9-14, by the arguments after the second. -/
def selected : List (List Char) → Out (Sel × Nat)
  | [] => .ok (.all, 0)
  | s :: _ =>
    match Host.atoi s with
    | none => ubOut
    | some i => .ok (if i < 0 then (.size, 0) else (.index, i.toNat))

/-- `main`, examples/sumDecomposition.cpp:3-20: the exit code and what is printed; `args` are the arguments after the name of the
program.  `size_` is an `int` that is counted up by one (src/SumDecomposition.h:54): it overflows if the number does not fit. -/
def program (args : List (List Char)) : Out (Nat × List Char) :=
  match args with
  | t :: s :: more => do
    let total ← size t
    let sum ← size s
    let sel ← selected more
    match ctor total sum sel.1 sel.2 with
    | none => ubOut
    | some st =>
      if 2147483647 < st.size then ubOut
      else return (0, if sel.1 = .size then Nat.toDigits 10 st.size ++ ['\n'] else text st)
  | _ => .ok (1, [])

end Verif.Whole.Decompose
