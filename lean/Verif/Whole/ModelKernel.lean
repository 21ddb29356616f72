import Verif.Krylov.ModelCurve
import Verif.Util.Out

/-!
# A whole program: examples/kernelPolynomial.cpp

It is meant to read the moments of a Chebyshev expansion from a file and to print a curve.
-/

namespace Verif.Whole.Kernel

open Verif.Krylov

noncomputable section

/-- What `getopt` leaves, examples/kernelPolynomial.cpp:37-82. -/
structure Options where
  file : List Char
  wbegin : ℝ
  wend : ℝ
  wstep : ℝ
  kernel : Kernel
  cutoff : Nat
  makeZero : Bool

/-- What the file has: `params_`, src/ChebyshevSerializer.h:101, and `tmp`, lines 103-104. -/
structure Data where
  eg : ℝ
  b : ℝ
  oneOverA : ℝ
  moments : List ℝ

/-- One assignment of the loop, src/ChebyshevSerializer.h:106-109: `a(i)` and `b(i)` are asserted to be in range. -/
def assign (tmp : List ℝ) (i : Nat) (ab : List ℝ × List ℝ) : Option (List ℝ × List ℝ) := do
  let x ← tmp[2 * i]?
  let a ← Loop.setAt ab.1 i x
  let y ← tmp[2 * i + 1]?
  let b ← Loop.setAt ab.2 i y
  return (a, b)

/-- The loop of the constructor that reads, src/ChebyshevSerializer.h:99-111; `moments_` is made by the constructor without arguments,
src/TridiagonalMatrix.h:97, and has no elements. -/
def ctor (tmp : List ℝ) : Option (List ℝ × List ℝ) := Loop.loopN (tmp.length / 2) (assign tmp) ([], [])

/-- The lines printed, examples/kernelPolynomial.cpp:101-107. -/
def lines (makeZero : Bool) (v : List (ℝ × ℝ)) : List (ℝ × ℝ) :=
  open Classical in v.map fun p => (p.1, if p.2 < 0 ∧ makeZero then 0 else p.2)

/-- `main` after the options, examples/kernelPolynomial.cpp:83-107: the points printed, or `none` after the message about the usage.
`read` is what reading the file (lines 88-95) gives: its data or an exception. -/
def program (o : Options) (read : Option Data) : Out (Option (List (ℝ × ℝ))) :=
  open Classical in
  if o.file = [] ∨ o.wbegin ≥ o.wend ∨ o.wstep ≤ 0 then .ok none
  else match read with
    | none => throwOut
    | some d =>
      match ctor d.moments with
      | none => ubOut
      | some ab =>
        match plot o.kernel o.cutoff ab.1 ab.2 ⟨o.wbegin, o.wend, o.wstep, d.eg, d.b, d.oneOverA⟩ [] with
        | none => ubOut
        | some v => .ok (some (lines o.makeZero v))

end

end Verif.Whole.Kernel
