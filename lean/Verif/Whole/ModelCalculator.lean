import Verif.Ast.Model
import Verif.StrUtil.Model
import Verif.Cmplx.Model
import Mathlib.Data.Rat.Floor

/-!
# A whole program: examples/calculator.cpp

It prints the value of an expression written level by level, with its tokens separated by colons, at time 0.25.
-/

namespace Verif.Whole.Calculator

open Verif.Ast

/-- Arithmetic for `double`, without rounding: src/AST/Node.h:64-151, src/AST/AdditionalFunctions.h:24-151 (`norm` is `fabs`,
src/Complex.h:102-106) and src/AST/PlusMinusMultiplyDivide.h:120-127.  The functions of the C library are given, and the
conversion to an integer of numbers out of its range is not modelled. -/
def realOps (sin cos log exp : ℚ → ℚ) : Ops ℚ where
  add := (· + ·)
  sub := (· - ·)
  mul := (· * ·)
  div := (· / ·)
  tiny y := decide (y * y < 1 / 1000000)
  toNat x := ⌊|x|⌋₊
  ofNat n := n
  sin := sin
  cos := cos
  log := log
  exp := exp
  parse c := (Cmplx.astReal c.toList).toOption

/-- `main`, examples/calculator.cpp:12-28: what is printed, or nothing with status one (`some none`); `none` if an exception is
thrown or an assertion fails. -/
def program {V : Type} (o : Ops V) (pr : V → List Char) (args : List (List Char)) : Option (Option (List Char)) :=
  match args with
  | [] => some none
  | a :: _ => do
    let str ← StrUtil.replaceAll a "%t".toList "0.25".toList
    let ve ← StrUtil.split [] str ":".toList
    let v ← run o (ve.map String.ofList)
    return some (a ++ "\t".toList ++ pr v ++ "\n".toList)

end Verif.Whole.Calculator
