import Verif.SolverP.Model
import Verif.Predicate.Model
import Verif.StrUtil.Spec
import Verif.StrUtil.Model
import Verif.Numeric.ModelIntegrator
import Verif.Whole.ModelRange

/-!
# Three whole programs: examples/options.cpp, examples/testPredicate.cpp and examples/integrator.cpp
-/

namespace Verif.Whole.Tools

open Verif.Whole.Range

/-- `main`, examples/options.cpp:4-20: `none` is `return 1`, otherwise what is printed.  `args` are the arguments after the name of the
program. -/
def options (args : List (List Char)) : Out (Option (List Char)) :=
  match args with
  | [] => .ok none
  | a :: _ => do
    let s ← SolverP.readable ["fast".toList, "verbose".toList, "hasthreads".toList] .strict a
    return some ("fast=".toList ++ (if SolverP.isSet s "fast".toList then "1".toList else "0".toList) ++ "\n".toList)

/-- `main`, examples/testPredicate.cpp:4-13: `none` is `return 1`, otherwise what is printed.  Simplified: exceptions and loops that are
not over after `fuel` turns are both `throwOut`; `o` is the arithmetic of expressions and `toSize` the conversion to `SizeType`. -/
def predicate (o : Ast.Ops Int) (toSize : Int → Nat) (fuel : Nat) (args : List (List Char)) : Out (Option (List Char)) :=
  match args with
  | p :: v :: _ =>
    match StrUtil.replaceAll p ['c'] ['5'] with
    | none => throwOut
    | some p =>
      match Predicate.awesomeCtor false p [','] ['&'] with
      | none => throwOut
      | some (terms, _) =>
        match Host.atoi v with
        | none => ubOut
        | some v =>
          match Predicate.awesomeTrue o StrUtil.decimal toSize fuel [(['l'], v)] terms with
          | none => throwOut
          | some t => .ok (some (if t then "1".toList else "0".toList))
  | _ => .ok none

/-- `SquareFunction::function`, examples/integrator.cpp:24-28, with the parameter of examples/integrator.cpp:48. -/
noncomputable def square (p x : ℝ) : ℝ := x * x * p

/-- One turn of the loop, examples/integrator.cpp:51-54: the line that is printed and the error, if there is one. -/
noncomputable def integrateLine (q : Numeric.Quad) (fd : ℝ → List Char) (s : Numeric.Integ) (x0 xstep : ℝ) (i : Nat) :
    Out (List Char × Option Int) := do
  let x := x0 + i * xstep
  let r ← s.between q [0, x] .qag 4
  return (fd x ++ " ".toList ++ fd r.value ++ "\n".toList, r.printed)

/-- `main`, examples/integrator.cpp:37-55: `none` is `return 1`, otherwise the lines and errors.  `atof` is that of the C library, `fd`
how the stream writes a `double`. -/
noncomputable def integrate (q : Numeric.Quad) (hasGsl : Bool) (atof : List Char → ℝ) (fd : ℝ → List Char) (args : List (List Char)) :
    Out (Option (List (List Char × Option Int))) :=
  match args with
  | [a, t, st] => do
    let total ← number t
    let s ← Numeric.Integ.make hasGsl (square 3) (1 / 1000000000) (1 / 1000000000) 1000000
    let l ← (List.range total).mapM (integrateLine q fd s (atof a) (atof st))
    return some l
  | _ => .ok none

end Verif.Whole.Tools
