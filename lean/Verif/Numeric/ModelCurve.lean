import Verif.Util.Loop
import Mathlib.Analysis.Real.Pi.Bounds

/-!
# Model of the curve that examples/fit.cpp fits, of its derivatives and of the sum of squares
-/

namespace Verif.Numeric

open Verif.Loop

noncomputable section

/-- What `FitData` has, examples/fit.cpp:158-163: the energies, and `ekf_` and `anorm_`. -/
structure Curve where
  omegas : List ℝ
  ekf : ℝ
  anorm : ℝ

/-- `finternal`, examples/fit.cpp:110-118. -/
def Curve.value (c : Curve) (omega delta gamma : ℝ) : ℝ :=
  let gaom := gamma * omega
  let num := (omega + c.ekf) * gaom * 2 * c.anorm / Real.pi
  let omega2 := omega * omega
  let phi2 := c.ekf * c.ekf + gamma * gamma + delta * delta
  let den := (omega2 - phi2) * (omega2 - phi2) + 4 * gaom * gaom
  num / den

/-- `dfDelta`, examples/fit.cpp:120-129. -/
def Curve.dDelta (c : Curve) (omega delta gamma : ℝ) : ℝ :=
  let gaom := gamma * omega
  let num := (omega + c.ekf) * gaom * 2 * c.anorm / Real.pi
  let omega2 := omega * omega
  let phi2 := c.ekf * c.ekf + gamma * gamma + delta * delta
  let den := (omega2 - phi2) * (omega2 - phi2) + 4 * gaom * gaom
  let numd := 4 * delta * (phi2 - omega2)
  let minus := -num
  minus * numd / (den * den)

/-- `dfGamma`, examples/fit.cpp:131-140. -/
def Curve.dGamma (c : Curve) (omega delta gamma : ℝ) : ℝ :=
  let gaom := gamma * omega
  let num0 := (omega + c.ekf) * omega * 2 * c.anorm / Real.pi
  let omega2 := omega * omega
  let phi2 := c.ekf * c.ekf + gamma * gamma + delta * delta
  let den := (omega2 - phi2) * (omega2 - phi2) + 4 * gaom * gaom
  let num := -num0 * gamma * (4 * (phi2 - omega2) * gamma + 8 * gamma * omega2)
  num0 / den - num / (den * den)

/-- `MyFunctionTest::operator()`, examples/fit.cpp:184-194: `data` are the values of the file. -/
def Curve.cost (c : Curve) (data : List ℝ) (delta gamma : ℝ) : Option ℝ :=
  loopN c.omegas.length (fun i sum => do
    let w ← c.omegas[i]?
    let y ← data[i]?
    let x := |y - c.value w delta gamma|
    return sum + x * x) 0

/-- `MyFunctionTest::df`, examples/fit.cpp:196-209, with the derivative of the curve for component `j`. -/
def Curve.costDeriv (c : Curve) (data : List ℝ) (delta gamma : ℝ) (d : ℝ → ℝ → ℝ → ℝ) : Option ℝ := do
  let sum ← loopN c.omegas.length (fun i sum => do
    let w ← c.omegas[i]?
    let y ← data[i]?
    return sum + (c.value w delta gamma - y) * d w delta gamma) 0
  return sum * 2

/-- Both components, examples/fit.cpp:196-209, 86-94. -/
def Curve.grad (c : Curve) (data : List ℝ) (delta gamma : ℝ) : Option (ℝ × ℝ) := do
  let a ← c.costDeriv data delta gamma c.dDelta
  let b ← c.costDeriv data delta gamma c.dGamma
  return (a, b)

end

end Verif.Numeric
