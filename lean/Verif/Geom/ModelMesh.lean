import Verif.Geom.ModelInput
import Mathlib.Analysis.SpecialFunctions.Trigonometric.Basic

/-!
# The mesh of momenta (src/Geometry/GeometryEx.h) and sums of momenta of a cluster (src/Geometry/GeometryDca.h)

Real numbers are exact, and so is `sqrt` of an integer.  The variant with `USE_MS_GEOMETRY` calls a library that is not in the
repository and is not modelled.
-/

namespace Verif.Geom

open Verif.InputNg

/-- The members of `GeometryEx`, src/Geometry/GeometryEx.h:123-124. -/
structure Mesh where
  meshLength : Nat
  enabled : Bool
  meshStep : ℝ

/-- The constructor, src/Geometry/GeometryEx.h:24-41. -/
noncomputable def readMesh (r : Readable) (meshPoints : Nat) : Out (Mesh × Readable) :=
  let m := Nat.sqrt meshPoints
  let step : ℝ := if m > 0 then 2 * Real.pi / m else 0
  match readline r "GeometryKind=".toList false with
  | .ok (str, r) => .ok (⟨m, decide (str = "star".toList), step⟩, r)
  | .error .ub => ubOut
  | .error .thrown =>
    match readline r "gt0:GeometryKind=".toList false with
    | .ok (str, r) => .ok (⟨m, decide (str = "star".toList), step⟩, r)
    | .error e => .error e

/-- `int k1 = k;` with an unsigned number of 64 bits. -/
def toInt32 (n : Nat) : Int := (BitVec.ofNat 32 n).toInt

/-- `getMeshVector(kvector, k)`, src/Geometry/GeometryEx.h:105-113, the first two elements of a vector of size `n`; `none` is
undefined behaviour (a failed assertion, a division by zero or an access out of range). -/
noncomputable def Mesh.vector (g : Mesh) (n k : Nat) : Option (ℝ × ℝ) :=
  if g.enabled = false ∨ toInt32 g.meshLength = 0 ∨ n < 2 then none
  else
    let quot := (toInt32 k).tdiv (toInt32 g.meshLength)
    let rem := (toInt32 k).tmod (toInt32 g.meshLength)
    some (-Real.pi + quot * g.meshStep, -Real.pi + rem * g.meshStep)

/-- `sizeOfMesh()`, src/Geometry/GeometryEx.h:115-119. -/
def Mesh.size (g : Mesh) : Option Nat := if g.enabled then some (g.meshLength * g.meshLength % 2 ^ 64) else none

/-- `dimension()`, `nGroupK()` and `ickequ(j, op)`, src/Geometry/GeometryEx.h:70-74 and 92-102. -/
def Mesh.dimension (g : Mesh) : Option Nat := if g.enabled then some 2 else none
/-- See `dimension`. -/
def Mesh.nGroupK (g : Mesh) : Option Nat := if g.enabled then some 1 else none
/-- See `dimension`. -/
def Mesh.ickequ (g : Mesh) (j _op : Nat) : Option Nat := if g.enabled then some j else none

/-- The member that decides in `GeometryDca`, src/Geometry/GeometryDca.h:34-40; `label` is the name of the first term. -/
def dcaEnabled (label : Str) (orbitals : Nat) : Bool := decide (label = "star".toList) && orbitals == 4

/-- `kSum`, src/Geometry/GeometryDca.h:42-47. -/
def kSum (enabled : Bool) (k1 k2 : Nat) : Out Nat := if enabled then .ok (k1 ^^^ k2) else throwOut

/-- `kSustract`, src/Geometry/GeometryDca.h:49-54. -/
def kSustract (enabled : Bool) (k1 k2 : Nat) : Out Nat := if enabled then .ok (k1 ^^^ k2) else throwOut

end Verif.Geom
