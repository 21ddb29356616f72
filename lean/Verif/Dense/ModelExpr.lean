import Verif.Dense.Model
import Verif.Vec.Model

/-!
# Model of expressions with matrices, the closures of src/Matrix.h

Matrices are in a memory, by name: the closures hold references to their operands, and the matrix that is assigned to may be one
of them.  The arrays `data_` are the vectors of `Verif.Vec`, whose operators do the work.  Scalars are references too, and may be
elements of matrices.
-/

namespace Verif.Dense

open Verif.Loop Verif.Vec

variable {R : Type}

/-- The matrices of the program, src/Matrix.h:585-587. -/
structure Mem (R : Type) where
  nrow : Nat → Nat
  ncol : Nat → Nat
  data : Heap R

/-- The matrix `x`. -/
def Mem.mat (m : Mem R) (x : Nat) : Mat R := ⟨m.nrow x, m.ncol x, m.data x⟩

/-- `nrow_ = …; ncol_ = …;` of the matrix `x`. -/
def Mem.shape (m : Mem R) (x r c : Nat) : Mem R :=
  { m with
    nrow := Function.update m.nrow x r
    ncol := Function.update m.ncol x c }

/-- The matrix `x` becomes `a`. -/
def Mem.put (m : Mem R) (x : Nat) (a : Mat R) : Mem R :=
  { m.shape x a.nrow a.ncol with data := Function.update m.data x a.data }

/-- The closures, src/Matrix.h:905-931: products, also with scalars on either side, sums and differences. -/
inductive MExpr (R : Type) where
  | mat (x : Nat)
  | mul (a : Scal R) (e : MExpr R)
  | mulR (e : MExpr R) (a : Scal R)
  | prod (e f : MExpr R)
  | add (e f : MExpr R)
  | sub (e f : MExpr R)

/-- `x = e`: the overloads of `operator=`, src/Matrix.h:426-547, and the constructors from closures, src/Matrix.h:116-141, for which
`x` is a new matrix.  Other expressions do not compile. -/
def Mem.assign [CommRing R] (m : Mem R) (x : Nat) (e : MExpr R) : Option (Mem R) :=
  match e with
  -- the implicit copy
  | .mat y => some (m.put x (m.mat y))
  -- lines 425-435
  | .mul a (.mat y) => do
    let m := m.shape x (m.nrow y) (m.ncol y)
    let d ← Vec.assign m.data x (.mul a (.vec y))
    return { m with data := d }
  -- lines 437-447
  | .mulR (.mat y) a => do
    let m := m.shape x (m.nrow y) (m.ncol y)
    let d ← Vec.assign m.data x (.mul a (.vec y))
    return { m with data := d }
  -- lines 449-457
  | .prod (.mul a (.mat y)) (.mat z) => do
    let t ← a.read m.data
    let p ← matrixMatrix (m.mat y) (m.mat z) t
    return m.put x p
  -- lines 459-469: the second shape is not looked at
  | .mul a (.add (.mat y) (.mat z)) => do
    let m := m.shape x (m.nrow y) (m.ncol y)
    let d ← Vec.assign m.data x (.mul a (.add (.vec y) (.vec z)))
    return { m with data := d }
  -- lines 471-482
  | .mul a (.sub (.mat y) (.mat z)) => do
    let m := m.shape x (m.nrow y) (m.ncol y)
    let d ← Vec.assign m.data x (.mul a (.sub (.vec y) (.vec z)))
    return { m with data := d }
  -- lines 484-495: the assertions are after the change of the shape
  | .add (.mat y) (.mat z) => do
    let m := m.shape x (m.nrow y) (m.ncol y)
    if m.nrow x ≠ m.nrow z ∨ m.ncol x ≠ m.ncol z then none
    else do
      let d ← Vec.assign m.data x (.add (.vec y) (.vec z))
      return { m with data := d }
  -- lines 497-508
  | .sub (.mat y) (.mat z) => do
    let m := m.shape x (m.nrow y) (m.ncol y)
    if m.nrow x ≠ m.nrow z ∨ m.ncol x ≠ m.ncol z then none
    else do
      let d ← Vec.assign m.data x (.sub (.vec y) (.vec z))
      return { m with data := d }
  -- lines 510-522
  | .add (.mat y) (.mul a (.mat z)) => do
    let m := m.shape x (m.nrow y) (m.ncol y)
    if m.nrow x ≠ m.nrow z ∨ m.ncol x ≠ m.ncol z then none
    else do
      let d ← Vec.assign m.data x (.add (.vec y) (.mul a (.vec z)))
      return { m with data := d }
  -- lines 524-536: the operands are exchanged
  | .add (.mul a (.mat y)) (.mat z) => do
    let m := m.shape x (m.nrow z) (m.ncol z)
    if m.nrow x ≠ m.nrow y ∨ m.ncol x ≠ m.ncol y then none
    else do
      let d ← Vec.assign m.data x (.add (.vec z) (.mul a (.vec y)))
      return { m with data := d }
  -- lines 538-547
  | .prod (.mat y) (.mat z) => do
    let p ← matrixMatrix (m.mat y) (m.mat z) 1
    return m.put x p
  | _ => none

/-- How `+=` ends: normally, or with an exception, which leaves the memory as it is then. -/
inductive End (R : Type) where
  | fine (m : Mem R)
  | threw (m : Mem R)

/-- `x += a * y` and `x += y * a`, src/Matrix.h:394-423 and 556-563. -/
def Mem.addMul [CommRing R] (m : Mem R) (x : Nat) (a : Scal R) (y : Nat) : Option (End R) :=
  let m := m.shape x (m.nrow y) (m.ncol y)
  if (m.data x).length > 0 ∧ (m.data y).length ≠ (m.data x).length then some (.threw m)
  else do
    let d := if (m.data x).length = 0 then Function.update m.data x (resizeL (m.data x) (m.data y).length 0) else m.data
    let d ← Vec.addMulAssign d x a y
    return .fine { m with data := d }

/-- `norm2(m)` for complex elements, src/Matrix.h:1043-1051. -/
noncomputable def norm2c (m : Mat ℂ) : Option ℝ :=
  loopN m.nrow (fun i s => loopN m.ncol (fun j s => do
    let x ← m.get i j
    return s + (star x * x).re) s) 0

end Verif.Dense
