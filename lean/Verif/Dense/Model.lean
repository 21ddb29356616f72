import Verif.Util.Loop

/-!
# Model of the dense matrix class, src/Matrix.h

Elements are taken from an abstract ring (no rounding).  `none` is a failed `assert` /
out-of-range access, or (where said so) a `RuntimeError`.
LAPACK/BLAS based functions (`diag`, `svd`, `inverse`, `rotate`, `exp`) are in `Verif.Lapack`; `geev` is not modelled.
-/

namespace Verif.Dense

open Verif.Loop

variable {α : Type}

/-- `class Matrix`, src/Matrix.h:585-587: `data_` is column major. -/
structure Mat (α : Type) where
  nrow : Nat
  ncol : Nat
  data : List α
  deriving DecidableEq

/-- `Matrix(nrow, ncol)`, src/Matrix.h:64-69 (elements value-initialised to zero). -/
def Mat.mk0 [Zero α] (nrow ncol : Nat) : Mat α := ⟨nrow, ncol, List.replicate (nrow * ncol) 0⟩

/-- `Matrix(nrow, ncol, value)`, src/Matrix.h:71-76. -/
def Mat.mkVal (nrow ncol : Nat) (value : α) : Mat α :=
  ⟨nrow, ncol, List.replicate (nrow * ncol) value⟩

/-- `Matrix(data, nrow, ncol)`, src/Matrix.h:78-87 (`none`: RuntimeError). -/
def Mat.ofData (data : List α) (nrow ncol : Nat) : Option (Mat α) :=
  if data.length < nrow * ncol then none else some ⟨nrow, ncol, data.take (nrow * ncol)⟩

/-- `operator()(i, j)` for reading, src/Matrix.h:266-271. -/
def Mat.get (m : Mat α) (i j : Nat) : Option α :=
  if i < m.nrow ∧ j < m.ncol then m.data[i + j * m.nrow]? else none

/-- `operator()(i, j) = a`, src/Matrix.h:273-278. -/
def Mat.set (m : Mat α) (i j : Nat) (a : α) : Option (Mat α) :=
  if i < m.nrow ∧ j < m.ncol then (setAt m.data (i + j * m.nrow) a).map fun d => { m with data := d }
  else none

/-- `operator()(i, j) += a`. -/
def Mat.addTo [Add α] (m : Mat α) (i j : Nat) (a : α) : Option (Mat α) := do
  let x ← m.get i j
  m.set i j (x + a)

/-- `resize(nrow, ncol, val)`, src/Matrix.h:285-290: old contents are kept by position in
`data_`. -/
def Mat.resizeVal (m : Mat α) (nrow ncol : Nat) (val : α) : Mat α :=
  ⟨nrow, ncol, resizeL m.data (nrow * ncol) val⟩

/-- `resize(nrow, ncol)`, src/Matrix.h:292-301 (`none`: RuntimeError). -/
def Mat.resize [Zero α] (m : Mat α) (nrow ncol : Nat) : Option (Mat α) :=
  if m.nrow > 0 ∧ m.nrow ≠ nrow then none
  else some ⟨nrow, ncol, resizeL m.data (nrow * ncol) 0⟩

/-- `conjugate()`, src/Matrix.h:228-233. -/
def Mat.conjugate [Star α] (m : Mat α) : Mat α := { m with data := m.data.map star }

/-- `nonZeros()`, src/Matrix.h:235-246. -/
def Mat.nonZeros [Zero α] [DecidableEq α] (m : Mat α) : Option Nat :=
  loopN (m.nrow * m.ncol) (fun i count => do
    let x ← m.data[i]?
    if x ≠ 0 then some (count + 1) else some count) 0

/-- `operator+=(other)`, src/Matrix.h:303-310 (over the shorter of the two arrays). -/
def Mat.addAssign [Add α] (m other : Mat α) : Option (Mat α) :=
  if m.data.length ≠ m.ncol * m.nrow then none
  else (loopN (min m.data.length other.data.length) (fun i d => do
    let y ← other.data[i]?
    updAt d i (· + y)) m.data).map fun d => { m with data := d }

/-- `operator-=(other)`, src/Matrix.h:312-318. -/
def Mat.subAssign [Sub α] (m other : Mat α) : Option (Mat α) :=
  (loopN (m.ncol * m.nrow) (fun i d => do
    let y ← other.data[i]?
    updAt d i (· - y)) m.data).map fun d => { m with data := d }

/-- `operator*=(value)`, src/Matrix.h:320-325. -/
def Mat.mulAssign [Mul α] (m : Mat α) (value : α) : Option (Mat α) :=
  (loopN (m.ncol * m.nrow) (fun i d => updAt d i (· * value)) m.data).map
    fun d => { m with data := d }

/-- `setTo(val)`, src/Matrix.h:352-356. -/
def Mat.setTo (m : Mat α) (val : α) : Mat α := { m with data := m.data.map fun _ => val }

/-- `setToIdentity()`, src/Matrix.h:358-369 (`none`: RuntimeError or bad index). -/
def Mat.setToIdentity [Zero α] [One α] (m : Mat α) : Option (Mat α) :=
  if m.nrow ≠ m.ncol then none
  else loopN m.nrow (fun i a => a.set i i 1) (m.setTo 0)

/-- `this = t1 * m` (closure), src/Matrix.h:426-436, 438-448; `v <= t1*w` on vectors is the
element-wise assignment `v[i] = t1*w[i]` after a resize (src/Vector.h:165-190). -/
def scale [Mul α] (t1 : α) (m : Mat α) : Mat α := ⟨m.nrow, m.ncol, m.data.map fun x => t1 * x⟩

/-- `this = a + b` (closure), src/Matrix.h:485-496; `v <= x + y` on vectors of the same size. -/
def add [Add α] (a b : Mat α) : Option (Mat α) :=
  if a.nrow ≠ b.nrow ∨ a.ncol ≠ b.ncol ∨ a.data.length ≠ b.data.length then none
  else some ⟨a.nrow, a.ncol, List.zipWith (· + ·) a.data b.data⟩

/-- `this = a - b` (closure), src/Matrix.h:498-509. -/
def sub [Sub α] (a b : Mat α) : Option (Mat α) :=
  if a.nrow ≠ b.nrow ∨ a.ncol ≠ b.ncol ∨ a.data.length ≠ b.data.length then none
  else some ⟨a.nrow, a.ncol, List.zipWith (· - ·) a.data b.data⟩

/-- The inner loop `sum += a(i,k)*b(k,j)` of `matrixMatrix`, src/Matrix.h:573-576. -/
def dotRowCol [Add α] [Mul α] [Zero α] (a b : Mat α) (i j : Nat) : Option α :=
  loopN a.ncol (fun k s => (do
    let x ← a.get i k
    let y ← b.get k j
    some (x * y) : Option α).map fun v => s + v) 0

/-- `matrixMatrix(a, b, t1)`, src/Matrix.h:566-583: `t1 * a * b`. -/
def matrixMatrix [Add α] [Mul α] [Zero α] (a b : Mat α) (t1 : α) : Option (Mat α) :=
  if a.ncol ≠ b.nrow then none
  else loopN a.nrow (fun i m => loopN b.ncol (fun j m => do
    let sum ← dotRowCol a b i j
    m.set i j (sum * t1)) m) (Mat.mk0 a.nrow b.ncol)

/-- `v <= a * b` (matrix times vector), src/Matrix.h:931-945. -/
def mulVec [Add α] [Mul α] [Zero α] (a : Mat α) (b : List α) : Option (List α) :=
  if a.ncol ≠ b.length then none
  else loopN a.nrow (fun i v => do
    let sum ← loopN b.length (fun j s => (do
      let x ← a.get i j
      let y ← b[j]?
      some (x * y) : Option α).map fun w => s + w) 0
    setAt v i sum) (List.replicate a.nrow 0)

/-- `v <= b * a` (vector times matrix), src/Matrix.h:947-961. -/
def vecMul [Add α] [Mul α] [Zero α] (b : List α) (a : Mat α) : Option (List α) :=
  if a.nrow ≠ b.length then none
  else loopN a.ncol (fun i v => do
    let sum ← loopN b.length (fun j s => (do
      let y ← b[j]?
      let x ← a.get j i
      some (y * x) : Option α).map fun w => s + w) 0
    setAt v i sum) (List.replicate a.ncol 0)

/-- `multiplyTransposeConjugate(O1, O2, modifier)`, src/Matrix.h:964-981; all three loops
run to `O1.rows()`.  `conj` is the conjugation for modifier `'C'` and the identity otherwise. -/
def multiplyTransposeConjugate [Add α] [Mul α] [Zero α] (O1 O2 : Mat α) (conj : α → α) :
    Option (Mat α) :=
  loopN O1.nrow (fun s m => loopN O1.nrow (fun t m => loopN O1.nrow (fun w m => do
    let x ← O1.get w s
    let y ← O2.get w t
    m.addTo s t (conj x * y)) m) m) (Mat.mk0 O1.nrow O1.nrow)

/-- Loops of the transposition functions: `m2(i,j) = f(m(j,i))` for all `i, j` of `m2`. -/
def transposeLoop (f : α → α) (m2 m : Mat α) : Option (Mat α) :=
  loopN m2.nrow (fun i r => loopN m2.ncol (fun j r => do
    let x ← m.get j i
    r.set i j (f x)) r) m2

/-- `transposeConjugate(m2, m)`, src/Matrix.h:983-990 (`none` also if `resize` throws). -/
def transposeConjugateInto [Star α] [Zero α] (m2 m : Mat α) : Option (Mat α) := do
  let r ← m2.resize m.ncol m.nrow
  transposeLoop star r m

/-- `transpose(m2, m)`, src/Matrix.h:992-999. -/
def transposeInto [Zero α] (m2 m : Mat α) : Option (Mat α) := do
  let r ← m2.resize m.ncol m.nrow
  transposeLoop id r m

/-- `transposeConjugate(A)`, src/Matrix.h:1001-1009. -/
def transposeConjugate [Star α] [Zero α] (a : Mat α) : Option (Mat α) :=
  transposeLoop star (Mat.mk0 a.ncol a.nrow) a

/-- `norm2(m)` for real elements, src/Matrix.h:1033-1041. -/
def norm2 [Add α] [Mul α] [Zero α] (m : Mat α) : Option α :=
  loopN m.nrow (fun i s => loopN m.ncol (fun j s => do
    let x ← m.get i j
    some (s + x * x)) s) 0

/-- `outerProduct(A, B, C)`, src/Matrix.h:1059-1072. -/
def outerProduct [Mul α] [Zero α] (a b c : Mat α) : Option (Mat α) := do
  let r ← a.resize (b.nrow * c.nrow) (b.ncol * c.ncol)
  loopN b.nrow (fun i1 r => loopN b.ncol (fun j1 r => loopN c.nrow (fun i2 r =>
    loopN c.ncol (fun j2 r => do
      let x ← b.get i1 j1
      let y ← c.get i2 j2
      r.set (i1 + i2 * b.nrow) (j1 + j2 * b.ncol) (x * y)) r) r) r) r

/-- Output of `operator<<`, src/Matrix.h:663-674, as the list of tokens (numbers separated by
blanks): the two dimensions, then the elements row by row. -/
def printTokens (m : Mat α) : Option (Nat × Nat × List α) :=
  (loopN m.nrow (fun i acc => loopN m.ncol (fun j acc => do
    let x ← m.get i j
    some (acc ++ [x])) acc) []).map fun l => (m.nrow, m.ncol, l)

/-- `is >> A(j, i)`, src/Matrix.h:787. -/
def readStep (j i : Nat) (s : Mat α × List α) : Option (Mat α × List α) :=
  match s.2 with
  | [] => none
  | t :: ts => (s.1.set j i t).map fun m => (m, ts)

/-- `operator>>`, src/Matrix.h:778-798, on such tokens; `a` is the matrix read into.
`none`: the resize throws, or the stream ends too early (then the C++ leaves elements
unchanged and sets the fail bit). -/
def readTokens [Zero α] (a : Mat α) (nrow ncol : Nat) (toks : List α) : Option (Mat α) := do
  let a ← a.resize nrow ncol
  let r ← loopN a.nrow (fun j s => loopN a.ncol (fun i s => readStep j i s) s) (a, toks)
  some r.1

/-- `isHermitian(A)`, src/Matrix.h:800-821, with `nrm` the function `PsimagLite::norm`
(absolute value for reals, squared modulus for complex numbers, src/Complex.h:102-113) and
tolerance `eps` (`1e-6` in the code).  `none`: non-square (RuntimeError). -/
def isHermitian [Sub α] [Star α] {R : Type} [LT R] [DecidableLT R] (nrm : α → R) (eps : R)
    (m : Mat α) : Option Bool :=
  if m.nrow ≠ m.ncol then none
  else loopN m.nrow (fun i b => loopN m.nrow (fun j b => do
    let x ← m.get i j
    let y ← m.get j i
    if b = false then some false  -- already returned
    else some (!decide (nrm (x - star y) > eps))) b) true

/-- `isAntiHermitian(A)`, src/Matrix.h:823-847. -/
def isAntiHermitian [Add α] [Star α] {R : Type} [LT R] [DecidableLT R] (nrm : α → R) (eps : R)
    (m : Mat α) : Option Bool :=
  if m.nrow ≠ m.ncol then none
  else loopN m.nrow (fun i b => loopN m.nrow (fun j b => do
    let x ← m.get i j
    let y ← m.get j i
    if b = false then some false
    else some (!decide (nrm (x + star y) > eps))) b) true

/-- `isTheIdentity(a)`, src/Matrix.h:849-868: first the off-diagonal elements, then the
diagonal ones; `none` when `a(i,i)` is out of range (more rows than columns). -/
def isTheIdentity [Sub α] [One α] {R : Type} [LT R] [DecidableLT R] (nrm : α → R) (eps : R)
    (m : Mat α) : Option Bool := do
  let b ← loopN m.nrow (fun i b => loopN m.ncol (fun j b => do
    let x ← m.get i j
    if b = false then some false
    else some (!decide (i ≠ j ∧ nrm x > eps))) b) true
  if b = false then some false
  else loopN m.nrow (fun i b =>
    if b = false then some false
    else (m.get i i).map fun x => !decide (nrm (x - 1) > eps)) true

/-- `isZero(m)`, src/Matrix.h:870-889. -/
def isZero {R : Type} [LT R] [DecidableLT R] [Zero R] (nrm : α → R) (m : Mat α) : Option Bool :=
  loopN m.nrow (fun i b => loopN m.ncol (fun j b => do
    let x ← m.get i j
    if b = false then some false
    else some (!decide (nrm x > 0))) b) true

end Verif.Dense
