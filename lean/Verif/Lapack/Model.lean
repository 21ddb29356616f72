import Verif.Dense.Model
import Verif.GemmR.Model
import Verif.Util.Out
import Mathlib.Analysis.RCLike.Basic
import Mathlib.Analysis.Complex.Basic
import Mathlib.Analysis.Complex.Exponential
import Mathlib.Analysis.Complex.Trigonometric
import Mathlib.Analysis.SpecialFunctions.Trigonometric.Basic
import Mathlib.Algebra.Order.Round

/-!
# Model of the functions of matrices that call LAPACK and BLAS, src/Matrix.cpp, src/Matrix.h, src/Svd.h

The routines of LAPACK are parameters: functions from the arguments to what they leave.  What their documentation says
is in `Verif.Lapack.Spec`.  A call with arrays that are too short for its other arguments is undefined.  Numbers are exact
and values of `int` do not overflow.  The overloads in src/LAPACK.h:115-350 pass their arguments on in the same order.
-/

namespace Verif.Lapack

open Verif.Loop Verif.Dense

noncomputable section

/-- `static_cast<int>` of a real number. -/
def toInt (x : ℝ) : Int := if 0 ≤ x then ⌊x⌋ else ⌈x⌉

variable {𝕜 : Type} [RCLike 𝕜]

/-! ## Eigenvalues -/

/-- What a call of `dsyev_` or `zheev_` leaves. -/
structure HeevRes (𝕜 : Type) where
  a : List 𝕜
  w : List ℝ
  work0 : ℝ
  info : Int

/-- The routine: `jobz`, `uplo`, `n`, `a`, `lda`, `w`, `lwork`. -/
abbrev Heev (𝕜 : Type) := Char → Char → Int → List 𝕜 → Int → List ℝ → Int → HeevRes 𝕜

/-- The least `lwork`: `3 n - 1` for real matrices, `2 n - 1` for complex ones. -/
def minWork (isReal : Bool) (n : Int) : Int := max 1 (if isReal then 3 * n - 1 else 2 * n - 1)

/-- The arguments that the routine accepts. -/
def heevLegal (isReal : Bool) (jobz uplo : Char) (n lda lwork : Int) : Prop :=
  jobz ∈ ['N', 'V', 'n', 'v'] ∧ uplo ∈ ['U', 'L', 'u', 'l'] ∧ 0 ≤ n ∧ max 1 n ≤ lda ∧
    (lwork = -1 ∨ minWork isReal n ≤ lwork)

/-- The arrays are long enough: element `(n - 1, n - 1)` of `a`, `n` numbers in `w`, `lwork` (or 1) in `work`, and
`3 n - 2` in `rwork` of the complex routine. -/
def heevRoom (isReal : Bool) (n : Int) (a : List 𝕜) (lda : Int) (w : List ℝ) (lwork : Int) (work rwork : Nat) : Prop :=
  (0 < n → (n - 1) + (n - 1) * lda < a.length) ∧ n ≤ w.length ∧ (if lwork = -1 then 1 else lwork) ≤ work ∧
    (isReal = false → max 1 (3 * n - 2) ≤ rwork)

open Classical in
/-- A call with arrays of these lengths. -/
def heevCall (f : Heev 𝕜) (isReal : Bool) (jobz uplo : Char) (n : Int) (a : List 𝕜) (lda : Int) (w : List ℝ)
    (lwork : Int) (work rwork : Nat) : Out (HeevRes 𝕜) :=
  if heevLegal isReal jobz uplo n lda lwork ∧ ¬ heevRoom isReal n a lda w lwork work rwork then ubOut
  else .ok (f jobz uplo n a lda w lwork)

/-- `diag(m, eigs, option)`, src/Matrix.cpp:15-50, 52-85, 87-123 and 125-158; the versions for real matrices test
`lda`. -/
def diag (f : Heev 𝕜) (isReal : Bool) (m : Mat 𝕜) (eigs : List ℝ) (option : Char) : Out (Mat 𝕜 × List ℝ) := do
  let n : Int := m.nrow
  let lda : Int := m.ncol
  if isReal ∧ lda ≤ 0 then throwOut
  else do
    let eigs := resizeL eigs m.nrow 0
    if (m.get 0 0).isNone ∨ eigs.length = 0 then ubOut
    else do
      let q ← heevCall f isReal option 'U' n m.data lda eigs (-1) 3 (3 * m.nrow)
      if q.info ≠ 0 then throwOut
      else do
        let lwork := max (1 + toInt q.work0) ((256 + 2) * n)
        let r ← heevCall f isReal option 'U' n q.a lda q.w lwork lwork.toNat (3 * m.nrow)
        if r.info ≠ 0 then throwOut
        else return (⟨m.nrow, m.ncol, r.a⟩, r.w)

/-- `ub` for a failed access. -/
def acc {α : Type} : Option α → Out α
  | some a => .ok a
  | none => ubOut

/-- The loops of `exp` and `expIpi`, src/Matrix.h:1018-1028 and 1088-1098: `e` is the function of an eigenvalue. -/
def funcLoop (e : ℝ → 𝕜) (v : Mat 𝕜) (eigs : List ℝ) (n : Nat) : Option (Mat 𝕜) :=
  loopN n (fun i r => loopN n (fun j r => do
    let sum ← loopN n (fun k sum => do
      let alpha ← eigs[k]?
      let x ← v.get i k
      let y ← v.get j k
      return sum + star x * y * e alpha) 0
    r.set i j sum) r) (Mat.mk0 n n)

/-- `exp(m)`, src/Matrix.h:1011-1031; `e` is `expComplexOrReal`. -/
def expMat (f : Heev 𝕜) (isReal : Bool) (e : ℝ → 𝕜) (m : Mat 𝕜) : Out (Mat 𝕜) := do
  let (v, eigs) ← diag f isReal m (List.replicate m.nrow 0) 'V'
  acc (funcLoop e v eigs m.nrow)

/-- `expComplexOrReal` for real numbers, src/Matrix.h:37-41. -/
def expReal (y : ℝ) : ℝ := Real.exp y

/-- `expComplexOrReal` for complex numbers, src/Matrix.h:43-47. -/
def expComplex (y : ℝ) : ℂ := ⟨Real.cos y, Real.sin y⟩

/-- `expIpi(A)` for complex matrices, src/Matrix.h:1075-1101.  The factors of a product are written in another order. -/
def expIpi (f : Heev ℂ) (m : Mat ℂ) : Out (Mat ℂ) := do
  if m.nrow ≠ m.ncol then throwOut
  else do
    let (v, eigs) ← diag f false m (List.replicate m.nrow 0) 'V'
    acc (funcLoop (fun y => ⟨Real.cos (y * Real.pi), Real.sin (y * Real.pi)⟩) v eigs m.nrow)

/-! ## Inverse -/

/-- What `getrf` leaves: the factors, the pivots and `info`. -/
structure GetrfRes (𝕜 : Type) where
  a : List 𝕜
  ipiv : List Int
  info : Int

/-- What `getri` leaves. -/
structure GetriRes (𝕜 : Type) where
  a : List 𝕜
  work0 : ℝ
  info : Int

/-- The two routines: `m`, `n`, `a`, `lda`, `ipiv`, and `n`, `a`, `lda`, `ipiv`, `lwork`. -/
structure Getr (𝕜 : Type) where
  trf : Int → Int → List 𝕜 → Int → List Int → GetrfRes 𝕜
  tri : Int → List 𝕜 → Int → List Int → Int → GetriRes 𝕜

/-- A matrix of `m` rows and `n` columns is in the array. -/
def roomFor (a : List 𝕜) (m n lda : Int) : Prop := 0 < m → 0 < n → (m - 1) + (n - 1) * lda < a.length

open Classical in
/-- A call of `getrf`. -/
def trfCall (g : Getr 𝕜) (m n : Int) (a : List 𝕜) (lda : Int) (ipiv : List Int) : Out (GetrfRes 𝕜) :=
  if (0 ≤ m ∧ 0 ≤ n ∧ max 1 m ≤ lda) ∧ ¬ (roomFor a m n lda ∧ min m n ≤ ipiv.length) then ubOut
  else .ok (g.trf m n a lda ipiv)

open Classical in
/-- A call of `getri`, with `work` numbers in the array for work. -/
def triCall (g : Getr 𝕜) (n : Int) (a : List 𝕜) (lda : Int) (ipiv : List Int) (lwork : Int) (work : Nat) :
    Out (GetriRes 𝕜) :=
  if (0 ≤ n ∧ max 1 n ≤ lda ∧ (lwork = -1 ∨ max 1 n ≤ lwork)) ∧
      ¬ (roomFor a n n lda ∧ n ≤ ipiv.length ∧ (if lwork = -1 then 1 else lwork) ≤ work) then ubOut
  else .ok (g.tri n a lda ipiv lwork)

/-- `inverse(m)`, src/Matrix.h:601-622 and 624-645. -/
def inverse (g : Getr 𝕜) (m : Mat 𝕜) : Out (Mat 𝕜) := do
  let n : Int := m.nrow
  let ipiv : List Int := List.replicate m.nrow 0
  if (m.get 0 0).isNone ∨ ipiv.length = 0 then ubOut
  else do
    let t ← trfCall g n n m.data n ipiv
    let q ← triCall g n t.a n t.ipiv (-1) 2
    let lwork := toInt q.work0
    let r ← triCall g n q.a n t.ipiv lwork (lwork + 2).toNat
    if r.info ≠ 0 then throwOut
    else return ⟨m.nrow, m.ncol, r.a⟩

/-! ## Singular values -/

/-- What `gesdd` and `gesvd` leave. -/
structure SvdRes (𝕜 : Type) where
  a : List 𝕜
  s : List ℝ
  u : List 𝕜
  vt : List 𝕜
  work0 : ℝ
  info : Int

/-- Arguments: `jobz`, `m`, `n`, `a`, `lda`, `s`, `u`, `ldu`, `vt`, `ldvt`, `lwork`. -/
abbrev SvdRoutine (𝕜 : Type) := Char → Int → Int → List 𝕜 → Int → List ℝ → List 𝕜 → Int → List 𝕜 → Int → Int → SvdRes 𝕜

/-- The arguments that the routines accept, for `jobz` equal to `A` or `S`; `lwork` is not less than `least`. -/
def svdLegal (least : Int → Int → Int) (jobz : Char) (m n lda ldu ldvt lwork : Int) : Prop :=
  jobz ∈ ['A', 'S'] ∧ 0 ≤ m ∧ 0 ≤ n ∧ max 1 m ≤ lda ∧ max 1 m ≤ ldu ∧
    max 1 (if jobz = 'A' then n else min m n) ≤ ldvt ∧ (lwork = -1 ∨ least m n ≤ lwork)

/-- The arrays are long enough. -/
def svdRoom (jobz : Char) (m n : Int) (a : List 𝕜) (lda : Int) (s : List ℝ) (u : List 𝕜) (ldu : Int) (vt : List 𝕜)
    (ldvt lwork : Int) (work rwork iwork : Nat) : Prop :=
  roomFor a m n lda ∧ min m n ≤ s.length ∧ roomFor u m (if jobz = 'A' then m else min m n) ldu ∧
    roomFor vt (if jobz = 'A' then n else min m n) n ldvt ∧ (if lwork = -1 then 1 else lwork) ≤ work ∧
    max (5 * min m n * min m n + 5 * min m n) (2 * max m n * min m n + 2 * min m n * min m n + min m n) ≤ rwork ∧
    8 * min m n ≤ iwork

open Classical in
/-- A call. -/
def svdCall (f : SvdRoutine 𝕜) (least : Int → Int → Int) (jobz : Char) (m n : Int) (a : List 𝕜) (lda : Int) (s : List ℝ)
    (u : List 𝕜) (ldu : Int) (vt : List 𝕜) (ldvt lwork : Int) (work rwork iwork : Nat) : Out (SvdRes 𝕜) :=
  if svdLegal least jobz m n lda ldu ldvt lwork ∧ ¬ svdRoom jobz m n a lda s u ldu vt ldvt lwork work rwork iwork then ubOut
  else .ok (f jobz m n a lda s u ldu vt ldvt lwork)

/-- `Svd::operator()`, src/Svd.h:26-80, with the routine of the name given to the constructor.  `info > 0` gives only a
message. -/
def svd (f : SvdRoutine 𝕜) (least : Int → Int → Int) (jobz : Char) (a : Mat 𝕜) (s : List ℝ) (vt : Mat 𝕜) :
    Out (Mat 𝕜 × List ℝ × Mat 𝕜) := do
  if jobz ≠ 'A' ∧ jobz ≠ 'S' then throwOut
  else do
    let m := a.nrow
    let n := a.ncol
    let mn := if m < n then m else n
    let s := resizeL s mn 0
    let ucol := if jobz = 'A' then m else mn
    let u : Mat 𝕜 := Mat.mk0 m ucol
    let ldvt := if jobz = 'A' then n else mn
    let vt ← ofThrow (vt.resize ldvt n)
    let lrwork := 2 * mn * max (5 * mn + 7) (2 * max m n + 2 * mn + 1)
    if (a.get 0 0).isNone ∨ s.length = 0 ∨ (u.get 0 0).isNone ∨ (vt.get 0 0).isNone then ubOut
    else do
      let q ← svdCall f least jobz m n a.data m s u.data m vt.data ldvt (-1) 100 lrwork (8 * mn)
      if q.info ≠ 0 then throwOut
      else do
        let lwork := toInt q.work0 + (m + n) * 256
        let r ← svdCall f least jobz m n q.a m q.s q.u m q.vt ldvt lwork (lwork + 10).toNat lrwork (8 * mn)
        if r.info < 0 then throwOut
        else return (⟨m, ucol, r.u⟩, r.s, ⟨ldvt, n, r.vt⟩)

end

/-! ## Rotation -/

section

variable {R : Type} [CommRing R] [StarRing R]

/-- `psimag::BLAS::GEMM` with matrices that begin at their first elements. -/
def gemm (g : GemmR.Args R) (C : List R) : Out (List R) := do
  let l ← GemmR.blasSteps g g.m g.n 0 0 0
  GemmR.runSteps g C l

/-- `rotate(m, transform)`, src/Matrix.h:891-903. -/
def rotate (m t : Mat R) : Out (Mat R) := do
  let c : Mat R := Mat.mk0 t.ncol m.ncol
  if (t.get 0 0).isNone ∨ (m.get 0 0).isNone ∨ (c.get 0 0).isNone then ubOut
  else do
    let cd ← gemm ⟨'C', 'N', t.ncol, m.ncol, m.nrow, 1, t.data, t.nrow, m.data, m.nrow, 0, c.nrow⟩ c.data
    let r : Mat R := Mat.mk0 c.nrow t.ncol
    if (r.get 0 0).isNone then ubOut
    else do
      let rd ← gemm ⟨'N', 'N', c.nrow, t.ncol, t.nrow, 1, cd, c.nrow, t.data, t.nrow, 0, r.nrow⟩ r.data
      return ⟨r.nrow, r.ncol, rd⟩

end

end Verif.Lapack
