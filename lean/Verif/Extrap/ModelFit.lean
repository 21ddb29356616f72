import Verif.Extrap.Model
import Verif.Lapack.Model
import Mathlib.Data.Complex.Basic
import Mathlib.Analysis.Complex.Norm

/-!
# Model of the coefficients and of the corrected prediction of `LinearPrediction`

The routines of LAPACK, BLAS and GSL are arguments.  Matrices are by columns, as in src/Matrix.h.
-/

namespace Verif.Extrap

open Verif.Loop Verif.Lapack

noncomputable section

/-- `gemv`: `trans`, `m`, `n`, `alpha`, `a`, `lda`, `x`, `incx`, `beta`, `y`, `incy`; what is in `y` afterwards. -/
abbrev Gemv := Char → Int → Int → ℝ → List ℝ → Int → List ℝ → Int → ℝ → List ℝ → Int → List ℝ

/-- A call of `gemv` with increments equal to one. -/
def gemvCall (v : Gemv) (trans : Char) (m n : Int) (alpha : ℝ) (a : List ℝ) (lda : Int) (x : List ℝ) (beta : ℝ) (y : List ℝ) :
    Out (List ℝ) :=
  open Classical in
  if roomFor a m n lda ∧ n ≤ x.length ∧ m ≤ y.length then .ok (v trans m n alpha a lda x 1 beta y 1) else ubOut

/-- The elements of a matrix given by rows, in the order of src/Matrix.h. -/
def byColumns (rows : List (List ℝ)) (p : Nat) : Option (List ℝ) :=
  (List.range (p * p)).mapM fun k => do
    let row ← rows[k % p]?
    row[k / p]?

/-- `computeD`, src/LinearPrediction.h:214-235.  `info` is not looked at. -/
def computeD (g : Getr ℝ) (v : Gemv) (a b : List ℝ) : Out (List ℝ) := do
  let p := b.length
  if p = 0 then ubOut
  else do
    let t ← trfCall g p p a p (List.replicate p 0)
    let q ← triCall g p t.a p t.ipiv (-1) 2
    let lwork := toInt q.work0
    if lwork ≤ 0 then throwOut
    else do
      let r ← triCall g p q.a p t.ipiv lwork lwork.toNat
      gemvCall v 'N' p p 1 r.a p b 0 (List.replicate p 0)

/-- The constructor, src/LinearPrediction.h:104-119: the coefficients. -/
def fit (g : Getr ℝ) (v : Gemv) (y : List ℝ) (p : Nat) : Out (List ℝ) := do
  let (rows, b) ← ctor y p
  match byColumns rows p with
  | none => ubOut
  | some a => computeD g v a b

/-- `linearPredictionfunction(y, p)`, src/LinearPrediction.h:123-137, of an object with data `own`: the coefficients. -/
def refit (g : Getr ℝ) (v : Gemv) (own y : List ℝ) (p : Nat) : Out (List ℝ) :=
  if y.length % 2 = 1 then throwOut
  else
    match computeA own (y.length / 2) p, computeB own (y.length / 2) p with
    | some rows, some b =>
      match byColumns rows p with
      | none => ubOut
      | some a => computeD g v a b
    | _, _ => ubOut

/-- Roots outside of the unit circle become zero, src/LinearPrediction.h:178-184. -/
def cutRoot (r : ℂ) : ℂ := if 1 < ‖r‖ then 0 else r

/-- The coefficients of the polynomial, src/LinearPrediction.h:161-164. -/
def charCoeffs (d : List ℝ) (p : Nat) : Option (List ℝ) := do
  let l ← (List.range p).mapM fun j => (d[p - 1 - j]?).map fun x => -x
  return l ++ [1]

/-- The complex numbers in an array of real ones, src/LinearPrediction.h:174-176. -/
def complexes (zz : List ℝ) (p : Nat) : Option (List ℂ) :=
  (List.range p).mapM fun j => do
    let x ← zz[2 * j]?
    let y ← zz[2 * j + 1]?
    return ⟨x, y⟩

/-- The new coefficients, src/LinearPrediction.h:195-197. -/
def newCoeffs (ab : List ℂ) (p : Nat) : Option (List ℝ) :=
  (List.range p).mapM fun j => (ab[p - 1 - j]?).map fun z => -z.re

/-- The sum for one value, src/LinearPrediction.h:202-205: as many terms as there are coefficients `d_`, of which `m` is the number. -/
def newSum (nd y : List ℝ) (i m : Nat) : Option ℝ :=
  loopN m (fun j s => do
    let c ← nd[j]?
    let x ← back y i j
    return s + c * x) 0

/-- `predict2(p)`, src/LinearPrediction.h:151-208, compiled with `USE_GSL`; `solve` is `gsl_poly_complex_solve`. -/
def predict2 (solve : List ℝ → List ℝ) (d y : List ℝ) (p : Nat) : Option (List ℝ) := do
  let aa ← charCoeffs d p
  let roots ← complexes (solve aa) p
  let ab ← fromRoots (roots.map cutRoot)
  let nd ← newCoeffs ab p
  loopFrom y.length (y.length + p) (fun i z => do
    let s ← newSum nd z i d.length
    setAt z i s) (y ++ List.replicate p 0)

/-- `predict2(p)` compiled without `USE_GSL`, src/LinearPrediction.h:171: an exception, unless a coefficient that is not there has been
read. -/
def predict2NoGsl (d : List ℝ) (p : Nat) : Out Unit :=
  match charCoeffs d p with
  | none => ubOut
  | some _ => throwOut

end

end Verif.Extrap
