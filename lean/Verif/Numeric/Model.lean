import Verif.Util.Loop
import Verif.Util.Out
import Mathlib.Analysis.SpecialFunctions.Log.Basic
import Mathlib.Algebra.Order.Field.Basic

/-!
# Model of the numerical functions: Chebyshev polynomials, Fermi function, bisection, Akima spline

Real arithmetic is exact: `RealType` is a commutative ring, an ordered field, or ℝ.
-/

namespace Verif.Numeric

open Verif.Loop

/-! ## Chebyshev polynomials -/

/-- `ChebyshevFunction::operator()`, src/ChebyshevFunction.h:40-56, for `m ≥ 0` (for negative `m` the recursion of
the code does not stop).  `m & 1` is the parity of `m`. -/
def cheb {R : Type} [CommRing R] (x : R) (m : Nat) : R :=
  if m = 0 then 1
  else if m = 1 then x
  else if m % 2 = 1 then 2 * cheb x ((m - 1) / 2) * cheb x ((m - 1) / 2 + 1) - x
  else
    let tmp := cheb x (m / 2)
    2 * tmp * tmp - 1
termination_by m
decreasing_by all_goals omega

/-- `ChebyshevFunctionExplicit::operator()`, src/ChebyshevFunctionExplicit.h:40-78. -/
def chebExplicit {R : Type} [CommRing R] (x : R) (m : Nat) : R :=
  if m = 0 then 1
  else if m = 1 then x
  else
    let x1 := x * x
    if m = 2 then 2 * x1 - 1
    else if m = 3 then 4 * x1 * x - 3 * x
    else if m = 4 then 8 * x1 * x1 - 8 * x1 + 1
    else if m = 5 then 16 * x1 * x1 * x - 20 * x1 * x + 5 * x
    else
      let x2 := x1 * x1
      if m = 6 then 32 * x2 * x1 - 48 * x2 + 18 * x1 - 1
      else if m = 7 then 64 * x2 * x1 * x - 112 * x2 * x + 56 * x1 * x - 7 * x
      else if m % 2 = 1 then 2 * chebExplicit x ((m - 1) / 2) * chebExplicit x ((m - 1) / 2 + 1) - x
      else
        let tmp := chebExplicit x (m / 2)
        2 * tmp * tmp - 1
termination_by m
decreasing_by all_goals omega

/-! ## Fermi function -/

/-- `fermi`, src/Fermi.h:85-95. -/
noncomputable def fermi (x : ℝ) : ℝ :=
  if x > 50 then 0
  else if x < -50 then 1
  else if x < 0 then 1 / (1 + Real.exp x)
  else Real.exp (-x) / (1 + Real.exp (-x))

/-- `fermiPrime`, src/Fermi.h:98-104. -/
noncomputable def fermiPrime (x : ℝ) : ℝ := -fermi x * fermi (-x)

/-- `logfermi`, src/Fermi.h:106-116. -/
noncomputable def logfermi (x : ℝ) : ℝ :=
  if x > 20 then -x
  else if x < -20 then 0
  else -Real.log (1 + Real.exp x)

/-! ## Bisection -/

section
variable {K : Type} [Field K] [LinearOrder K] [IsStrictOrderedRing K]

/-- `RootFindingBisection::sign`, src/RootFindingBisection.h:73. -/
def sign (x : K) : Int := if x ≥ 0 then 1 else -1

/-- The constructor's test, src/RootFindingBisection.h:30-33: `none` is the exception. -/
def bisectCtor (f : K → K) (a b : K) : Option Unit := if f a * f b ≥ 0 then none else some ()

/-- The loop of `operator()`, src/RootFindingBisection.h:49-63: `n` rounds are left; `fa` is `functionAtA`;
`none` is the exception after the last round. -/
def bisectLoop (f : K → K) (tol : K) : Nat → K → K → K → Option K
  | 0, _, _, _ => none
  | n + 1, a, b, fa =>
    let c := (a + b) / 2
    let tmp := f c
    if |tmp| < tol then some c
    else if sign tmp = sign fa then bisectLoop f tol n c b tmp
    else bisectLoop f tol n a c fa

/-- Constructor and `operator()`, src/RootFindingBisection.h:23-69. -/
def bisect (f : K → K) (a b : K) (maxIter : Nat) (tol : K) : Option K := do
  let _ ← bisectCtor f a b
  bisectLoop f tol maxIter a b (f a)

/-! ## Akima spline -/

/-- `AkimaStruct`, src/AkimaSpline.h:14-16. -/
structure Piece (K : Type) where
  x0 : K
  x1 : K
  a0 : K
  a1 : K
  a2 : K
  a3 : K

/-- One round of the loop of `calculateD`, src/AkimaSpline.h:97-98. -/
def dStep (x s : List K) (i : Nat) (d : List K) : Option (List K) := do
  let s1 ← s[i - 1]?
  let s2 ← s[i - 2]?
  let x1 ← x[i - 1]?
  let x2 ← x[i - 2]?
  setAt d i ((s1 - s2) / (x1 - x2))

/-- `calculateD`, src/AkimaSpline.h:93-103. -/
def calculateD (x s : List K) : Option (List K) := do
  let k := x.length
  let d := List.replicate (k + 3) 0
  let d ← loopFrom 2 (k + 1) (dStep x s) d
  let d2 ← d[2]?
  let d3 ← d[3]?
  let d ← setAt d 1 (2 * d2 - d3)
  let d1 ← d[1]?
  let d2 ← d[2]?
  let d ← setAt d 0 (2 * d1 - d2)
  let dk ← d[k]?
  let dk' ← d[k - 1]?
  let d ← setAt d (k + 1) (2 * dk - dk')
  let dk1 ← d[k + 1]?
  let dk ← d[k]?
  setAt d (k + 2) (2 * dk1 - dk)

/-- `calculateW`, src/AkimaSpline.h:105-110. -/
def calculateW (d : List K) : Option (List K) :=
  loopN (d.length - 1) (fun i w => do
    let a ← d[i + 1]?
    let b ← d[i]?
    setAt w i |a - b|) (List.replicate (d.length - 1) 0)

/-- One round of the loop of `calculateSprime`, src/AkimaSpline.h:82-90. -/
def sprimeStep (d w : List K) (i : Nat) (sp : List K) : Option (List K) := do
  let w0 ← w[i]?
  let w2 ← w[i + 2]?
  let d1 ← d[i + 1]?
  let d2 ← d[i + 2]?
  let denom := w0 + w2
  if denom = 0 then setAt sp i ((d1 + d2) * (1 / 2))
  else setAt sp i ((w2 * d1 + w0 * d2) / denom)

/-- `calculateSprime`, src/AkimaSpline.h:76-91. -/
def calculateSprime (x s : List K) : Option (List K) := do
  let d ← calculateD x s
  let w ← calculateW d
  loopN x.length (sprimeStep d w) (List.replicate x.length 0)

/-- One round of the loop of the constructor, src/AkimaSpline.h:31-42. -/
def pieceStep (x s sp : List K) (i : Nat) (out : List (Piece K)) : Option (List (Piece K)) := do
  let xi ← x[i]?
  let xi1 ← x[i + 1]?
  let si ← s[i]?
  let si1 ← s[i + 1]?
  let p ← sp[i]?
  let p1 ← sp[i + 1]?
  let u := xi1 - xi
  let ds := si1 - si
  return out ++ [⟨xi, xi1, si, p, (3 * ds - (2 * p + p1) * u) / (u * u), ((p + p1) * u - 2 * ds) / (u * u * u)⟩]

/-- An `AkimaSpline`, src/AkimaSpline.h:112-113. -/
structure Akima (K : Type) where
  pieces : List (Piece K)
  lo : K
  hi : K

/-- The constructor, src/AkimaSpline.h:22-45. -/
def Akima.ctor (x s : List K) : Out (Akima K) :=
  if x.length ≠ s.length then throwOut
  else if x.length < 3 then throwOut
  else do
    let r ← (match (do
      let sp ← calculateSprime x s
      let pieces ← loopN (x.length - 1) (pieceStep x s sp) []
      let first ← pieces[0]?
      let last ← pieces[pieces.length - 1]?
      return (⟨pieces, first.x0, last.x1⟩ : Akima K)) with
      | some a => .ok a
      | none => ubOut)
    return r

/-- `functionFor`, src/AkimaSpline.h:57-62, on the piece found. -/
def Piece.eval (p : Piece K) (x : K) : K :=
  let u := x - p.x0
  p.a0 + p.a1 * u + p.a2 * u * u + p.a3 * u * u * u

/-- `operator()` with `findRange` and `functionFor`, src/AkimaSpline.h:47-74. -/
def Akima.eval (a : Akima K) (x : K) : Out K :=
  if x < a.lo ∨ x > a.hi then throwOut
  else
    match a.pieces.find? (fun p => decide (x ≥ p.x0 ∧ x ≤ p.x1)) with
    | some p => .ok (p.eval x)
    | none => throwOut

end

end Verif.Numeric
