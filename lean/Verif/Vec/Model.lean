import Verif.Util.Loop
import Verif.Util.Out
import Mathlib.Algebra.Field.Basic
import Mathlib.Algebra.Star.Basic
import Mathlib.Analysis.Complex.Basic
import Mathlib.Logic.Function.Basic

/-!
# Model of the operations with vectors, src/Vector.h

Vectors are in a memory, by name: the closures hold references to their operands, and the vector that is assigned to may be
one of them.  Scalars are held by reference too, and may be elements of vectors.
-/

namespace Verif.Vec

open Verif.Loop

variable {R : Type}

/-- The vectors of the program; different names are different objects. -/
abbrev Heap (R : Type) := Nat → List R

/-- A scalar operand: a number, or an element of a vector. -/
inductive Scal (R : Type) where
  | num (a : R)
  | elem (v i : Nat)

/-- The value of the scalar now (`none`: out of range). -/
def Scal.read (h : Heap R) : Scal R → Option R
  | .num a => some a
  | .elem v i => (h v)[i]?

/-- The closures, src/Vector.h:110-138: sums, differences and products with scalars. -/
inductive Expr (R : Type) where
  | vec (x : Nat)
  | mul (a : Scal R) (e : Expr R)
  | add (e f : Expr R)
  | sub (e f : Expr R)

/-- The scalars of an expression. -/
def Expr.scals : Expr R → List (Scal R)
  | .vec _ => []
  | .mul a e => a :: e.scals
  | .add e f => e.scals ++ f.scals
  | .sub e f => e.scals ++ f.scals

/-- A scalar of the expression is an element of `v`. -/
def Expr.refersTo (v : Nat) (e : Expr R) : Bool := e.scals.any fun s => match s with
  | .num _ => false
  | .elem w _ => w == v

/-- `v[i] = a`. -/
def setElem (h : Heap R) (v i : Nat) (a : R) : Option (Heap R) :=
  if i < (h v).length then some (Function.update h v ((h v).set i a)) else none

/-- The assignment of a list of elements to `v` moves its elements if the size changes, and a scalar that is one of them is
lost (`none`; if there is room it may not be moved: this is not modelled). -/
def replace (h : Heap R) (v : Nat) (l : List R) (e : Expr R) : Option (Heap R) :=
  if (h v).length ≠ l.length ∧ e.refersTo v = true then none else some (Function.update h v l)

/-- `v.resize(n); for (i = 0; i < v.size(); i++) v[i] = f(i);`. -/
def fill [Zero R] (h : Heap R) (v n : Nat) (e : Expr R) (f : Nat → Heap R → Option R) : Option (Heap R) := do
  let h ← replace h v (resizeL (h v) n 0) e
  loopN n (fun i h => do
    let a ← f i h
    setElem h v i a) h

/-- `v = x; for (i = 0; i < v.size(); i++) v[i] *= a;`, where `a` is read in every round. -/
def scale [Mul R] (h : Heap R) (v x : Nat) (e : Expr R) (a : Heap R → Option R) : Option (Heap R) := do
  let h ← replace h v (h x) e
  loopN (h v).length (fun i h => do
    let s ← a h
    let y ← (h v)[i]?
    setElem h v i (y * s)) h

/-- `a` times the element of `x`. -/
def term [Mul R] (h : Heap R) (a : Scal R) (x i : Nat) : Option R := do
  let s ← a.read h
  let y ← (h x)[i]?
  return s * y

/-- `v <= e`: the twelve overloads of `operator<=`, src/Vector.h:159-360.  Other expressions do not compile. -/
def assign [CommRing R] (h : Heap R) (v : Nat) (e : Expr R) : Option (Heap R) :=
  match e with
  -- lines 159-168
  | .mul a (.vec x) => scale h v x e fun h => a.read h
  -- lines 170-185: the product of the scalars is computed after the copy
  | .mul a (.mul b (.vec x)) => do
    let h' ← replace h v (h x) e
    let s ← a.read h'
    let t ← b.read h'
    scale h v x e fun _ => some (s * t)
  -- lines 212-219
  | .add (.vec x) (.vec y) => fill h v (h x).length e fun i h => do
    let a ← (h x)[i]?
    let b ← (h y)[i]?
    return a + b
  -- lines 221-232
  | .add (.vec x) (.mul s (.vec y)) => fill h v (h x).length e fun i h => do
    let a ← (h x)[i]?
    let b ← term h s y i
    return a + b
  -- lines 234-245
  | .add (.mul s (.vec x)) (.vec y) => fill h v (h y).length e fun i h => do
    let a ← term h s x i
    let b ← (h y)[i]?
    return a + b
  -- lines 247-257
  | .mul s (.add (.vec x) (.vec y)) => fill h v (h y).length e fun i h => do
    let c ← s.read h
    let a ← (h x)[i]?
    let b ← (h y)[i]?
    return c * (a + b)
  -- lines 259-286: the scalars are copied before the loop
  | .add (.add (.add (.mul s4 (.vec k4)) (.mul s3 (.vec k3))) (.mul s2 (.vec k2))) (.mul s1 (.vec k1)) => do
    let h' ← replace h v (resizeL (h v) (h k1).length 0) e
    let m1 ← s1.read h'
    let m2 ← s2.read h'
    let m3 ← s3.read h'
    let m4 ← s4.read h'
    fill h v (h k1).length e fun i h => do
      let a ← (h k1)[i]?
      let b ← (h k2)[i]?
      let c ← (h k3)[i]?
      let d ← (h k4)[i]?
      return m1 * a + m2 * b + m3 * c + m4 * d
  -- lines 305-312
  | .sub (.vec x) (.vec y) => fill h v (h x).length e fun i h => do
    let a ← (h x)[i]?
    let b ← (h y)[i]?
    return a - b
  -- lines 314-325
  | .sub (.vec x) (.mul s (.vec y)) => fill h v (h x).length e fun i h => do
    let a ← (h x)[i]?
    let b ← term h s y i
    return a - b
  -- lines 327-337
  | .mul s (.sub (.vec x) (.vec y)) => fill h v (h y).length e fun i h => do
    let c ← s.read h
    let a ← (h x)[i]?
    let b ← (h y)[i]?
    return c * (a - b)
  -- lines 339-360: the scalars are copied before the size is changed
  | .add (.sub (.vec k1) (.mul s2 (.vec k2))) (.mul s3 (.vec k3)) => do
    let m2 ← s2.read h
    let m3 ← s3.read h
    fill h v (h k1).length (.vec k1) fun i h => do
      let a ← (h k1)[i]?
      let b ← (h k2)[i]?
      let c ← (h k3)[i]?
      return a - m2 * b + m3 * c
  | _ => none

/-- `v += w`, src/Vector.h:363-369: as many elements as `w` has. -/
def addAssign [Add R] (h : Heap R) (v w : Nat) : Option (Heap R) :=
  loopN (h w).length (fun i h => do
    let a ← (h v)[i]?
    let b ← (h w)[i]?
    setElem h v i (a + b)) h

/-- `v += s * w`, src/Vector.h:373-379: as many elements as `v` has. -/
def addMulAssign [Add R] [Mul R] (h : Heap R) (v : Nat) (s : Scal R) (w : Nat) : Option (Heap R) :=
  loopN (h v).length (fun i h => do
    let a ← (h v)[i]?
    let b ← term h s w i
    setElem h v i (a + b)) h

/-- `v -= w`, src/Vector.h:383-389. -/
def subAssign [Sub R] (h : Heap R) (v w : Nat) : Option (Heap R) :=
  loopN (h w).length (fun i h => do
    let a ← (h v)[i]?
    let b ← (h w)[i]?
    setElem h v i (a - b)) h

/-- `v -= s * w`, src/Vector.h:393-399. -/
def subMulAssign [Sub R] [Mul R] (h : Heap R) (v : Nat) (s : Scal R) (w : Nat) : Option (Heap R) :=
  loopN (h v).length (fun i h => do
    let a ← (h v)[i]?
    let b ← term h s w i
    setElem h v i (a - b)) h

/-- `v *= s`, src/Vector.h:403-408. -/
def mulAssign [Mul R] (h : Heap R) (v : Nat) (s : Scal R) : Option (Heap R) :=
  loopN (h v).length (fun i h => do
    let a ← (h v)[i]?
    let b ← s.read h
    setElem h v i (a * b)) h

/-- `v /= s`, src/Vector.h:412-416. -/
def divAssign [Div R] (h : Heap R) (v : Nat) (s : Scal R) : Option (Heap R) :=
  loopN (h v).length (fun i h => do
    let a ← (h v)[i]?
    let b ← s.read h
    setElem h v i (a / b)) h

/-! ## Products -/

/-- `v * w`, src/Vector.h:84-92. -/
def dot [CommRing R] [StarRing R] (v w : List R) : Out R :=
  if v.length ≠ w.length then throwOut
  else match loopN v.length (fun i s => do
      let a ← v[i]?
      let b ← w[i]?
      return s + a * star b) 0 with
    | some s => .ok s
    | none => ubOut

/-- `scalarProduct`, src/Vector.h:422-433. -/
def scalarProduct [CommRing R] [StarRing R] (v w : List R) : Out R :=
  if v.length ≠ w.length then throwOut
  else match loopN v.length (fun i s => do
      let a ← v[i]?
      let b ← w[i]?
      return s + star a * b) 0 with
    | some s => .ok s
    | none => ubOut

/-- The inner loop of the product of a vector of vectors and a vector, src/Vector.h:102-103: its condition looks at `i`,
which does not change (at most `fuel` rounds; `none`: out of range, or more rounds). -/
def rowLoop [CommRing R] (v1 : List (List R)) (v2 : List R) (i : Nat) : Nat → Nat → R → Option R
  | 0, _, _ => none
  | fuel + 1, j, acc =>
    if i < v2.length then do
      let row ← v1[i]?
      let a ← row[j]?
      let b ← v2[j]?
      rowLoop v1 v2 i fuel (j + 1) (acc + a * b)
    else some acc

/-- The product of a vector of vectors and a vector, src/Vector.h:96-107. -/
def matVec [CommRing R] (fuel : Nat) (v1 : List (List R)) (v2 : List R) : Option (List R) :=
  loopN v2.length (fun i v3 => do
    let a ← rowLoop v1 v2 i fuel 0 0
    setAt v3 i a) (List.replicate v2.length 0)

/-- `norm` of a real vector, src/Vector.h:494-498. -/
noncomputable def normReal (v : List ℝ) : Out ℝ := do
  let s ← dot v v
  return Real.sqrt s

/-- `norm` of a complex vector, src/Vector.h:500-508. -/
noncomputable def normComplex (v : List ℂ) : Out ℝ := do
  let x ← dot v v
  if |x.im| > 1 / 100000 then throwOut else return Real.sqrt x.re

/-- `sum`, src/Vector.h:529-539. -/
def sum [Zero R] [Add R] (v : List R) : Option R := loopN v.length (fun i s => do
  let a ← v[i]?
  return s + a) 0

/-- `indexOrMinusOne`, src/Vector.h:520-527: the position is converted to `int`. -/
def indexOrMinusOne [DecidableEq R] (v : List R) (x : R) : Int :=
  if v.idxOf x = v.length then -1 else (v.idxOf x : Int).bmod (2 ^ 32)

/-- The loop of `basenameOf`, src/Vector.h:555-563. -/
def basenameLoop (s : List Char) : Nat → Nat → Nat → Nat
  | 0, _, j => j
  | k + 1, i, _ => if s[s.length - i - 1]? = some '.' then s.length - i - 1 else basenameLoop s k (i + 1) (s.length - i - 1)

/-- `basenameOf`, src/Vector.h:555-567. -/
def basenameOf (s : List Char) : List Char := s.take (s.length - basenameLoop s s.length 0 0)

end Verif.Vec
