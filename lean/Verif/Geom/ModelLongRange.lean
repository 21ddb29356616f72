import Verif.Geom.ModelTerm
import Verif.Util.Out
import Mathlib.Data.Rat.Defs
import Mathlib.Algebra.Field.Rat
import Mathlib.Algebra.Notation.Prod

/-!
# Model of the geometry with connections of any range, src/Geometry/LongRange.h

A complex number is the pair of its real and imaginary parts, which are rational: nothing is rounded.
-/

namespace Verif.Geom

open Verif.Loop Verif.Dense

/-- A complex number. -/
abbrev Cx := ℚ × ℚ

/-- The members of `LongRange`, src/Geometry/LongRange.h:346-349. -/
structure LongRange where
  linSize : Nat
  dofs : Nat
  maxConnections : Nat
  matrix : Mat Cx
  deriving DecidableEq

/-- What the constructor reads (`none`: the label is not there). -/
structure LongRangeInput where
  entangler : Option ℚ
  dofs : Option Nat
  connectors : Option (Mat Cx)
  maxConnections : Option Nat

/-- Access out of range, or a failed assertion. -/
def orUb {α : Type} : Option α → Out α
  | some a => .ok a
  | none => ubOut

/-- `setEntangler`, src/Geometry/LongRange.h:227-233. -/
def setEntangler (m : Mat Cx) (value : Cx) : Option (Mat Cx) :=
  loopN m.nrow (fun i m => loopFrom (i + 1) m.nrow (fun j m => m.set i j value) m) m

/-- `isInt64`, src/Geometry/LongRange.h:336-344. -/
def isInt64 (d : ℚ) : Bool := decide (-9223372036854775808 ≤ d ∧ d < 9223372036854775808) && decide (d.den = 1)

/-- `complexToInteger`, src/Geometry/LongRange.h:320-333: a negative number cannot be converted to `SizeType`. -/
def complexToInteger (value : Cx) : Out Nat :=
  if value.2 ≠ 0 then throwOut
  else if isInt64 value.1 = false then throwOut
  else if value.1 < 0 then ubOut
  else .ok value.1.num.toNat

/-- One round of the first loop of `reinterpretMatrix`, src/Geometry/LongRange.h:300-307. -/
def compactRow5 (dofs : Nat) (values : Mat Cx) (i : Nat) (m : Mat Cx) : Out (Mat Cx) := do
  let site0 ← orUb (values.get i 0) >>= complexToInteger
  let orb0 ← orUb (values.get i 1) >>= complexToInteger
  let site1 ← orUb (values.get i 2) >>= complexToInteger
  let orb1 ← orUb (values.get i 3) >>= complexToInteger
  let v ← orUb (values.get i 4)
  orUb (m.set (orb0 + site0 * dofs) (orb1 + site1 * dofs) v)

/-- One round of the second loop of `reinterpretMatrix`, src/Geometry/LongRange.h:311-316. -/
def compactRow3 (values : Mat Cx) (i : Nat) (m : Mat Cx) : Out (Mat Cx) := do
  let site0 ← orUb (values.get i 0) >>= complexToInteger
  let site1 ← orUb (values.get i 1) >>= complexToInteger
  let v ← orUb (values.get i 2)
  orUb (m.set site0 site1 v)

/-- `reinterpretMatrix`, src/Geometry/LongRange.h:290-318. -/
def reinterpretMatrix (linSize dofs : Nat) (values : Mat Cx) : Out (Mat Cx) :=
  let n := linSize * dofs
  if linSize = 0 ∨ dofs = 0 then ubOut
  else if dofs > 1 then
    if values.ncol ≠ 5 then ubOut
    else (List.range values.nrow).foldlM (fun m i => compactRow5 dofs values i m) (Mat.mk0 n n)
  else
    if values.ncol ≠ 3 then ubOut
    else (List.range values.nrow).foldlM (fun m i => compactRow3 values i m) (Mat.mk0 n n)

/-- `hasLowerTriangle`, src/Geometry/LongRange.h:273-283 (`none`: access out of range).  The loops end at the first
element that is not zero. -/
def hasLowerTriangle (m : Mat Cx) : Option Bool :=
  loopN m.nrow (fun i found => loopN i (fun j found =>
    if found then some true else (m.get i j).map fun x => decide (x ≠ 0)) found) false

/-- `checkConnectors`, src/Geometry/LongRange.h:235-258, which only prints; `hasDiagonal`, lines 260-271, does not go out
of range. -/
def checkConnectors (m : Mat Cx) (linSize : Nat) : Out Unit :=
  if linSize = 0 then ubOut
  else match hasLowerTriangle m with
    | none => ubOut
    | some _ => .ok ()

/-- The constructor, src/Geometry/LongRange.h:99-150. -/
def LongRange.ctor (linSize : Nat) (goptions : String) (io : LongRangeInput) : Out LongRange := do
  let dofs ← ofThrow io.dofs
  let matrix ← (match io.entangler with
    | some e => orUb (setEntangler (Mat.mk0 (dofs * linSize) (dofs * linSize)) (e, 0))
    | none => ofThrow io.connectors)
  if goptions ≠ "ConstantValues" ∧ goptions ≠ "compact" ∧ goptions ≠ "none" then throwOut
  else do
    let matrix ← (if goptions = "compact" then reinterpretMatrix linSize dofs matrix
      else if linSize = 0 then ubOut
      else if dofs ≠ matrix.nrow / linSize then throwOut
      else .ok matrix)
    checkConnectors matrix linSize
    match io.maxConnections, io.entangler with
    | some k, _ => return ⟨linSize, dofs, k, matrix⟩
    | none, some _ => return ⟨linSize, dofs, 0, matrix⟩
    | none, none => throwOut

/-- `set`, src/Geometry/LongRange.h:152-158: the matrix that a direction gets. -/
def LongRange.set (g : LongRange) (orbitals : Nat) : Out (Mat Cx) :=
  if orbitals ≠ g.dofs then throwOut else .ok g.matrix

/-- `maxConnections`, src/Geometry/LongRange.h:160-164. -/
def LongRange.maxConn (g : LongRange) : Nat :=
  if g.maxConnections = 0 then g.linSize * g.linSize / 4 else g.maxConnections

/-- `findReflection`, src/Geometry/LongRange.h:198-201. -/
def LongRange.findReflection (g : LongRange) (site : Nat) : Nat := sub64 (sub64 g.linSize site) 1

/-- `translate`, src/Geometry/LongRange.h:209-217: subtraction until the site is in range, at most `fuel` times. -/
def LongRange.translateLoop (linSize : Nat) : Nat → Nat → Option Nat
  | 0, _ => none
  | fuel + 1, site => if site ≥ linSize then translateLoop linSize fuel (site - linSize) else some site

/-- `translate`, src/Geometry/LongRange.h:209-217 (`none`: it does not end). -/
def LongRange.translate (g : LongRange) (site amount : Nat) : Option Nat :=
  translateLoop g.linSize (site + amount + 1) (site + amount)

/-- `getSubstituteSite`, src/Geometry/LongRange.h:188-194. -/
def LongRange.getSubstituteSite (g : LongRange) (smax emin siteNew2 : Nat) : Option Nat :=
  if siteNew2 < emin then none
  else if siteNew2 - emin + smax + 1 < g.linSize then some (siteNew2 - emin + smax + 1) else none

/-- The virtual functions, src/Geometry/LongRange.h:166-185. -/
def LongRange.base : Base where
  dirs := 1
  connected _ _ := some true
  calcDir _ _ := some 0
  handle i j := some (if i < j then i else j)
  getVectorSize _ := none
  signChange _ _ := some 1
  index := defaultIndex
  matrixRank l o := l * o

/-- `GeometryDirection::operator()` for `GENERAL` data, src/Geometry/GeometryDirection.h:184-191. -/
def generalValue (raw : Mat Cx) (orbitals i edof1 j edof2 : Nat) : Option Cx :=
  if edof1 < orbitals ∧ edof2 < orbitals then raw.get (edof1 + i * orbitals) (edof2 + j * orbitals) else none

/-- The values of a term with this geometry, src/Geometry/GeometryTerm.h:218-236, 461-503. -/
def LongRange.cache (g : LongRange) (linSize orbitals : Nat) : Out (Mat Cx) := do
  let raw ← g.set orbitals
  orUb (cacheWith LongRange.base linSize orbitals (generalValue raw orbitals))

end Verif.Geom
