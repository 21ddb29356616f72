import Verif.Geom.Model

/-!
# Model of the honeycomb lattice
-/

namespace Verif.Geom

open Verif.Loop

/-- Data of a `Honeycomb`, src/Geometry/Honeycomb.h:335-338. -/
structure Honeycomb where
  linSize : Nat
  ly : Nat
  periodicY : Bool
  periodicX : Bool
  deriving DecidableEq

namespace Honeycomb

/-- The constructor, src/Geometry/Honeycomb.h:98-114, from the input lines; `none` is an exception. -/
def ctor (linSize : Nat) (ly : Option Nat) (py px : Option Int) : Option Honeycomb := do
  let ly ← ly
  let y ← py
  return ⟨linSize, ly, decide (y > 0), match px with | some x => decide (x > 0) | none => false⟩

/-- src/Geometry/Honeycomb.h:327-333. -/
def is4nPlus2 (y : Nat) : Bool := if y < 2 then false else (y - 2) % 4 == 0

/-- src/Geometry/Honeycomb.h:295-302; `none` is the assertion. -/
def isDirectionYsameCol (g : Honeycomb) (y1 y2 : Nat) : Option Bool :=
  if y1 < y2 then
    let dy := y2 - y1
    some (if dy = 1 ∧ y1 % 4 = 0 then true else g.periodicY && decide (dy + 1 = g.ly) && (y2 % 4 == 0))
  else none

/-- src/Geometry/Honeycomb.h:304-311. -/
def isDirectionXsameCol (g : Honeycomb) (y1 y2 : Nat) : Option Bool :=
  if y1 < y2 then
    let dy := y2 - y1
    some (if dy = 1 ∧ is4nPlus2 y1 = true then true else g.periodicY && decide (dy + 1 = g.ly) && is4nPlus2 y2)
  else none

/-- src/Geometry/Honeycomb.h:227-241. -/
def isDirectionZ (g : Honeycomb) (x1 y1 x2 y2 : Nat) : Option Bool :=
  if x1 ≠ x2 then some false
  else if y1 < y2 then
    let d := y2 - y1
    some (if d = 1 ∧ y1 % 2 = 1 then true else if !g.periodicY then false else decide (d + 1 = g.ly))
  else none

/-- src/Geometry/Honeycomb.h:244-267; the difference wraps. -/
def isDirectionY (g : Honeycomb) (x1 y1 x2 y2 : Nat) : Option Bool :=
  if x1 = x2 then g.isDirectionYsameCol y1 y2
  else if sub64 y2 y1 ≠ 1 then some false
  else if x1 < x2 then
    let dx := x2 - x1
    some (if dx = 1 ∧ y1 % 3 = 0 ∧ y2 < y1 then true
      else if !g.periodicX then false
      else if dx + 1 ≠ g.linSize / g.ly then false
      else (y2 % 3 == 0) && decide (y1 < y2))
  else none

/-- src/Geometry/Honeycomb.h:270-293. -/
def isDirectionX (g : Honeycomb) (x1 y1 x2 y2 : Nat) : Option Bool :=
  if x1 = x2 then g.isDirectionXsameCol y1 y2
  else if sub64 y2 y1 ≠ 1 then some false
  else if x1 < x2 then
    let dx := x2 - x1
    some (if dx = 1 ∧ y1 % 4 = 0 ∧ y1 < y2 then true
      else if !g.periodicX then false
      else if dx + 1 ≠ g.linSize / g.ly then false
      else (y2 % 4 == 0) && decide (y2 < y1))
  else none

/-- `connectedInternal` and `getCoordinates`, src/Geometry/Honeycomb.h:189-224: the direction of the connection, if there is one;
the outer `none` is a failed assertion or a division by zero. -/
def connectedInternal (g : Honeycomb) (ii1 ii2 : Nat) : Option (Option Nat) :=
  if ii1 = ii2 then some none
  else if g.ly = 0 then none
  else do
    let i1 := if ii1 < ii2 then ii1 else ii2
    let i2 := if ii1 < ii2 then ii2 else ii1
    let x1 := i1 / g.ly
    let y1 := i1 % g.ly
    let x2 := i2 / g.ly
    let y2 := i2 % g.ly
    if ← g.isDirectionX x1 y1 x2 y2 then return some 0
    else if ← g.isDirectionY x1 y1 x2 y2 then return some 1
    else if ← g.isDirectionZ x1 y1 x2 y2 then return some 2
    else return none

/-- `connected`, src/Geometry/Honeycomb.h:140-143. -/
def connected (g : Honeycomb) (i1 i2 : Nat) : Option Bool := do
  let r ← g.connectedInternal i1 i2
  return r.isSome

/-- `calcDir`, src/Geometry/Honeycomb.h:146-151; `none` is the assertion. -/
def calcDir (g : Honeycomb) (i1 i2 : Nat) : Option Nat := do
  let r ← g.connectedInternal i1 i2
  r

/-- `isThereAneighbor`, src/Geometry/Honeycomb.h:313-321, with the number of passes left. -/
def isThereAneighbor (g : Honeycomb) (ind : Nat) : Nat → Nat → Option Bool
  | 0, _ => some false
  | k + 1, i => do
    if ← g.connected ind i then return true
    else isThereAneighbor g ind k (i + 1)

/-- `fringe`, src/Geometry/Honeycomb.h:153-162. -/
def fringe (g : Honeycomb) (i smax emin : Nat) : Option Bool :=
  if i ≤ smax then g.isThereAneighbor i (g.linSize - emin) emin
  else if i ≥ emin then g.isThereAneighbor i smax 0
  else some false

end Honeycomb

end Verif.Geom
