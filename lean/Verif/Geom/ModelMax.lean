import Verif.Geom.Model
import Verif.Geom.ModelLongRange

/-!
# Model of `maxConnections`, src/Geometry

The comment in src/Geometry/Honeycomb.h:118 says what the number is for: the most connections that are broken when the
lattice is split.
-/

namespace Verif.Geom

open Verif.Loop

/-- src/Geometry/LongChain.h:125-128. -/
def LongChain.maxConnections (g : LongChain) : Nat := if g.isPeriodic then g.linSize else 1

/-- src/Geometry/Ladder.h:140-143. -/
def Ladder.maxConnections (g : Ladder) : Nat := if g.isPeriodicX then g.linSize else g.leg + 1

/-- src/Geometry/LadderX.h:109. -/
def LadderX.maxConnections (g : LadderX) : Nat := g.ladder.leg + 1

/-- src/Geometry/Star.h:100. -/
def Star.maxConnections (linSize : Nat) : Nat := sub64 linSize 1

/-- src/Geometry/LadderBath.h:221. -/
def LadderBath.maxConnections (g : LadderBath) : Nat := g.clusterSize + 1

/-- src/Geometry/KTwoNiFFour.h:243. -/
def KTwo.maxConnections : Nat := 6

/-- `Geometry::maxConnections`, src/Geometry/Geometry.h:276-285, from the numbers of the terms. -/
def maxOfTerms (terms : List Nat) : Nat := terms.foldl (fun result t => if t > result then t else result) 0

end Verif.Geom
