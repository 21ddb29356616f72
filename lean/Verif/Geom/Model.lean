import Verif.Util.Loop
import Verif.Util.While

/-!
# Model of `src/Geometry/`

`SizeType` is 64 bits; sums and products are taken without overflow, subtractions that could
go below zero use `sub64`.  A failed assertion, a division by zero or an endless loop is `none`.
-/

namespace Verif.Geom

open Verif.Loop

/-- `GeometryBase::neighbors`, src/Geometry/GeometryBase.h:157-166. -/
def neighbors (i1 i2 : Nat) (periodic : Bool) (period : Nat) : Bool :=
  let imin := if i1 < i2 then i1 else i2
  let imax := if i1 > i2 then i1 else i2
  let b := imax - imin == 1
  if !periodic then b else b || (imax - imin == period)

/-- The loop `while (c >= l) c -= l`, src/Geometry/Ladder.h:294-296, src/Geometry/LongChain.h:198-200.
With `l = 0` it never ends. -/
def wrapLoop (c l : Nat) : Option Nat := whileN c (fun c => decide (c ≥ l)) (fun c => some (c - l)) c

/-! ## LongChain -/

/-- Data of a `LongChain`, src/Geometry/LongChain.h:212-214. -/
structure LongChain where
  linSize : Nat
  isPeriodic : Bool
  distance : Nat

namespace LongChain

/-- The constructor, src/Geometry/LongChain.h:98-123, from the two optional input lines.  The last
statement builds a `RuntimeError` but does not throw it, so nothing is checked. -/
def ctor (linSize : Nat) (isPeriodicX : Option Int) (longChainDistance : Option Nat) : LongChain :=
  { linSize
    isPeriodic := match isPeriodicX with | some x => decide (x > 0) | none => false
    distance := longChainDistance.getD 1 }

/-- src/Geometry/LongChain.h:132-135. -/
def handle (_g : LongChain) (i j : Nat) : Nat := if i < j then i else j

/-- src/Geometry/LongChain.h:137-142. -/
def getVectorSize (g : LongChain) (dirId : Nat) : Option Nat :=
  if dirId = 0 then some (sub64 g.linSize g.distance + (if g.isPeriodic then 1 else 0)) else none

/-- src/Geometry/LongChain.h:144-155. -/
def connected (g : LongChain) (i1 i2 : Nat) : Bool :=
  if i1 = i2 then false
  else
    let imin := if i1 < i2 then i1 else i2
    let imax := if i1 > i2 then i1 else i2
    let b := imax - imin == g.distance
    if !g.isPeriodic then b else b || (imax - imin == sub64 g.linSize g.distance)

/-- src/Geometry/LongChain.h:160-169. -/
def fringe (g : LongChain) (i smax emin : Nat) : Bool :=
  let emin2 := smax + 1
  if i ≤ smax then
    let iPlus := i + g.distance
    decide (iPlus < g.linSize) && decide (iPlus ≥ emin2)
  else decide (i ≥ g.distance) && decide (i - g.distance < emin)

/-- src/Geometry/LongChain.h:172-178. -/
def getSubstituteSite (g : LongChain) (smax emin siteNew2 : Nat) : Option Nat :=
  if siteNew2 ≥ emin then
    let tmp := siteNew2 - emin + smax + 1
    if tmp < g.linSize then some tmp else none
  else none

/-- src/Geometry/LongChain.h:182-185. -/
def findReflection (g : LongChain) (site : Nat) : Nat := sub64 (sub64 g.linSize site) 1

/-- src/Geometry/LongChain.h:193-201. -/
def translate (g : LongChain) (site dir amount : Nat) : Option Nat :=
  if dir = 0 then wrapLoop (site + amount) g.linSize else none

end LongChain

/-! ## Ladder -/

/-- Data of a `Ladder`, src/Geometry/Ladder.h:300-303. -/
structure Ladder where
  linSize : Nat
  leg : Nat
  isPeriodicX : Bool
  isPeriodicY : Bool
  deriving DecidableEq

namespace Ladder

/-- The constructor, src/Geometry/Ladder.h:96-138.  The outer `none` is undefined behaviour
(`% 0`), the inner `none` an exception.  `junk` is the value of the uninitialised `isPeriodicY_`
when one leg is used and the `IsPeriodicY=` line is missing.  The exception raised for two legs is
caught by the handler that follows it. -/
def ctor (linSize leg : Nat) (px py : Option Int) (junk : Bool) : Option (Option Ladder) :=
  let perX := match px with | some x => decide (x > 0) | none => false
  let perY : Option Bool := match py with
    | some y => some (decide (y > 0))
    | none => if leg > 2 then none else some junk
  match perY with
  | none => some none
  | some y =>
    let y := if leg = 2 then false else y
    if leg = 0 then none
    else if linSize % leg ≠ 0 then some none
    else some (some ⟨linSize, leg, perX, y⟩)

/-- src/Geometry/Ladder.h:147-156; `none` is the exception. -/
def getVectorSize (g : Ladder) (dirId : Nat) : Option Nat :=
  if dirId = 0 then some (if g.isPeriodicX then g.linSize else sub64 g.linSize g.leg)
  else if dirId = 1 then some (if g.isPeriodicY then g.linSize else g.linSize - g.linSize / g.leg)
  else none

/-- src/Geometry/Ladder.h:158-171 (for `leg_ ≠ 0`, which the constructor ensures). -/
def connected (g : Ladder) (i1 i2 : Nat) : Bool :=
  if i1 = i2 then false
  else
    let c1 := i1 / g.leg
    let c2 := i2 / g.leg
    let r1 := i1 % g.leg
    let r2 := i2 % g.leg
    if c1 = c2 then neighbors r1 r2 g.isPeriodicY (g.leg - 1)
    else if r1 = r2 then neighbors c1 c2 g.isPeriodicX (sub64 (g.linSize / g.leg) 1)
    else false

/-- src/Geometry/Ladder.h:232-239. -/
def sameColumn (g : Ladder) (i1 i2 : Nat) : Bool := i1 / g.leg == i2 / g.leg

/-- src/Geometry/Ladder.h:241-248. -/
def sameRow (g : Ladder) (i1 i2 : Nat) : Bool := i1 % g.leg == i2 % g.leg

/-- src/Geometry/Ladder.h:173-177. -/
def calcDir (g : Ladder) (i1 i2 : Nat) : Option Nat :=
  if g.connected i1 i2 then some (if g.sameColumn i1 i2 then 1 else 0) else none

/-- src/Geometry/Ladder.h:208-230. -/
def handle (g : Ladder) (i1 i2 : Nat) : Option Nat := do
  let dir ← g.calcDir i1 i2
  let imin := if i1 < i2 then i1 else i2
  let imax := if i1 < i2 then i2 else i1
  let y := imin / g.leg
  if dir = 0 then
    if !g.isPeriodicX then some imin
    else if imin < g.leg ∧ imax = sub64 (imin + g.linSize) g.leg then some imax else some imin
  else if dir = 1 then
    if !g.isPeriodicY then some (sub64 imin y)
    else if imin % g.leg = 0 ∧ imax = imin + g.leg - 1 then some imax else some imin
  else none

/-- src/Geometry/Ladder.h:179-192. -/
def fringe (g : Ladder) (i smax emin : Nat) : Bool :=
  let c := smax % g.leg
  let r := 2 + 2 * c
  let r := if c ≥ g.leg / 2 then sub64 r g.leg else r
  let r := if smax + 1 = emin then g.leg else r
  let a := decide (i < emin) && decide (i ≥ (sub64 smax r + 1) % 18446744073709551616)
  let b := decide (i > smax) && decide (i ≤ emin + r - 1)
  a || b

/-- src/Geometry/Ladder.h:195-206 (for site numbers that fit in an `int`). -/
def getSubstituteSite (g : Ladder) (smax emin siteEnv : Nat) : Option Nat :=
  if smax + 1 = emin then some siteEnv
  else
    let c := smax % g.leg
    let s := sub64 (emin / g.leg) (smax / g.leg)
    if s > 0 then
      let s := if c ≥ g.leg / 2 then s - 1 else s
      some (sub64 siteEnv (s * g.leg))
    else none

/-- src/Geometry/Ladder.h:260-273. -/
def translate (g : Ladder) (site dir amount : Nat) : Option Nat :=
  if dir < 2 then do
    let x := site / g.leg
    let y := site % g.leg
    let lx := g.linSize / g.leg
    let (x, y) ← if dir = 0 then (wrapLoop (x + amount) lx).map (·, y)
                 else (wrapLoop (y + amount) g.leg).map (x, ·)
    let ind := y + x * g.leg
    if ind < g.linSize then some ind else none
  else none

/-- src/Geometry/Ladder.h:275-283. -/
def findReflection (g : Ladder) (site : Nat) : Option Nat :=
  let x := site / g.leg
  let y := site % g.leg
  let lx := g.linSize / g.leg
  let ind := y + sub64 (sub64 lx x) 1 * g.leg
  if ind < g.linSize then some ind else none

end Ladder

/-! ## LadderX -/

/-- Data of a `LadderX`, src/Geometry/LadderX.h:102-107: a ladder with the same size and legs. -/
structure LadderX where
  ladder : Ladder

namespace LadderX

/-- src/Geometry/LadderX.h:123-133. -/
def getVectorSize (g : LadderX) (dirId : Nat) : Option Nat :=
  if dirId = 2 ∨ dirId = 3 then some (sub64 g.ladder.linSize g.ladder.leg) else g.ladder.getVectorSize dirId

/-- src/Geometry/LadderX.h:135-157. -/
def connected (g : LadderX) (i1 i2 : Nat) : Bool :=
  if i1 = i2 then false
  else if g.ladder.connected i1 i2 then true
  else
    let leg := g.ladder.leg
    let lx := g.ladder.linSize / leg
    let perY := g.ladder.isPeriodicY
    let c1 := i1 / leg
    let c2 := i2 / leg
    let r1 := i1 % leg
    let r2 := i2 % leg
    if c1 = c2 then neighbors r1 r2 perY leg
    else if r1 = r2 then neighbors c1 c2 false 0
    else neighbors r1 r2 perY leg && neighbors c1 c2 perY lx

/-- src/Geometry/LadderX.h:160-170. -/
def calcDir (g : LadderX) (i1 i2 : Nat) : Nat :=
  if g.ladder.sameColumn i1 i2 then 1
  else if g.ladder.sameRow i1 i2 then 0
  else
    let imin := if i1 < i2 then i1 else i2
    if imin % 2 = 1 then 2 else 3

/-- src/Geometry/LadderX.h:184-199. -/
def handle (g : LadderX) (i1 i2 : Nat) : Option Nat :=
  let leg := g.ladder.leg
  let imin := if i1 < i2 then i1 else i2
  match g.calcDir i1 i2 with
  | 0 => some imin
  | 1 => some (imin - imin / leg)
  | 2 => some (sub64 imin 1 / leg)
  | 3 => some (imin / leg)
  | _ => none

end LadderX

/-! ## Star -/

namespace Star

/-- src/Geometry/Star.h:104-107. -/
def handle (i j : Nat) : Nat := if i < j then sub64 j 1 else sub64 i 1

/-- src/Geometry/Star.h:109-114; `none` is the exception. -/
def getVectorSize (linSize dirId : Nat) : Option Nat := if dirId ≠ 0 then none else some (sub64 linSize 1)

/-- src/Geometry/Star.h:116-121; the centre is site 1 (src/Geometry/Star.h:90). -/
def connected (i1 i2 : Nat) : Bool := if i1 = i2 then false else i1 == 1 || i2 == 1

end Star

/-! ## LadderBath -/

/-- Data of a `LadderBath`, src/Geometry/LadderBath.h:102-110. -/
structure LadderBath where
  linSize : Nat
  bathSitesPerSite : Nat
  clusterSize : Nat
  ladder : Ladder

namespace LadderBath

/-- The constructor, src/Geometry/LadderBath.h:102-110. -/
def ctor (linSize b leg : Nat) (px py : Option Int) (junk : Bool) : Option (Option LadderBath) := do
  let cs := linSize / (1 + b)
  let l ← Ladder.ctor cs leg px py junk
  some (l.map fun l => ⟨linSize, b, cs, l⟩)

/-- `getClusterSite`, src/Geometry/LadderBath.h:233-250: `some none` stands for the pair `(-1,-1)`. -/
def getClusterSite (g : LadderBath) (i : Nat) : Option (Option (Nat × Nat)) :=
  let first := (g.clusterSize / 2) * g.bathSitesPerSite
  let lastP1 := first + g.clusterSize
  if i ≥ first ∧ i < lastP1 then some none
  else
    let middle := g.linSize / 2
    let cs := g.clusterSize / 2
    if cs = 0 then none
    else if i < middle then some (some (i % cs + first, i / cs))
    else
      let iprime := sub64 i lastP1
      let offset := lastP1 - cs
      some (some (iprime % cs + offset, iprime / cs))

/-- src/Geometry/LadderBath.h:137-156, with `connectedInCluster` and `ladderize` (252-296). -/
def connected (g : LadderBath) (i1 i2 : Nat) : Option Bool :=
  if i1 = i2 then some false
  else do
    let c1 ← g.getClusterSite i1
    let c2 ← g.getClusterSite i2
    let first := (g.clusterSize / 2) * g.bathSitesPerSite
    match c1, c2 with
    | none, none => some (g.ladder.connected (i1 - first) (i2 - first))
    | some _, some _ => some false
    | none, some c2 => some (c2.1 == i1)
    | some c1, none => some (c1.1 == i2)

/-- src/Geometry/LadderBath.h:159-169. -/
def calcDir (g : LadderBath) (i1 i2 : Nat) : Option Nat := do
  let c1 ← g.getClusterSite i1
  let c2 ← g.getClusterSite i2
  let first := (g.clusterSize / 2) * g.bathSitesPerSite
  match c1, c2 with
  | none, none => g.ladder.calcDir (i1 - first) (i2 - first)
  | _, _ => some 2

/-- src/Geometry/LadderBath.h:180-196. -/
def handle (g : LadderBath) (i1 i2 : Nat) : Option Nat := do
  let c1 ← g.getClusterSite i1
  let c2 ← g.getClusterSite i2
  let first := (g.clusterSize / 2) * g.bathSitesPerSite
  match c1, c2 with
  | none, none => g.ladder.handle (i1 - first) (i2 - first)
  | none, some x => some ((x.1 - first) * g.bathSitesPerSite + x.2)
  | some x, _ => some ((x.1 - first) * g.bathSitesPerSite + x.2)

/-- src/Geometry/LadderBath.h:130-135. -/
def getVectorSize (g : LadderBath) (dirId : Nat) : Option Nat :=
  if dirId = 2 then some (g.bathSitesPerSite * g.clusterSize) else g.ladder.getVectorSize dirId

end LadderBath

/-! ## KTwoNiFFour -/

namespace KTwo

/-- `TypeEnum` and `SubtypeEnum` together, src/Geometry/KTwoNiFFour.h:89-100: a copper site or an oxygen
site of subtype X or Y. -/
inductive Kind where
  | cu
  | ox
  | oy
  deriving DecidableEq

/-- `findTypeOfSite`, src/Geometry/KTwoNiFFour.h:309-318. -/
def findTypeOfSite (site : Nat) : Kind :=
  let r := (site + 1) % 4
  if r = 0 then .cu else if r = 1 then .ox else .oy

/-- `connected`, src/Geometry/KTwoNiFFour.h:132-167. -/
def connected (i1 i2 : Nat) : Option Bool :=
  if i1 = i2 then some false
  else
    let t1 := findTypeOfSite i1
    let t2 := findTypeOfSite i2
    if t1 = .cu ∧ t2 = .cu then some false
    else if t1 ≠ .cu ∧ t2 ≠ .cu then
      if t1 = t2 then some false
      else
        let n1 := if t1 = .ox then i1 else i2
        let n2 := if t1 = .ox then i2 else i1
        if n1 > n2 then
          if n1 ≥ 4 then some (n1 - 2 == n2 || n1 - 3 == n2) else none
        else if n2 - 1 = n1 then some true
        else some (decide (n2 ≥ 2) && n2 - 2 == n1)
    else
      let n1 := if t1 ≠ .cu then i1 else i2
      let n2 := if t1 ≠ .cu then i2 else i1
      if n2 ≥ 3 then some (n2 - 1 == n1 || n2 - 2 == n1 || n2 - 3 == n1 || n2 + 1 == n1) else none

/-- `calcDir`, src/Geometry/KTwoNiFFour.h:170-197: 0 = X, 1 = Y, 2 = X+Y, 3 = X-Y.  The type
comparison for copper-copper pairs is not reached by connected sites. -/
def calcDir (i1 i2 : Nat) : Option Nat :=
  let t1 := findTypeOfSite i1
  let t2 := findTypeOfSite i2
  if t1 ≠ .cu ∧ t2 ≠ .cu then
    if t1 = t2 then none
    else
      let n1 := if t1 = .ox then i1 else i2
      let n2 := if t1 = .ox then i2 else i1
      if n1 > n2 then
        if n1 ≥ 4 then
          let d := n1 - n2
          if d = 2 then some 2 else if d = 3 then some 3 else none
        else none
      else
        let d := n2 - n1
        if d = 1 then some 2 else if d = 2 then some 3 else none
  else
    let n1 := if t1 ≠ .cu then i1 else i2
    some (if findTypeOfSite n1 = .ox then 0 else 1)

/-- `matrixRank`, src/Geometry/KTwoNiFFour.h:250-263. -/
def matrixRank (linSize : Nat) : Nat :=
  let (no, nc) := (List.range linSize).foldl (fun (p : Nat × Nat) i =>
    if findTypeOfSite i = .cu then (p.1, p.2 + 1) else (p.1 + 1, p.2)) (0, 0)
  2 * no + nc

/-- `index`, src/Geometry/KTwoNiFFour.h:266-277; the outer `none` is the assertion, the inner one
the value `-1`. -/
def index (linSize i orb : Nat) : Option (Option Nat) :=
  let t := findTypeOfSite i
  if t = .cu ∧ orb > 0 then some none
  else if t = .cu ∨ orb = 0 then some (some i)
  else
    let tmp := (i + 1) / 4
    if linSize + i ≥ tmp then some (some (linSize + i - tmp)) else none

/-- `isInverted`, src/Geometry/KTwoNiFFour.h:322-326. -/
def isInverted (i : Nat) : Bool := (i + 4) % 8 == 0

/-- `signChange`, src/Geometry/KTwoNiFFour.h:279-298; `sc` is the input `SignChange=`. -/
def signChange (sc : Int) (i1 i2 : Nat) : Option Int := do
  let n1 := min i1 i2
  let n2 := max i1 i2
  let t1 := findTypeOfSite n1
  let t2 := findTypeOfSite n2
  let sign1 : Int ← (if (t1 = .cu) ≠ (t2 = .cu) then
      let diff := n2 - n1
      if diff = 1 ∨ diff = 2 ∨ diff = 3 then some (if diff < 2 then -1 else 1) else none
    else some 1)
  some (if isInverted i1 || isInverted i2 then sc * sign1 else sign1)

/-- `orbitals`, src/Geometry/KTwoNiFFour.h:300-304. -/
def orbitals (orbs site : Nat) : Nat := if findTypeOfSite site = .cu then 1 else orbs

end KTwo

/-! ## Geometry::split -/

/-- The four outputs of `split`. -/
structure SplitOut where
  S : List Nat
  X : List (List Nat)
  Y : List (List Nat)
  E : List Nat
  deriving DecidableEq

/-- The third loop of `split`, src/Geometry/Geometry.h:243-262; the state is `(i, X, Y)`. -/
def splitThird (linSize s middle : Nat) (allInSystem : Bool) (i : Nat) (X Y : List (List Nat)) :
    Option (Nat × List (List Nat) × List (List Nat)) := do
  let tmpV ← (List.range s).mapM (fun j =>
    let jj := sub64 (sub64 s 1) j
    let v := (sub64 (sub64 (sub64 linSize 1) i) jj + sub64 middle s) % 18446744073709551616
    if v < linSize then some v else none)
  let tmpV2 := (List.range s).map (fun j => sub64 (sub64 s 1) j + i)
  some (i + s, if allInSystem then X ++ [tmpV2] else X, if allInSystem then Y else Y ++ [tmpV])

/-- `Geometry::split`, src/Geometry/Geometry.h:212-269, on empty output vectors.  The outer `none`
is undefined behaviour, a failed assertion or a loop that does not end within `2^64` steps; the
inner `none` is the exception. -/
def split (linSize s : Nat) (allInSystem : Bool) : Option (Option SplitOut) :=
  if s = 0 then none
  else
    let middle := linSize / 2 + (if linSize % 2 = 1 then 1 else 0)
    let b1 := decide (linSize % s ≠ 0) || decide (linSize / s < 3)
    let b2 := decide (s > 1)
    if b1 && b2 then some none
    else do
      let (i, S) ← whileN 18446744073709551616 (fun p : Nat × List Nat => decide (p.1 < s))
        (fun p => some (p.1 + 1, p.2 ++ [p.1])) (0, [])
      let (i, X) ← whileN 18446744073709551616 (fun p : Nat × List (List Nat) => decide (p.1 < middle))
        (fun p => some (p.1 + s, p.2 ++ [(List.range s).map (p.1 + ·)])) (i, [])
      let lastMiddle := sub64 linSize s
      let (i, X, Y) ← whileN 18446744073709551616
        (fun p : Nat × List (List Nat) × List (List Nat) => decide (p.1 < lastMiddle))
        (fun p => splitThird linSize s middle allInSystem p.1 p.2.1 p.2.2) (i, X, [])
      let (_, E) ← whileN 18446744073709551616 (fun p : Nat × List Nat => decide (p.1 < linSize))
        (fun p => some (p.1 + 1, p.2 ++ [p.1])) (i, [])
      some (some ⟨S, X, Y, E⟩)

end Verif.Geom
