import Verif.Geom.ModelTerm
import Verif.Geom.ModelHoneycomb
import Verif.InputNg.ModelValues

/-!
# Model of the construction of a geometry from an input file

`Readable` is the model of `InputNg<…>::Readable` for files that are not Ainur files, for which `prefix()` has no effect
(src/InputNg.h:642-650) and `version()` is 2 (src/InputNg.h:631).  `num` reads one number and `mat` one matrix.
-/

namespace Verif.Geom

open Verif.Dense Verif.InputNg

variable {α : Type}

/-- `try { readline(x, label); } catch (…) {}` with `int x`, as in src/Geometry/LongChain.h:103-119. -/
def tryInt (r : Readable) (label : Str) : Out (Option Int × Readable) :=
  match readValue asInt r label with
  | .ok (x, r) => .ok (some x, r)
  | .error .thrown => .ok (none, r)
  | .error .ub => ubOut

/-- The same with `SizeType x`, src/Geometry/GeometryTerm.h:167-174. -/
def trySize (r : Readable) (label : Str) : Out (Option Nat × Readable) :=
  match readValue asSize r label with
  | .ok (x, r) => .ok (some x, r)
  | .error .thrown => .ok (none, r)
  | .error .ub => ubOut

/-- `Star` with the defaults of the base class, src/Geometry/Star.h:95-124. -/
def starBase (linSize : Nat) : Base where
  dirs := 1
  connected i j := some (Star.connected i j)
  calcDir _ _ := some 0
  handle i j := some (Star.handle i j)
  getVectorSize := Star.getVectorSize linSize
  signChange _ _ := some 1
  index := defaultIndex
  matrixRank l o := l * o

/-- `LadderX` with the defaults of the base class (`dirs`: src/Geometry/LadderX.h:111). -/
def ladderxBase (g : LadderX) : Base where
  dirs := 4
  connected i j := some (g.connected i j)
  calcDir i j := some (g.calcDir i j)
  handle := g.handle
  getVectorSize := g.getVectorSize
  signChange _ _ := some 1
  index := defaultIndex
  matrixRank l o := l * o

/-- `LadderBath` with the defaults of the base class (`dirs`: src/Geometry/LadderBath.h:118). -/
def bathBase (g : LadderBath) : Base where
  dirs := 3
  connected := g.connected
  calcDir := g.calcDir
  handle := g.handle
  getVectorSize := g.getVectorSize
  signChange _ _ := some 1
  index := defaultIndex
  matrixRank l o := l * o

/-- `Honeycomb` with the defaults of the base class (src/Geometry/Honeycomb.h:122, 134-138, 165-168: `handle` and
`getVectorSize` only throw). -/
def honeyBase (g : Honeycomb) : Base where
  dirs := 3
  connected := g.connected
  calcDir := g.calcDir
  handle _ _ := none
  getVectorSize _ := none
  signChange _ _ := some 1
  index := defaultIndex
  matrixRank l o := l * o

/-- The lines that the constructor of `Ladder` reads, src/Geometry/Ladder.h:101-130; `junk` is the memory of a flag that is
not set. -/
def readLadder (junk : Bool) (linSize : Nat) (r : Readable) : Out (Ladder × Readable) := do
  let (leg, r) ← readValue asSize r "LadderLeg=".toList
  let (px, r) ← tryInt r "IsPeriodicX=".toList
  let (py, r) ← tryInt r "IsPeriodicY=".toList
  match Ladder.ctor linSize leg px py junk with
  | none => ubOut
  | some none => throwOut
  | some (some g) => return (g, r)

/-- The choice of the geometry, src/Geometry/GeometryTerm.h:185-231; `none` is the null pointer of a `Super` geometry.  The kinds
`LongRange` and `General`, which have a model of their own, are not here: they give undefined behaviour. -/
def readKind (junk : Bool) (s : Str) (linSize : Nat) (r : Readable) : Out (Option Base × Readable) :=
  if s = "chain".toList ∨ s = "longchain".toList then do
    let (px, r) ← tryInt r "IsPeriodicX=".toList
    let (d, r) ← tryInt r "LongChainDistance=".toList
    return (some (chainBase (LongChain.ctor linSize px (d.map fun d => (d % 2 ^ 64).toNat))), r)
  else if s = "chainEx".toList then throwOut
  else if s = "ladder".toList then do
    let (g, r) ← readLadder junk linSize r
    return (some (ladderBase g), r)
  else if s = "ladderx".toList then do
    let (g, r) ← readLadder junk linSize r
    return (some (ladderxBase ⟨g⟩), r)
  else if s = "ladderbath".toList then do
    let (n, r) ← readValue asSize r "BathSitesPerSite=".toList
    let (g, r) ← readLadder junk (linSize / (1 + n)) r
    return (some (bathBase ⟨linSize, n, linSize / (1 + n), g⟩), r)
  else if s = "ktwoniffour".toList then do
    let (sc, r) ← readValue asInt r "SignChange=".toList
    return (some (ktwoBase linSize sc), r)
  else if s = "star".toList then return (some (starBase linSize), r)
  else if s = "LongRange".toList ∨ s = "General".toList then ubOut
  else if s = "Honeycomb".toList then do
    let (ly, r) ← readValue asSize r "HoneycombLy=".toList
    let (py, r) ← readValue asInt r "IsPeriodicY=".toList
    let (px, r) ← tryInt r "IsPeriodicX=".toList
    match Honeycomb.ctor linSize (some ly) (some py) px with
    | none => throwOut
    | some g => return (some (honeyBase g), r)
  else if s.take 5 = "Super".toList then return (none, r)
  else throwOut

/-- The loop that reads matrices, src/Geometry/GeometryDirection.h:144-154. -/
def readMatrices (mat : List Str → Out (Mat α)) (orbitals : Nat) : Nat → List (Mat α) → Readable → Out (List (Mat α) × Readable)
  | 0, ms, r => .ok (ms, r)
  | n + 1, ms, r => do
    let (m, r) ← readMatrix mat r "Connectors".toList
    if orbitals ≠ m.nrow ∨ orbitals ≠ m.ncol then throwOut
    else readMatrices mat orbitals n (ms ++ [m]) r

/-- The constructor of a direction, src/Geometry/GeometryDirection.h:123-168 and 257-262, for `SPECIFIC` data.  A size that the
geometry does not give is undefined behaviour here, although some geometries throw. -/
def readDirection (num : Str → Out α) (mat : List Str → Out (Mat α)) (b : Base) (const : Bool) (orbitals dirId : Nat) (r : Readable) :
    Out (DirData α × Readable) :=
  match (if const then some 1 else b.getVectorSize dirId) with
  | none => ubOut
  | some n =>
    if orbitals > 1 then do
      let (ms, r) ← readMatrices mat orbitals (if n = 0 then 1 else n) [] r
      return (⟨[], ms⟩, r)
    else do
      let (s, r) ← readVector r "Connectors".toList
      let xs ← s.mapM num
      if xs.length ≠ n then throwOut
      else return (⟨xs, []⟩, r)

/-- The loop over the directions, src/Geometry/GeometryTerm.h:233-240. -/
def readDirections (num : Str → Out α) (mat : List Str → Out (Mat α)) (b : Base) (const : Bool) (orbitals : Nat) :
    Nat → List (DirData α) → Readable → Out (List (DirData α) × Readable)
  | 0, ds, r => .ok (ds, r)
  | n + 1, ds, r => do
    let (d, r) ← readDirection num mat b const orbitals ds.length r
    readDirections num mat b const orbitals n (ds ++ [d]) r

/-- What a term holds, src/Geometry/GeometryTerm.h:509-514. -/
structure Term (α : Type) where
  orbitals : Nat
  base : Option Base
  options : Str
  cached : Mat α

/-- The constructor of a term, src/Geometry/GeometryTerm.h:154-265. -/
def readTerm [Mul α] [Star α] [IntCast α] [Zero α] (junk : Bool) (num : Str → Out α) (mat : List Str → Out (Mat α)) (linSize : Nat)
    (r : Readable) : Out (Term α × Readable) := do
  let (x, r) ← trySize r "DegreesOfFreedom=".toList
  let orbitals := x.getD 1
  if orbitals = 0 then throwOut
  else do
    let (s, r) ← readline r "GeometryKind=".toList
    let (options, r) ← readline r "GeometryOptions=".toList
    let const := decide ("ConstantValues".toList <:+: options)
    let (b, r) ← readKind junk s linSize r
    match b with
    | none =>
      match readline r "GeometryValueModifier=".toList with
      | .ok _ => throwOut
      | .error .ub => ubOut
      | .error .thrown => return (⟨orbitals, none, s, ⟨0, 0, []⟩⟩, r)
    | some b => do
      let (ds, r) ← readDirections num mat b const orbitals b.dirs [] r
      match readline r "GeometryValueModifier=".toList with
      | .ok _ => throwOut
      | .error .ub => ubOut
      | .error .thrown =>
        match cacheValues b linSize orbitals const ds with
        | none => ubOut
        | some c => return (⟨orbitals, some b, options, c⟩, r)

/-- The loop over the terms, src/Geometry/Geometry.h:125-129. -/
def readTerms [Mul α] [Star α] [IntCast α] [Zero α] (junk : Bool) (num : Str → Out α) (mat : List Str → Out (Mat α)) (linSize : Nat) :
    Nat → List (Term α) → Readable → Out (List (Term α) × Readable)
  | 0, ts, r => .ok (ts, r)
  | n + 1, ts, r => do
    let (t, r) ← readTerm junk num mat linSize r
    readTerms junk num mat linSize n (ts ++ [t]) r

/-- A geometry, src/Geometry/Geometry.h:338. -/
structure Geo (α : Type) where
  linSize : Nat
  terms : List (Term α)

/-- The constructor of a geometry, src/Geometry/Geometry.h:110-130 (without a mesh, src/Geometry/GeometryEx.h). -/
def readGeo [Mul α] [Star α] [IntCast α] [Zero α] (junk : Bool) (num : Str → Out α) (mat : List Str → Out (Mat α)) (r : Readable) :
    Out (Geo α × Readable) := do
  let (x, r) ← readValue asInt r "TotalNumberOfSites=".toList
  if x < 0 then throwOut
  else do
    let (y, r) ← readValue asInt r "NumberOfTerms=".toList
    if y < 0 then throwOut
    else do
      let (ts, r) ← readTerms junk num mat x.toNat y.toNat [] r
      return (⟨x.toNat, ts⟩, r)

/-- `operator()(i1, edof1, i2, edof2, term)`, src/Geometry/Geometry.h:182-185 and src/Geometry/GeometryTerm.h:317-324. -/
def Geo.value (g : Geo α) (i1 edof1 i2 edof2 term : Nat) : Option α := do
  let t ← g.terms[term]?
  let b ← t.base
  termValue b t.orbitals t.cached i1 edof1 i2 edof2

end Verif.Geom
