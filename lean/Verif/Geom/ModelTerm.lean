import Verif.Geom.Model
import Verif.Dense.Model

/-!
# Model of the connector values, src/Geometry/GeometryDirection.h and src/Geometry/GeometryTerm.h
-/

namespace Verif.Geom

open Verif.Loop Verif.Dense

/-- The virtual functions of a geometry that the connectors use, src/Geometry/GeometryBase.h:101-149.
`none` is a failed assertion, an exception or undefined behaviour; the inner option of `index` is
the negative result. -/
structure Base where
  dirs : Nat
  connected : Nat → Nat → Option Bool
  calcDir : Nat → Nat → Option Nat
  handle : Nat → Nat → Option Nat
  getVectorSize : Nat → Option Nat
  signChange : Nat → Nat → Option Int
  index : Nat → Nat → Nat → Option (Option Nat)
  matrixRank : Nat → Nat → Nat

/-- Default `index`, src/Geometry/GeometryBase.h:131-135. -/
def defaultIndex (i edof total : Nat) : Option (Option Nat) :=
  if edof < total then some (some (edof + i * total)) else none

/-- `LongChain` with the defaults of the base class (`dirs` and `calcDir`:
src/Geometry/LongChain.h:125, 157; rank and sign: src/Geometry/GeometryBase.h:137-142). -/
def chainBase (g : LongChain) : Base where
  dirs := 1
  connected i j := some (g.connected i j)
  calcDir _ _ := some 0
  handle i j := some (g.handle i j)
  getVectorSize := g.getVectorSize
  signChange _ _ := some 1
  index := defaultIndex
  matrixRank l o := l * o

/-- `Ladder` with the defaults of the base class (`dirs`: src/Geometry/Ladder.h:140). -/
def ladderBase (g : Ladder) : Base where
  dirs := 2
  connected i j := some (g.connected i j)
  calcDir := g.calcDir
  handle := g.handle
  getVectorSize := g.getVectorSize
  signChange _ _ := some 1
  index := defaultIndex
  matrixRank l o := l * o

/-- `KTwoNiFFour`, src/Geometry/KTwoNiFFour.h:114-326; `getVectorSize` and `handle` only fail. -/
def ktwoBase (linSize : Nat) (sc : Int) : Base where
  dirs := 4
  connected := KTwo.connected
  calcDir := KTwo.calcDir
  handle _ _ := none
  getVectorSize _ := none
  signChange := KTwo.signChange sc
  index i edof _ := KTwo.index linSize i edof
  matrixRank l _ := KTwo.matrixRank l

/-- Data of one direction, src/Geometry/GeometryDirection.h:264-268. -/
structure DirData (α : Type) where
  numbers : List α
  matrices : List (Mat α)

variable {α : Type}

/-- `dataMatrices_[h](edof1, edof2) * signChange`, src/Geometry/GeometryDirection.h:204-215. -/
def matrixValue [Mul α] [IntCast α] (b : Base) (d : DirData α) (h i edof1 j edof2 : Nat) : Option α := do
  let m ← d.matrices[h]?
  let tmp ← (if m.nrow > edof1 ∧ m.ncol > edof2 then m.get edof1 edof2
    else if m.nrow > edof2 ∧ m.ncol > edof1 then m.get edof2 edof1 else none)
  let s ← b.signChange i j
  some (tmp * ((s : Int) : α))

/-- `GeometryDirection::operator()`, src/Geometry/GeometryDirection.h:184-216, for `SPECIFIC` data.
The recursive call swaps the sites, so it takes the other branch and the recursion has depth one; it
is written out. -/
def dirValue [Mul α] [Star α] [IntCast α] (b : Base) (orbitals : Nat) (const : Bool) (d : DirData α)
    (i edof1 j edof2 : Nat) : Option α := do
  let ii := edof1 + i * orbitals
  let jj := edof2 + j * orbitals
  if ¬ orbitals > 1 then
    let h ← (if const then some 0 else b.handle i j)
    d.numbers[h]?
  else if ii < jj then
    let h ← (if const then some 0 else b.handle j i)
    let v ← matrixValue b d h j edof2 i edof1
    some (star v)
  else
    let h ← (if const then some 0 else b.handle i j)
    matrixValue b d h i edof1 j edof2

/-- `calcValue`, src/Geometry/GeometryTerm.h:494-503. -/
def calcValue [Mul α] [Star α] [IntCast α] [Zero α] (b : Base) (orbitals : Nat) (const : Bool)
    (dirs : List (DirData α)) (i1 edof1 i2 edof2 : Nat) : Option α := do
  let c ← b.connected i1 i2
  if !c then some 0
  else do
    let dir ← b.calcDir i1 i2
    let d ← dirs[dir]?
    dirValue b orbitals const d i1 edof1 i2 edof2

/-- `cacheValues`, src/Geometry/GeometryTerm.h:461-492, with `value` for `calcValue`. -/
def cacheWith [Zero α] (b : Base) (linSize orbitals : Nat) (value : Nat → Nat → Nat → Nat → Option α) :
    Option (Mat α) :=
  let rank := b.matrixRank linSize orbitals
  loopN linSize (fun i1 c => loopN linSize (fun i2 c => do
    let conn ← b.connected i1 i2
    if !conn then some c
    else loopN orbitals (fun edof1 c => do
      let k1 ← b.index i1 edof1 orbitals
      match k1 with
      | none => some c
      | some k1 => loopN orbitals (fun edof2 c => do
          let k2 ← b.index i2 edof2 orbitals
          match k2 with
          | none => some c
          | some k2 => do
            let v ← value i1 edof1 i2 edof2
            c.set k1 k2 v) c) c) c) (Mat.mk0 rank rank)

/-- `cacheValues`, src/Geometry/GeometryTerm.h:461-492, for `SPECIFIC` data. -/
def cacheValues [Mul α] [Star α] [IntCast α] [Zero α] (b : Base) (linSize orbitals : Nat) (const : Bool)
    (dirs : List (DirData α)) : Option (Mat α) := cacheWith b linSize orbitals (calcValue b orbitals const dirs)

/-- `GeometryTerm::operator()`, src/Geometry/GeometryTerm.h:317-324. -/
def termValue (b : Base) (orbitals : Nat) (cached : Mat α) (i1 edof1 i2 edof2 : Nat) : Option α := do
  let k1 ← b.index i1 edof1 orbitals
  let k2 ← b.index i2 edof2 orbitals
  let k1 ← k1
  let k2 ← k2
  cached.get k1 k2

end Verif.Geom
