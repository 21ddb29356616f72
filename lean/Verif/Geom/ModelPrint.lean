import Verif.Geom.ModelTerm
import Verif.TextIo.Model

/-!
# Model of geometries as text, src/Geometry/GeometryDirection.h, src/Geometry/GeometryTerm.h and src/Geometry/Geometry.h
-/

namespace Verif.Geom

open Verif.Loop Verif.Dense

variable {α : Type}

/-- A number of type `SizeType`, an enumeration or a `bool` as text. -/
def num (n : Nat) : List Char := Nat.toDigits 10 n

/-- `InternalDofEnum`, src/Geometry/GeometryDirection.h:94-95. -/
inductive Dof
  | general
  | specific
  deriving DecidableEq

/-- The number of the enumerator. -/
def Dof.val : Dof → Nat
  | .general => 0
  | .specific => 1

/-- `GeometryDirection::Auxiliary`, src/Geometry/GeometryDirection.h:97-121. -/
structure PrintAux where
  const : Bool
  dirId : Nat
  idof : Dof
  orbitals : Nat

/-- `operator<<` of `Auxiliary`, src/Geometry/GeometryDirection.h:220-227. -/
def auxText (a : PrintAux) : List Char :=
  "constantValues=".toList ++ num (if a.const then 1 else 0) ++ "\n".toList ++ "dirId=".toList ++ num a.dirId ++ "\n".toList ++
    "edof=".toList ++ num a.idof.val ++ "\n".toList

/-- `operator<<` of a direction, src/Geometry/GeometryDirection.h:229-253; `text` is `os << x` for a connector. -/
def dirText (text : α → List Char) (a : PrintAux) (d : DirData α) : Option (List Char) :=
  let head := "#GeometryDirectionAuxiliary\n".toList ++ auxText a
  if ¬ (a.orbitals > 1 ∨ a.idof = .specific) then
    some (head ++ "#GeometryNumbersSize=".toList ++ num d.numbers.length ++ "\n".toList ++ "#GeometryNumbers=".toList ++
      d.numbers.flatMap (fun x => text x ++ [' ']) ++ "\n".toList)
  else
    d.matrices.foldlM (fun os m => (TextIo.matText text m).map (os ++ ·))
      (head ++ "#GeometryMatrixSize=".toList ++ num d.matrices.length ++ "\n".toList)

/-- `GeometryTerm::print`, src/Geometry/GeometryTerm.h:398-422; `orbOf` is the number of orbitals of a site
(src/Geometry/GeometryTerm.h:453-457). -/
def termPrint (text : α → List Char) (b : Base) (orbOf : Nat → Nat) (linSize orbitals : Nat) (cached : Mat α) : Option (List Char) :=
  loopN linSize (fun i os => loopN (orbOf i) (fun dof1 os => do
    let os ← loopN linSize (fun j os => loopN (orbOf j) (fun dof2 os => do
      let c ← b.connected i j
      if !c then return os ++ "0 ".toList
      else do
        let v ← termValue b orbitals cached i dof1 j dof2
        return os ++ text v ++ [' ']) os) os
    return os ++ ['\n']) os) "#orbital changes first\n".toList

/-- `operator<<` of a term, src/Geometry/GeometryTerm.h:443-451: the directions, then the matrix. -/
def termText (text : α → List Char) (b : Base) (orbOf : Nat → Nat) (linSize orbitals : Nat) (cached : Mat α)
    (dirs : List (PrintAux × DirData α)) : Option (List Char) := do
  let os ← dirs.foldlM (fun os d => (dirText text d.1 d.2).map (os ++ ·)) ("#GeometryDirections=".toList ++ num dirs.length ++ "\n".toList)
  let m ← termPrint text b orbOf linSize orbitals cached
  return os ++ m

/-- `operator<<` of a geometry, src/Geometry/Geometry.h:342-352, with the texts of the terms. -/
def geoText (linSize : Nat) (terms : List (Option (List Char))) : Option (List Char) :=
  terms.foldlM (fun os t => t.map (os ++ ·))
    ("#GeometrySize=".toList ++ num linSize ++ "\n".toList ++ "#GeometryTerms=".toList ++ num terms.length ++ "\n".toList)

end Verif.Geom
