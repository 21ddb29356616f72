import Verif.IoNg.ModelMatrix

/-!
# Model of objects that are written as groups, src/Io/IoNgSerializer.h and src/Geometry
-/

namespace Verif.IoNg

open Verif.Dense

variable {α S T : Type}

/-- The members of an object, in the order in which they are written: each under the name of the object, a slash and its own name.
Reading them has the same form. -/
structure Fields (α T : Type) where
  labels : List Str
  write : File α → Str → T → Out (File α)
  read : H5 α → File α → Str → Out T

/-- No members. -/
def Fields.nil : Fields α Unit where
  labels := []
  write f _ _ := .ok f
  read _ _ _ := .ok ()

/-- `ioSerializer.write(label + "/" + w, member)` or `member.write(label + "/" + w, ioSerializer)`, then the others. -/
def Fields.cons (w : Str) (c : Codec α S) (F : Fields α T) : Fields α (S × T) where
  labels := w :: F.labels
  write f name x := do
    let f ← c.write f (name ++ '/' :: w) x.1
    F.write f name x.2
  read h f name := do
    let x ← c.read h f (name ++ '/' :: w)
    let y ← F.read h f name
    return (x, y)

/-- `ioSerializer.createGroup(label)`, then the members. -/
def group [DecidableEq α] (F : Fields α T) : Codec α T where
  write f name x := do
    let f ← createGroup f name
    F.write f name x
  read := F.read

/-- The same values with other names. -/
def Codec.via (c : Codec α S) (fro : T → S) (back : S → T) : Codec α T where
  write f name x := c.write f name (fro x)
  read h f name := (c.read h f name).map back

/-- `write` of an enumeration, src/Io/IoNgSerializer.h:144-157 with src/Io/TypeToH5.h:11-15: the type of the data set is one byte, so that
the first byte of the value is written, the lowest one on the machines considered; enumerations have four bytes. -/
def writeEnum [DecidableEq α] (f : File α) (name : Str) (e : BitVec 32) (m : Mode) : File α :=
  writeScalar f name .uchar (.int (e.setWidth 8).toNat) m

/-- `read` of an enumeration, src/Io/IoNgSerializer.h:420-426. -/
def readEnum (h : H5 α) (f : File α) (name : Str) : Out (BitVec 32) := do
  let x ← readScalar h f name .size (.int 0)
  match x with
  | .int z => return BitVec.ofNat 32 z.toNat
  | .real _ => throwOut

/-- An enumeration; vectors of them (src/Io/IoNgSerializer.h:314-323, 472-480) are written entry by entry, as `writeList` does. -/
def enumCodec [DecidableEq α] : Codec α (BitVec 32) := ⟨fun f name e => .ok (writeEnum f name e .no), readEnum⟩

/-- A `SizeType`. -/
def sizeCodec [DecidableEq α] : Codec α Nat where
  write f name x := .ok (writeScalar f name .size (.int x) .no)
  read h f name := do
    let x ← readScalar h f name .size (.int 0)
    match x with
    | .int z => return z.toNat
    | .real _ => throwOut

/-- A `bool`. -/
def boolCodec [DecidableEq α] : Codec α Bool := ⟨fun f name b => .ok (writeBool f name b .no), readBool⟩

/-- A string. -/
def stringCodec [DecidableEq α] : Codec α Str := ⟨fun f name s => writeString f name s .no, readString⟩

/-- A vector of numbers; one without numbers is not written (src/Io/IoNgSerializer.h:229-230, 249-250) and reading it throws, which is
`none` here. -/
def numbersCodec [DecidableEq α] [Zero α] (el : Elem α T) : Codec α (List T) where
  write f name xs := (el.toLeaf xs).write f name .no
  read h f name :=
    match Leaf.read h f name el.kind with
    | .error .thrown => .ok []
    | .error .ub => ubOut
    | .ok v => match el.ofLeaf v with
      | some xs => .ok xs
      | none => ubOut

/-! ## Geometries -/

/-- `GeometryDirection::Auxiliary`, src/Geometry/GeometryDirection.h:97-121, the members that are written. -/
structure DirAux where
  constantValues : Bool
  dirId : Nat
  idof : BitVec 32
  deriving DecidableEq

/-- `GeometryDirection::Auxiliary::write`, src/Geometry/GeometryDirection.h:107-115. -/
def dirAuxCodec [DecidableEq α] : Codec α DirAux :=
  (group (.cons "constantValues".toList boolCodec <| .cons "dirId".toList sizeCodec <| .cons "edof".toList enumCodec .nil)).via
    (fun a => (a.constantValues, a.dirId, a.idof, ())) (fun x => ⟨x.1, x.2.1, x.2.2.1⟩)

/-- `GeometryDirection`, src/Geometry/GeometryDirection.h:264-268, the members that are written. -/
structure DirFile (T : Type) where
  aux : DirAux
  numbers : List T
  matrices : List (Mat T)
  rawHoppings : Mat T
  deriving DecidableEq

/-- `GeometryDirection::write`, src/Geometry/GeometryDirection.h:168-176. -/
def dirCodec [DecidableEq α] [Zero α] (el : Elem α T) : Codec α (DirFile T) :=
  (group (.cons "aux_".toList dirAuxCodec <| .cons "dataNumbers_".toList (numbersCodec el) <|
    .cons "dataMatrices_".toList ⟨writeList ⟨writeMat el, readMat el ⟨0, 0, []⟩⟩, readList ⟨writeMat el, readMat el ⟨0, 0, []⟩⟩⟩ <|
    .cons "rawHoppings_".toList ⟨writeMat el, readMat el ⟨0, 0, []⟩⟩ .nil)).via
    (fun d => (d.aux, d.numbers, d.matrices, d.rawHoppings, ())) (fun x => ⟨x.1, x.2.1, x.2.2.1, x.2.2.2.1⟩)

/-- `GeometryTerm::Auxiliary`, src/Geometry/GeometryTerm.h:113-138. -/
structure TermAux where
  debug : Bool
  termId : Nat
  numberOfTerms : Nat
  linSize : Nat
  deriving DecidableEq

/-- `GeometryTerm::Auxiliary::write`, src/Geometry/GeometryTerm.h:123-132. -/
def termAuxCodec [DecidableEq α] : Codec α TermAux :=
  (group (.cons "debug".toList boolCodec <| .cons "termId".toList sizeCodec <| .cons "numberOfTerms".toList sizeCodec <|
    .cons "linSize".toList sizeCodec .nil)).via
    (fun a => (a.debug, a.termId, a.numberOfTerms, a.linSize, ())) (fun x => ⟨x.1, x.2.1, x.2.2.1, x.2.2.2.1⟩)

/-- `GeometryTerm`, src/Geometry/GeometryTerm.h:509-516, the members that are written. -/
structure TermFile (T : Type) where
  aux : TermAux
  orbitals : Nat
  options : Str
  directions : List (DirFile T)
  cached : Mat T
  deriving DecidableEq

/-- `GeometryTerm::write`, src/Geometry/GeometryTerm.h:273-282. -/
def termCodec [DecidableEq α] [Zero α] (el : Elem α T) : Codec α (TermFile T) :=
  (group (.cons "aux_".toList termAuxCodec <| .cons "orbitals_".toList sizeCodec <| .cons "gOptions_".toList stringCodec <|
    .cons "directions_".toList ⟨writeList (dirCodec el), readList (dirCodec el)⟩ <|
    .cons "cachedValues_".toList ⟨writeMat el, readMat el ⟨0, 0, []⟩⟩ .nil)).via
    (fun t => (t.aux, t.orbitals, t.options, t.directions, t.cached, ()))
    (fun x => ⟨x.1, x.2.1, x.2.2.1, x.2.2.2.1, x.2.2.2.2.1⟩)

/-- `Geometry`, src/Geometry/Geometry.h:338-339. -/
structure GeoFile (T : Type) where
  linSize : Nat
  terms : List (TermFile T)
  deriving DecidableEq

/-- `Geometry::write`, src/Geometry/Geometry.h:149-154; the terms are pointers, src/Io/IoNgSerializer.h:362-371. -/
def geoCodec [DecidableEq α] [Zero α] (el : Elem α T) : Codec α (GeoFile T) :=
  (group (.cons "linSize_".toList sizeCodec <| .cons "terms_".toList ⟨writeList (termCodec el), readList (termCodec el)⟩ .nil)).via
    (fun g => (g.linSize, g.terms, ())) (fun x => ⟨x.1, x.2.1⟩)

end Verif.IoNg
