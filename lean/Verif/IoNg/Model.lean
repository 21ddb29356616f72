import Verif.Util.Out
import Verif.Util.Loop
import Verif.Util.Str
import Mathlib.Data.List.Basic

/-!
# Model of `IoNg` and `IoNgSerializer`: values stored under names in an HDF5 file

HDF5 itself is modelled by the few calls that the code makes (trusted, see DESIGN.md): a file is a tree of groups and
data sets; data sets have a type and a list of values; the library converts values between numeric types on reading.
-/

namespace Verif.IoNg

abbrev Str := List Char

/-! ## HDF5 -/

/-- The native types used here, src/Io/TypeToH5.cpp:8-59 (`char`, `unsigned char`, `int`, `unsigned long`,
`float` or `double`). -/
inductive Ty
  | char
  | uchar
  | int
  | size
  | real
  deriving DecidableEq, Repr

/-- A number in a data set. -/
inductive Num (α : Type)
  | int (z : Int)
  | real (x : α)
  deriving DecidableEq

/-- The values that fit into a type. -/
def Num.Fits {α : Type} : Ty → Num α → Prop
  | .char, .int z => -128 ≤ z ∧ z < 128
  | .uchar, .int z => 0 ≤ z ∧ z < 256
  | .int, .int z => -2147483648 ≤ z ∧ z < 2147483648
  | .size, .int z => 0 ≤ z ∧ z < 2 ^ 64
  | .real, .real _ => True
  | _, _ => False

/-- The conversion between types on reading: exact when the value fits. -/
structure H5 (α : Type) where
  cvt : Ty → Ty → Num α → Num α
  cvt_fits : ∀ s t x, Num.Fits t x → cvt s t x = x

/-- A data set. -/
structure Dataset (α : Type) where
  ty : Ty
  vals : List (Num α)
  deriving DecidableEq

/-- What a name in a file stands for. -/
inductive Node (α : Type)
  | group
  | data (d : Dataset α)
  deriving DecidableEq

/-- A path. -/
abbrev Path := List Str

/-- The contents of a file. -/
abbrev File (α : Type) := Path → Option (Node α)

/-- A new file: only the root. -/
def File.empty {α : Type} : File α := fun p => if p = [] then some .group else none

/-- The file with `p` set. -/
def File.set {α : Type} (f : File α) (p : Path) (n : Option (Node α)) : File α := fun q => if q = p then n else f q

/-- A path written as text: the parts between slashes. -/
def h5path (s : Str) : Path := Str.pieces (fun c => decide (c = '/')) s

variable {α : Type}

/-- `H5File::createGroup`. -/
def File.createGroup [DecidableEq α] (f : File α) (s : Str) : Out (File α) :=
  let p := h5path s
  if p ≠ [] ∧ f p = none ∧ f p.dropLast = some .group then .ok (f.set p (some .group)) else throwOut

/-- `H5File::createDataSet` and `DataSet::write`. -/
def File.createDataSet [DecidableEq α] (f : File α) (s : Str) (d : Dataset α) : Out (File α) :=
  let p := h5path s
  if p ≠ [] ∧ f p = none ∧ f p.dropLast = some .group then .ok (f.set p (some (.data d))) else throwOut

/-- `H5File::openDataSet`. -/
def File.openDataSet (f : File α) (s : Str) : Out (Dataset α) :=
  match f (h5path s) with
  | some (.data d) => .ok d
  | _ => throwOut

/-- `H5File::unlink`: a data set goes, a group goes with all that is in it. -/
def File.unlink (f : File α) (s : Str) : Out (File α) :=
  let p := h5path s
  match f p with
  | none => throwOut
  | some (.data _) => .ok (f.set p none)
  | some .group => if p = [] then throwOut else .ok fun q => if p <+: q then none else f q

/-! ## Writing and reading numbers -/

/-- `"Def/" + name2`. -/
def inDef (name : Str) : Str := "Def/".toList ++ name

/-- `WriteMode`, src/Io/IoNgSerializer.h:31-32. -/
inductive Mode
  | no
  | allow
  deriving DecidableEq

/-- `internalWrite`, src/Io/IoNgSerializer.h:621-645: an exception of `createDataSet` is caught, the value is lost. -/
def internalWrite [DecidableEq α] (f : File α) (name : Str) (d : Dataset α) : File α :=
  match f.createDataSet name d with
  | .ok f => f
  | .error _ => f

/-- `overwrite`, src/Io/IoNgSerializer.h:608-619: a failure to unlink is only reported. -/
def overwrite [DecidableEq α] (f : File α) (name : Str) (d : Dataset α) : File α :=
  match f.unlink name with
  | .ok f => internalWrite f name d
  | .error _ => internalWrite f name d

/-- One of the two. -/
def put [DecidableEq α] (f : File α) (m : Mode) (name : Str) (d : Dataset α) : File α :=
  match m with
  | .no => internalWrite f name d
  | .allow => overwrite f name d

/-- `write` of a number, src/Io/IoNgSerializer.h:144-157. -/
def writeScalar [DecidableEq α] (f : File α) (name : Str) (ty : Ty) (x : Num α) (m : Mode) : File α :=
  put f m (inDef name) ⟨ty, [x]⟩

/-- The code of a character. -/
def code (c : Char) : Num α := .int c.toNat

/-- `write` of a string, src/Io/IoNgSerializer.h:159-167. -/
def writeString [DecidableEq α] (f : File α) (name : Str) (s : Str) (m : Mode) : Out (File α) :=
  if m = .allow then throwOut else .ok (internalWrite f (inDef name) ⟨.char, s.map code⟩)

/-- `write` of a `bool`, src/Io/IoNgSerializer.h:169-184. -/
def writeBool [DecidableEq α] (f : File α) (name : Str) (b : Bool) (m : Mode) : File α :=
  put f m (inDef name) ⟨.uchar, [.int (if b then 1 else 0)]⟩

/-- `name2 + "ComplexOrReal"`. -/
def marker (name : Str) : Str := name ++ "ComplexOrReal".toList

/-- `writeComplexOrReal`, src/Io/IoNgSerializer.h:806-810. -/
def writeComplexOrReal [DecidableEq α] (f : File α) (name : Str) (c : Char) : File α :=
  writeScalar f (marker name) .char (code c) .no

/-- `write` of a vector of numbers, src/Io/IoNgSerializer.h:225-243. -/
def writeVector [DecidableEq α] (f : File α) (name : Str) (ty : Ty) (xs : List (Num α)) (m : Mode) : File α :=
  if xs = [] then f
  else
    let f := if ty = .real then writeComplexOrReal f name 'R' else f
    put f m (inDef name) ⟨ty, xs⟩

/-- `write` of a vector of complex numbers, src/Io/IoNgSerializer.h:245-263; when overwriting, the name is used without
`Def/`. -/
def writeComplex [DecidableEq α] (f : File α) (name : Str) (xs : List (α × α)) (m : Mode) : File α :=
  if xs = [] then f
  else
    let d : Dataset α := ⟨.real, xs.flatMap fun x => [.real x.1, .real x.2]⟩
    let f := writeComplexOrReal f name 'C'
    match m with
    | .allow => overwrite f name d
    | .no => internalWrite f (inDef name) d

/-- `read` of a number, src/Io/IoNgSerializer.h:377-384; all values of the data set are written to the address of one. -/
def readScalar (h : H5 α) (f : File α) (name : Str) (ty : Ty) (old : Num α) : Out (Num α) := do
  let d ← f.openDataSet (inDef name)
  match d.vals with
  | [] => return old
  | [x] => return h.cvt d.ty ty x
  | _ => ubOut

/-- `ReadEnum`, src/Io/IoNgSerializer.h:541-543. -/
inductive Kind
  | floating
  | complex
  | other
  deriving DecidableEq

/-- `getReadEnumOnDisk`, src/Io/IoNgSerializer.h:812-824. -/
def onDisk [DecidableEq α] (h : H5 α) (f : File α) (name : Str) : Out Kind :=
  match readScalar h f (marker name) .char (.int 0) with
  | .error .ub => ubOut
  | .error .thrown => .ok .other
  | .ok x => .ok (if x = code 'C' then .complex else .floating)

/-- The first part of `readInternal`, src/Io/IoNgSerializer.h:547-570: the data set, and what the file says it is. -/
def readInternal [DecidableEq α] (h : H5 α) (f : File α) (name : Str) : Out (Dataset α × Kind) := do
  let d ← f.openDataSet (inDef name)
  if d.vals = [] then throwOut
  else
    let k ← onDisk h f name
    return (d, k)

/-- `readInternal` to a vector of numbers, src/Io/IoNgSerializer.h:572-581 and 598. -/
def readVector [DecidableEq α] (h : H5 α) (f : File α) (name : Str) (ty : Ty) : Out (List (Num α)) := do
  let r ← readInternal h f name
  if r.2 = (if ty = .real then Kind.floating else Kind.other) then return r.1.vals.map (h.cvt r.1.ty ty)
  else throwOut

/-- Pairs of numbers. -/
def toPairs : List (Num α) → Option (List (α × α))
  | [] => some []
  | .real x :: .real y :: l => (toPairs l).map ((x, y) :: ·)
  | _ => none

/-- `readInternal` to a vector of complex numbers, src/Io/IoNgSerializer.h:572-598; `getHalfSize` (797-804) throws on an
odd number of values. -/
def readComplex [DecidableEq α] [Zero α] (h : H5 α) (f : File α) (name : Str) : Out (List (α × α)) := do
  let r ← readInternal h f name
  match r.2 with
  | .complex =>
    if r.1.vals.length % 2 = 1 then throwOut
    else ofThrow (toPairs (r.1.vals.map (h.cvt r.1.ty .real)))
  | .floating => ofThrow (toPairs ((r.1.vals.map (h.cvt r.1.ty .real)).flatMap fun x => [x, .real 0]))
  | .other => throwOut

/-- The character with this code. -/
def unCode : Num α → Option Char
  | .int z => some (Char.ofNat z.toNat)
  | .real _ => none

/-- `read` of a string, src/Io/IoNgSerializer.h:386. -/
def readString [DecidableEq α] (h : H5 α) (f : File α) (name : Str) : Out Str := do
  let v ← readVector h f name .char
  ofThrow (v.mapM unCode)

/-- `read` of a `bool`, src/Io/IoNgSerializer.h:388-397. -/
def readBool (h : H5 α) (f : File α) (name : Str) : Out Bool := do
  let x ← readScalar h f name .uchar (.int 0)
  match x with
  | .int z => return z % 2 = 1
  | .real _ => throwOut

/-! ## Vectors of `bool` -/

/-- `encodeBooleanSize`, src/Io/IoNgSerializer.h:768-781: the first `n` bytes; zero after the loop is left. -/
def encodeSize : Nat → Nat → List (BitVec 8)
  | 0, _ => []
  | n + 1, tmp => BitVec.ofNat 8 (tmp % 256) ::
      if tmp / 256 = 0 then List.replicate n 0 else encodeSize n (tmp / 256)

/-- The state of the loops of `convertFromBoolean` and `convertToBoolean`. -/
structure Pack where
  bytes : List (BitVec 8)
  mask : BitVec 8
  j : Nat
  count : Nat
  dest : List Bool

/-- The end of the body of both loops, src/Io/IoNgSerializer.h:724-730 and 758-764. -/
def Pack.next (s : Pack) (i : Nat) : Pack :=
  let mask := s.mask <<< 1
  let count := if i > 0 ∧ (i + 1) % 8 = 0 then s.count + 1 else s.count
  if count = 1 then { s with mask := 1, j := s.j + 1, count := 0 }
  else { s with mask := mask, count := count }

/-- The body of the loop of `convertFromBoolean`, src/Io/IoNgSerializer.h:719-731. -/
def packStep (src : List Bool) (i : Nat) (s : Pack) : Option Pack := do
  let b ← src[i]?
  let bytes ← (if b then Loop.updAt s.bytes s.j (· ||| s.mask) else some s.bytes)
  return Pack.next { s with bytes := bytes } i

/-- `convertFromBoolean`, src/Io/IoNgSerializer.h:699-734 (`none`: out of bounds). -/
def convertFromBoolean (src : List Bool) : Option (List (BitVec 8)) :=
  if src.length = 0 then some (List.replicate 4 0)
  else
    let c := encodeSize 4 src.length ++ List.replicate (src.length / 8 + 5 - 4) 0
    (Loop.loopN src.length (packStep src) ⟨c, 1, 4, 0, []⟩).map (·.bytes)

/-- `decodeBooleanSize`, src/Io/IoNgSerializer.h:783-795. -/
def decodeSize : List (BitVec 8) → Nat → Nat → Nat
  | _, _, 0 => 0
  | x, level, n + 1 => (x.headD 0).toNat * level + decodeSize x.tail (level * 256) n

/-- The body of the loop of `convertToBoolean`, src/Io/IoNgSerializer.h:753-765. -/
def unpackStep (i : Nat) (s : Pack) : Option Pack := do
  let x ← s.bytes[s.j]?
  return Pack.next { s with dest := s.dest ++ [decide (x &&& s.mask ≠ 0)] } i

/-- `convertToBoolean`, src/Io/IoNgSerializer.h:736-766 (`none`: out of bounds). -/
def convertToBoolean (x : List (BitVec 8)) : Option (List Bool) :=
  if x.length < 4 then none
  else (Loop.loopN (decodeSize x 1 4) unpackStep ⟨x, 1, 4, 0, []⟩).map (·.dest)

/-- A byte as a number. -/
def byteNum (b : BitVec 8) : Num α := .int b.toNat

/-- The byte that is this number. -/
def numByte : Num α → Option (BitVec 8)
  | .int z => some (BitVec.ofNat 8 z.toNat)
  | .real _ => none

/-- `write` of a vector of `bool`, src/Io/IoNgSerializer.h:219-223. -/
def writeBools [DecidableEq α] (f : File α) (name : Str) (v : List Bool) (m : Mode) : Out (File α) :=
  match convertFromBoolean v with
  | none => ubOut
  | some c => .ok (writeVector f name .uchar (c.map byteNum) m)

/-- `read` of a vector of `bool`, src/Io/IoNgSerializer.h:413-418. -/
def readBools [DecidableEq α] (h : H5 α) (f : File α) (name : Str) : Out (List Bool) := do
  let v ← readVector h f name .uchar
  let c ← ofThrow (v.mapM numByte)
  match convertToBoolean c with
  | none => ubOut
  | some b => return b

/-! ## Composite values -/

/-- How values of a type are written under a name and read. -/
structure Codec (α T : Type) where
  write : File α → Str → T → Out (File α)
  read : H5 α → File α → Str → Out T

/-- `createGroup`, src/Io/IoNgSerializer.h:122-125. -/
def createGroup [DecidableEq α] (f : File α) (name : Str) : Out (File α) := f.createGroup (inDef name)

/-- Decimal digits, `ttos`. -/
def digits (n : Nat) : Str := Nat.toDigits 10 n

/-- The loop that writes the entries of a vector, src/Io/IoNgSerializer.h:299-300 and others. -/
def writeEntries {T : Type} (c : Codec α T) (name : Str) : Nat → List T → File α → Out (File α)
  | _, [], f => .ok f
  | i, x :: xs, f => do
    let f ← c.write f (name ++ ('/' :: digits i)) x
    writeEntries c name (i + 1) xs f

/-- `write` of a vector of vectors, pairs or objects, src/Io/IoNgSerializer.h:265-323 without overwriting. -/
def writeList [DecidableEq α] {T : Type} (c : Codec α T) (f : File α) (name : Str) (xs : List T) : Out (File α) := do
  let f ← createGroup f name
  let f := writeScalar f (name ++ "/Size".toList) .size (.int xs.length) .no
  writeEntries c name 0 xs f

/-- The number of entries, `read(size, name + "/Size")`. -/
def readSize (h : H5 α) (f : File α) (name : Str) : Out Nat := do
  let x ← readScalar h f (name ++ "/Size".toList) .size (.int 0)
  match x with
  | .int z => return z.toNat
  | .real _ => throwOut

/-- `read` of a vector of vectors, pairs or objects, src/Io/IoNgSerializer.h:442-490. -/
def readList {T : Type} (c : Codec α T) (h : H5 α) (f : File α) (name : Str) : Out (List T) := do
  let n ← readSize h f name
  (List.range n).mapM fun i => c.read h f (name ++ ('/' :: digits i))

/-- `write` of a pair, src/Io/IoNgSerializer.h:186-202 without overwriting. -/
def writePair [DecidableEq α] {S T : Type} (c : Codec α S) (d : Codec α T) (f : File α) (name : Str) (x : S × T) :
    Out (File α) := do
  let f ← createGroup f name
  let f ← c.write f (name ++ "/0".toList) x.1
  d.write f (name ++ "/1".toList) x.2

/-- `read` of a pair, src/Io/IoNgSerializer.h:399-411. -/
def readPair {S T : Type} (c : Codec α S) (d : Codec α T) (h : H5 α) (f : File α) (name : Str) : Out (S × T) := do
  let x ← c.read h f (name ++ "/0".toList)
  let y ← d.read h f (name ++ "/1".toList)
  return (x, y)

/-- The loop that writes a stack (the top is the head of the list), src/Io/IoNgSerializer.h:211-216: the file, and what
is left of the stack. -/
def writeStackLoop {T : Type} (c : Codec α T) (name : Str) : Nat → List T → File α → Out (File α × List T)
  | _, [], f => .ok (f, [])
  | i, x :: xs, f => do
    let f ← c.write f (name ++ ('/' :: digits i)) x
    writeStackLoop c name (i + 1) xs f

/-- `write` of a stack, src/Io/IoNgSerializer.h:205-217. -/
def writeStack [DecidableEq α] {T : Type} (c : Codec α T) (f : File α) (name : Str) (st : List T) :
    Out (File α × List T) := do
  let f ← createGroup f name
  let f := writeScalar f (name ++ "/Size".toList) .size (.int st.length) .no
  writeStackLoop c name 0 st f

/-- The loop of `read` of a stack, src/Io/IoNgSerializer.h:497-501: `n` entries are left. -/
def readStackLoop {T : Type} (c : Codec α T) (h : H5 α) (f : File α) (name : Str) : Nat → List T → Out (List T)
  | 0, st => .ok st
  | n + 1, st => do
    let x ← c.read h f (name ++ ('/' :: digits n))
    readStackLoop c h f name n (x :: st)

/-- `read` of a stack, src/Io/IoNgSerializer.h:492-502: pushes on the stack given. -/
def readStack {T : Type} (c : Codec α T) (h : H5 α) (f : File α) (name : Str) (st : List T) : Out (List T) := do
  let n ← readSize h f name
  readStackLoop c h f name n st

/-- `writeVectorEntry`, src/Io/IoNg.h:166-175. -/
def writeVectorEntry [DecidableEq α] (f : File α) (name : Str) (ty : Ty) (x : Num α) (counter : Nat) : Out (File α) := do
  let f ← (if counter = 0 then createGroup f name else .ok f)
  let f := writeScalar f (name ++ ('/' :: digits counter)) ty x .no
  return writeScalar f (name ++ "/Size".toList) .size (.int (counter + 1)) (if counter = 0 then .no else .allow)

/-- `readLastVectorEntry`, src/Io/IoNg.h:264-275. -/
def readLastVectorEntry (h : H5 α) (f : File α) (name : Str) (ty : Ty) (old : Num α) : Out (Num α) := do
  let x ← readScalar h f (name ++ "/Size".toList) .int (.int 0)
  match x with
  | .real _ => throwOut
  | .int total =>
    if total ≤ 0 then throwOut
    else readScalar h f (name ++ ('/' :: digits (total.toNat - 1))) ty old

/-! ## Files and the canary -/

/-- The name of the canary. -/
def canaryName : Str := "/Def/Canary".toList

/-- The value of the canary, src/Io/IoNgSerializer.h:17. -/
def canary : Num α := .int 170

/-- `writeCanary`, src/Io/IoNgSerializer.h:647-669. -/
def writeCanary [DecidableEq α] (f : File α) : Out (File α) :=
  match f.openDataSet canaryName with
  | .ok d => .ok (f.set (h5path canaryName) (some (.data ⟨d.ty, d.vals.map fun _ => canary⟩)))
  | .error _ => f.createDataSet canaryName ⟨.uchar, [canary]⟩

/-- `readCanary`, src/Io/IoNgSerializer.h:671-697. -/
def readCanary [DecidableEq α] (h : H5 α) (f : File α) : Out Unit := do
  let d ← f.openDataSet canaryName
  match d.vals with
  | [] => throwOut
  | [x] => if h.cvt d.ty .uchar x = canary then return () else throwOut
  | _ => ubOut

/-- The constructor with `H5F_ACC_TRUNC`, src/Io/IoNgSerializer.h:34-62. -/
def openTrunc [DecidableEq α] : Out (File α) := createGroup File.empty []

/-- The constructor with `H5F_ACC_RDONLY`, src/Io/IoNgSerializer.h:34-50 and 64-74. -/
def openRead [DecidableEq α] (h : H5 α) (disk : File α) : Out (File α) := do
  readCanary h disk
  return disk

/-- The constructor with `H5F_ACC_RDWR`, src/Io/IoNgSerializer.h:34-50: nothing is checked. -/
def openRdwr (disk : File α) : Out (File α) := .ok disk

/-- The constructor with `H5F_ACC_EXCL` on a name that is free, src/Io/IoNgSerializer.h:34-50: no group is made. -/
def openExcl : Out (File α) := .ok File.empty

/-- `open` with `H5F_ACC_RDONLY` on a reader that was closed, src/Io/IoNgSerializer.h:89-99: `mode_` is
`H5F_ACC_RDONLY` and the canary is not read. -/
def reopenRead (disk : File α) : Out (File α) := .ok disk

/-- `open` with `H5F_ACC_TRUNC` on a writer that was closed, src/Io/IoNgSerializer.h:89-99. -/
def reopenTrunc [DecidableEq α] : Out (File α) := writeCanary File.empty

/-! ## Text output of stacks -/

/-- `operator<<` of a stack (top first), src/Stack.h:113-124, as the words written. -/
def stackText (st : List Int) : List Int := (st.length : Int) :: st

/-- `operator>>` of a vector, src/Vector.h:455-466, on words; reading past the end of the words is not modelled. -/
def readWords : List Int → Option (List Int × List Int)
  | [] => none
  | n :: ws => if n < 0 ∨ ws.length < n.toNat then none else some (ws.take n.toNat, ws.drop n.toNat)

/-- `operator>>` of a stack, src/Stack.h:126-137. -/
def stackRead (ws : List Int) (st : List Int) : Option (List Int × List Int) := do
  let r ← readWords ws
  return (r.1.reverse.foldl (fun st x => x :: st) st, r.2)

end Verif.IoNg
