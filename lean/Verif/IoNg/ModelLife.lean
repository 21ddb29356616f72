import Verif.IoNg.Spec

/-!
# Model of the life of an object that writes or reads a file, src/Io/IoNgSerializer.h and src/Io/IoNg.h

One object and the files of a disk.  HDF5 is again modelled by the calls made: `H5F_ACC_TRUNC` makes a new file, `H5F_ACC_EXCL`
does so if there is none, `H5F_ACC_RDONLY` and `H5F_ACC_RDWR` need a file; nothing is changed through a file opened with
`H5F_ACC_RDONLY`, an attempt throws.  What other programs do to the disk is left out.
-/

namespace Verif.IoNg.Life

variable {α : Type}

/-- `OpenMode`, src/Io/IoNg.h:128-131, and `modeToH5`, src/Io/IoNg.h:221-235. -/
inductive Acc
  | trunc
  | excl
  | rdonly
  | rdw
  deriving DecidableEq

/-- Files by their names. -/
abbrev Disk (α : Type) := Str → Option (File α)

/-- The disk with one file changed. -/
def Disk.set (d : Disk α) (n : Str) (f : File α) : Disk α := fun m => if m = n then some f else d m

/-- `H5::H5File`: the name, and if it was opened to be written too. -/
structure Handle where
  name : Str
  writable : Bool

/-- The members `hdf5file_`, `filename_` and `mode_`, src/Io/IoNgSerializer.h:835-837. -/
structure Obj where
  file : Option Handle
  filename : Str
  mode : Acc

/-- The disk, and the object if there is one. -/
structure World (α : Type) where
  disk : Disk α
  obj : Option Obj

/-- How a call ends: it returns (with a result), throws, or ends the program because a destructor throws. -/
inductive Ans (α : Type)
  | done
  | answer (b : Bool)
  | name (s : Str)
  | value (v : Leaf α)
  | thrown
  | terminated
  deriving DecidableEq

/-- The calls: constructor, `open`, `close`, `flush`, `filename`, `createGroup` and `write`, `doesGroupExist`, `read`,
destructor. -/
inductive Call (α : Type)
  | construct (name : Str) (m : Acc)
  | open (name : Str) (m : Acc)
  | close
  | flush
  | filename
  | op (o : Op α)
  | exists (name : Str)
  | read (name : Str) (k : LeafKind)
  | destroy

/-- `new H5::H5File(filename, mode)`. -/
def h5open (d : Disk α) (name : Str) : Acc → Out (Disk α × Handle)
  | .trunc => .ok (d.set name File.empty, ⟨name, true⟩)
  | .excl => match d name with
    | none => .ok (d.set name File.empty, ⟨name, true⟩)
    | some _ => throwOut
  | .rdonly => match d name with
    | none => throwOut
    | some _ => .ok (d, ⟨name, false⟩)
  | .rdw => match d name with
    | none => throwOut
    | some _ => .ok (d, ⟨name, true⟩)

/-- A change of the file of a handle. -/
def change (d : Disk α) (h : Handle) (c : File α → Out (File α)) : Out (Disk α) :=
  match h.writable, d h.name with
  | true, some f => (c f).map (d.set h.name)
  | _, _ => throwOut

/-- `if (hdf5file_ && mode_ != H5F_ACC_RDONLY) writeCanary();`, src/Io/IoNgSerializer.h:79-80, 97-98, 103-104 and 114-115. -/
def canaryIf [DecidableEq α] (d : Disk α) (o : Obj) : Out (Disk α) :=
  match o.file with
  | none => .ok d
  | some h => if o.mode = .rdonly then .ok d else change d h writeCanary

/-- What the constructor does once the file is open, src/Io/IoNgSerializer.h:52-74. -/
def prepare [DecidableEq α] (h5 : H5 α) (d : Disk α) (h : Handle) : Acc → Out (Disk α)
  | .trunc => change d h (createGroup · [])
  | .rdonly => match d h.name with
    | none => throwOut
    | some f => (readCanary h5 f).map fun _ => d
  | _ => .ok d

/-- The constructor, src/Io/IoNgSerializer.h:34-75 (and src/Io/IoNg.h:142-145 and 247-250): if it throws there is no object,
and a file that was made stays. -/
def construct [DecidableEq α] (h5 : H5 α) (d : Disk α) (name : Str) (m : Acc) : World α × Ans α :=
  match h5open d name m with
  | .error _ => (⟨d, none⟩, .thrown)
  | .ok r => match prepare h5 r.1 r.2 m with
    | .error _ => (⟨r.1, none⟩, .thrown)
    | .ok d => (⟨d, some ⟨some r.2, name, m⟩⟩, .done)

/-- `open`, src/Io/IoNgSerializer.h:89-99 (and src/Io/IoNg.h:154-157 and 257-260): `mode_` stays what it was. -/
def openFile [DecidableEq α] (d : Disk α) (o : Obj) (name : Str) (m : Acc) : World α × Ans α :=
  match o.file with
  | some _ => (⟨d, some o⟩, .thrown)
  | none => match h5open d name m with
    | .error _ => (⟨d, some ⟨none, name, o.mode⟩⟩, .thrown)
    | .ok r => match canaryIf r.1 ⟨some r.2, name, o.mode⟩ with
      | .error _ => (⟨r.1, some ⟨some r.2, name, o.mode⟩⟩, .thrown)
      | .ok d => (⟨d, some ⟨some r.2, name, o.mode⟩⟩, .done)

/-- `close`, src/Io/IoNgSerializer.h:101-110 (and src/Io/IoNg.h:159 and 262): `hdf5file_` is used without a look at it (`none`:
undefined behaviour). -/
def close [DecidableEq α] (d : Disk α) (o : Obj) : Option (World α × Ans α) :=
  match o.file with
  | none => none
  | some _ => match canaryIf d o with
    | .error _ => some (⟨d, some o⟩, .thrown)
    | .ok d => some (⟨d, some ⟨none, [], o.mode⟩⟩, .done)

/-- `flush`, src/Io/IoNgSerializer.h:112-118 (and src/Io/IoNg.h:147). -/
def flush [DecidableEq α] (d : Disk α) (o : Obj) : Option (World α × Ans α) :=
  match o.file with
  | none => none
  | some _ => match canaryIf d o with
    | .error _ => some (⟨d, some o⟩, .thrown)
    | .ok d => some (⟨d, some o⟩, .done)

/-- `createGroup`, src/Io/IoNgSerializer.h:122-125, and `write`, 144-263.  If nothing can be changed through the file, a group is
refused, but an exception of `createDataSet` is caught (632-639) and the value is lost. -/
def change1 [DecidableEq α] (d : Disk α) (o : Obj) (c : Op α) : Option (World α × Ans α) :=
  match o.file with
  | none => none
  | some h =>
    if h.writable then
      match change d h c.run with
      | .error .ub => none
      | .error .thrown => some (⟨d, some o⟩, .thrown)
      | .ok d => some (⟨d, some o⟩, .done)
    else match c with
      | .group _ => some (⟨d, some o⟩, .thrown)
      | .write _ v m => some (⟨d, some o⟩, if v.kind = .text ∧ m = .allow then .thrown else .done)

/-- `doesGroupExist`, src/Io/IoNgSerializer.h:127-140. -/
def groupExists [DecidableEq α] (d : Disk α) (o : Obj) (name : Str) : Option (World α × Ans α) := do
  let h ← o.file
  let f ← d h.name
  return (⟨d, some o⟩, .answer (decide (f (h5path (inDef name)) = some .group)))

/-- `read`, src/Io/IoNgSerializer.h:377-418. -/
def readValue [DecidableEq α] [Zero α] (h5 : H5 α) (d : Disk α) (o : Obj) (name : Str) (k : LeafKind) :
    Option (World α × Ans α) := do
  let h ← o.file
  let f ← d h.name
  match Leaf.read h5 f name k with
  | .ok v => return (⟨d, some o⟩, .value v)
  | .error .thrown => return (⟨d, some o⟩, .thrown)
  | .error .ub => none

/-- The destructor, src/Io/IoNgSerializer.h:77-85: an exception that leaves it ends the program. -/
def destroy [DecidableEq α] (d : Disk α) (o : Obj) : World α × Ans α :=
  match canaryIf d o with
  | .error _ => (⟨d, some o⟩, .terminated)
  | .ok d => (⟨d, none⟩, .done)

/-- One call; `none` is undefined behaviour (a call without an object too, or a constructor while there is one). -/
def step [DecidableEq α] [Zero α] (h5 : H5 α) (w : World α) (c : Call α) : Option (World α × Ans α) :=
  match c, w.obj with
  | .construct n m, none => some (construct h5 w.disk n m)
  | .open n m, some o => some (openFile w.disk o n m)
  | .close, some o => close w.disk o
  | .flush, some o => flush w.disk o
  | .filename, some o => some (w, .name o.filename)
  | .op c, some o => change1 w.disk o c
  | .exists n, some o => groupExists w.disk o n
  | .read n k, some o => readValue h5 w.disk o n k
  | .destroy, some o => some (destroy w.disk o)
  | _, _ => none

/-- A list of calls: the world at the end, and the answers. -/
def run [DecidableEq α] [Zero α] (h5 : H5 α) (w : World α) : List (Call α) → Option (World α × List (Ans α))
  | [] => some (w, [])
  | c :: cs => do
    let r ← step h5 w c
    let r' ← run h5 r.1 cs
    return (r'.1, r.2 :: r'.2)

end Verif.IoNg.Life
