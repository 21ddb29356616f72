import Verif.IoNg.ModelMatrix

/-!
# Model of overwriting vectors of objects with `IoNgSerializer`
-/

namespace Verif.IoNg

variable {α T : Type}

/-- A class whose objects are written to files: its functions `write(label, io)`, `read`, `overwrite(label, io)` and
`write(label, io, ALLOW_OVERWRITE)`. -/
structure Obj (α T : Type) extends Codec α T where
  over : File α → Str → T → Out (File α)
  allow : File α → Str → T → Out (File α)

/-- A loop over the entries `i, i+1, …` of the vector `name`, each of which is given to `st`. -/
def eachEntry (st : File α → Str → T → Out (File α)) (name : Str) : Nat → List T → File α → Out (File α)
  | _, [], f => .ok f
  | i, x :: xs, f => do
    let f ← st f (name ++ ('/' :: digits i)) x
    eachEntry st name (i + 1) xs f

/-- An entry beyond the old size, src/Io/IoNgSerializer.h:340-347: `write`, and `overwrite` if that throws.  A `write` that
throws is taken to have changed nothing; that is so if what throws is the creation of the group, its first call. -/
def writeOrOver (o : Obj α T) (f : File α) (name : Str) (x : T) : Out (File α) :=
  match o.write f name x with
  | .ok f => .ok f
  | .error .thrown => o.over f name x
  | .error .ub => ubOut

/-- `overwrite` of a vector of objects, src/Io/IoNgSerializer.h:325-349. -/
def overwriteList [DecidableEq α] (o : Obj α T) (h : H5 α) (f : File α) (name : Str) (what : List T) : Out (File α) := do
  let oldN ← readSize h f name
  let m := min oldN what.length
  let f := writeScalar f (name ++ "/Size".toList) .size (.int what.length) .allow
  let f ← eachEntry o.over name 0 (what.take m) f
  if what.length ≤ oldN then return f
  else eachEntry (writeOrOver o) name m (what.drop m) f

/-- `write` of a vector of objects with permission to overwrite, src/Io/IoNgSerializer.h:303-312. -/
def writeListAllow [DecidableEq α] (o : Obj α T) (f : File α) (name : Str) (what : List T) : Out (File α) :=
  eachEntry o.allow name 0 what (writeScalar f (name ++ "/Size".toList) .size (.int what.length) .allow)

/-- `Matrix`, src/Matrix.h:152-193, read into new objects; what `overwrite` returns is not looked at. -/
def matObj [DecidableEq α] [Zero α] (el : Elem α T) : Obj α (Dense.Mat T) where
  write := writeMat el
  read := readMat el ⟨0, 0, []⟩
  over f name m := (overwriteMat el f name m).map Prod.snd
  allow := writeMatOver el

/-- `CrsMatrix`, src/CrsMatrix.h:600-636, read into new objects. -/
def crsObj [DecidableEq α] [Zero α] (el : Elem α T) : Obj α (Crs.Crs T) where
  write f name m := writeCrs el f name m .no
  read := readCrs el ⟨[], [], [], 0, 0⟩
  over f name m := writeCrs el f name m .allow
  allow f name m := writeCrs el f name m .allow

/-- `write` of a pair of numbers with permission to overwrite, src/Io/IoNgSerializer.h:186-193. -/
def writePairAllow [DecidableEq α] (f : File α) (name : Str) (ty ty' : Ty) (x : Num α × Num α) : File α :=
  writeScalar (writeScalar f (name ++ "/0".toList) ty x.1 .allow) (name ++ "/1".toList) ty' x.2 .allow

end Verif.IoNg
