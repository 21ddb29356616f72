import Verif.Geom.ModelInput

/-!
# Model of the construction of a geometry from an Ainur input

An Ainur input answers a label by its value, or with an exception; the answers do not depend on what has been read before (only
the counts of uses do).  `AIn` has these answers, for each type that a geometry reads.  Unlike for other inputs, `prefix()` is
put before each label (src/Ainur/AinurSpirit.h:66-78), and is changed and restored by the constructors; it keeps its value if a
constructor throws.
-/

namespace Verif.Geom

open Verif.Dense Verif.InputNg

/-- The answers of `Ainur::readValue` (src/Ainur/AinurSpirit.h:74-78) to full labels, for each type. -/
structure AIn (α : Type) where
  int : Str → Out Int
  size : Str → Out Nat
  text : Str → Out Str
  vec : Str → Out (List α)
  mat : Str → Out (Mat α)

/-- A computation that may read and change `prefix()`: the prefix is there also after an exception. -/
def Act (β : Type) : Type := Str → Out β × Str

/-- No effect. -/
def Act.ret {β : Type} (x : β) : Act β := fun p => (.ok x, p)

/-- One computation after another. -/
def Act.then {β γ : Type} (a : Act β) (f : β → Act γ) : Act γ := fun p =>
  match a p with
  | (.ok x, q) => f x q
  | (.error e, q) => (.error e, q)

instance : Monad Act where
  pure := Act.ret
  bind := Act.then

variable {α : Type}

/-- An exception or undefined behaviour. -/
def Act.of {β : Type} (x : Out β) : Act β := fun p => (x, p)

/-- `String savedPrefix = io.prefix()`. -/
def getPrefix : Act Str := fun p => (.ok p, p)

/-- `io.prefix() = q`. -/
def setPrefix (q : Str) : Act Unit := fun _ => (.ok (), q)

/-- `io.prefix() += q`. -/
def addPrefix (q : Str) : Act Unit := fun p => (.ok (), p ++ q)

/-- The label without a final `=`, src/InputNg.h:655-661. -/
def bare (label : Str) : Str := if label.getLast? = some '=' then label.dropLast else label

/-- `io.readline(x, label)` for Ainur inputs, src/InputNg.h:652-664, 704-716, 728-740, 752-764. -/
def getLine {β : Type} (f : Str → Out β) (label : Str) : Act β := fun p => (f (p ++ bare label), p)

/-- `io.read(x, label)` for Ainur inputs, src/InputNg.h:792-798, 816-822, 856-862. -/
def getData {β : Type} (f : Str → Out β) (label : Str) : Act β := fun p => (f (p ++ label), p)

/-- An answer, or none if there was an exception. -/
def caught {β : Type} : Out β → Out (Option β)
  | .ok x => .ok (some x)
  | .error .thrown => .ok none
  | .error .ub => ubOut

/-- `try { io.readline(x, label); } catch (std::exception&) {}`. -/
def tryLine {β : Type} (f : Str → Out β) (label : Str) : Act (Option β) := fun p => (caught (f (p ++ bare label)), p)

/-- The lines of a ladder, src/Geometry/Ladder.h:101-130. -/
def aLadder (io : AIn α) (junk : Bool) (linSize : Nat) : Act Ladder := do
  let leg ← getLine io.size "LadderLeg=".toList
  let px ← tryLine io.int "IsPeriodicX=".toList
  let py ← tryLine io.int "IsPeriodicY=".toList
  Act.of (match Ladder.ctor linSize leg px py junk with
    | none => ubOut
    | some none => throwOut
    | some (some g) => .ok g)

/-- The choice of the geometry, src/Geometry/GeometryTerm.h:185-231; the kinds `LongRange` and `General`, which have a model of their
own, are not here: they give undefined behaviour. -/
def aKind (io : AIn α) (junk : Bool) (s : Str) (linSize : Nat) : Act (Option Base) :=
  if s = "chain".toList ∨ s = "longchain".toList then do
    let px ← tryLine io.int "IsPeriodicX=".toList
    let d ← tryLine io.int "LongChainDistance=".toList
    return some (chainBase (LongChain.ctor linSize px (d.map fun d => (d % 2 ^ 64).toNat)))
  else if s = "chainEx".toList then Act.of throwOut
  else if s = "ladder".toList then do
    let g ← aLadder io junk linSize
    return some (ladderBase g)
  else if s = "ladderx".toList then do
    let g ← aLadder io junk linSize
    return some (ladderxBase ⟨g⟩)
  else if s = "ladderbath".toList then do
    let n ← getLine io.size "BathSitesPerSite=".toList
    let g ← aLadder io junk (linSize / (1 + n))
    return some (bathBase ⟨linSize, n, linSize / (1 + n), g⟩)
  else if s = "ktwoniffour".toList then do
    let sc ← getLine io.int "SignChange=".toList
    return some (ktwoBase linSize sc)
  else if s = "star".toList then return some (starBase linSize)
  else if s = "LongRange".toList ∨ s = "General".toList then Act.of ubOut
  else if s = "Honeycomb".toList then do
    let ly ← getLine io.size "HoneycombLy=".toList
    let py ← getLine io.int "IsPeriodicY=".toList
    let px ← tryLine io.int "IsPeriodicX=".toList
    Act.of (match Honeycomb.ctor linSize (some ly) (some py) px with
      | none => throwOut
      | some g => .ok (some (honeyBase g)))
  else if s.take 5 = "Super".toList then return none
  else Act.of throwOut

/-- The text after `Connectors` for the matrix number `i` of `n`, src/Geometry/GeometryDirection.h:146 (the version of an Ainur
input is 3, src/InputNg.h:631). -/
def extra (n i : Nat) : Str := if 1 < n then Nat.toDigits 10 i else []

/-- The loop that reads matrices, src/Geometry/GeometryDirection.h:144-154. -/
def aMatrices (io : AIn α) (orbitals n : Nat) : Nat → List (Mat α) → Act (List (Mat α))
  | 0, ms => Act.ret ms
  | k + 1, ms => do
    let m ← getData io.mat ("Connectors".toList ++ extra n ms.length)
    if orbitals ≠ m.nrow ∨ orbitals ≠ m.ncol then Act.of throwOut
    else aMatrices io orbitals n k (ms ++ [m])

/-- The prefix of a direction, src/Geometry/GeometryDirection.h:139. -/
def dirPrefix (d : Nat) : Str := "dir".toList ++ Nat.toDigits 10 d ++ [':']

/-- The data of a direction between the changes of the prefix, src/Geometry/GeometryDirection.h:141-163. -/
def aData (io : AIn α) (orbitals n : Nat) : Act (DirData α) :=
  if orbitals > 1 then do
    let ms ← aMatrices io orbitals (if n = 0 then 1 else n) (if n = 0 then 1 else n) []
    return ⟨[], ms⟩
  else do
    let xs ← getData io.vec "Connectors".toList
    if xs.length ≠ n then Act.of throwOut else return ⟨xs, []⟩

/-- The constructor of a direction, src/Geometry/GeometryDirection.h:123-166 and 257-262, for `SPECIFIC` data.  A size that the
geometry does not give is undefined behaviour here, although some geometries throw. -/
def aDirection (io : AIn α) (b : Base) (const : Bool) (orbitals dirId : Nat) : Act (DirData α) :=
  match (if const then some 1 else b.getVectorSize dirId) with
  | none => Act.of ubOut
  | some n => do
    let saved ← getPrefix
    addPrefix (dirPrefix dirId)
    let d ← aData io orbitals n
    setPrefix saved
    return d

/-- The loop over the directions, src/Geometry/GeometryTerm.h:233-240. -/
def aDirections (io : AIn α) (b : Base) (const : Bool) (orbitals : Nat) : Nat → List (DirData α) → Act (List (DirData α))
  | 0, ds => Act.ret ds
  | n + 1, ds => do
    let d ← aDirection io b const orbitals ds.length
    aDirections io b const orbitals n (ds ++ [d])

/-- The prefix of a term, src/Geometry/GeometryTerm.h:161-163. -/
def termPrefix (terms k : Nat) : Str := if 1 < terms then "gt".toList ++ Nat.toDigits 10 k ++ [':'] else []

/-- The line that is no longer allowed, src/Geometry/GeometryTerm.h:242-254. -/
def noModifier (io : AIn α) : Act Unit := do
  let m ← tryLine io.text "GeometryValueModifier=".toList
  if m.isSome = true then Act.of throwOut else Act.ret ()

/-- The end of the constructor of a term once the kind is known, src/Geometry/GeometryTerm.h:233-256. -/
def aFinish [Mul α] [Star α] [IntCast α] [Zero α] (io : AIn α) (linSize orbitals : Nat) (s options : Str) (b : Option Base) :
    Act (Term α) :=
  match b with
  | none => do
    noModifier io
    return ⟨orbitals, none, s, ⟨0, 0, []⟩⟩
  | some b => do
    let ds ← aDirections io b (decide ("ConstantValues".toList <:+: options)) orbitals b.dirs []
    noModifier io
    match cacheValues b linSize orbitals (decide ("ConstantValues".toList <:+: options)) ds with
    | none => Act.of ubOut
    | some c => return ⟨orbitals, some b, options, c⟩

/-- The constructor of a term after its prefix has been set, src/Geometry/GeometryTerm.h:165-256. -/
def aTermBody [Mul α] [Star α] [IntCast α] [Zero α] (io : AIn α) (junk : Bool) (linSize : Nat) : Act (Term α) := do
  let x ← tryLine io.size "DegreesOfFreedom=".toList
  if x.getD 1 = 0 then Act.of throwOut
  else do
    let s ← getLine io.text "GeometryKind=".toList
    let options ← getLine io.text "GeometryOptions=".toList
    let b ← aKind io junk s linSize
    aFinish io linSize (x.getD 1) s options b

/-- The constructor of a term, src/Geometry/GeometryTerm.h:154-265. -/
def aTerm [Mul α] [Star α] [IntCast α] [Zero α] (io : AIn α) (junk : Bool) (linSize terms k : Nat) : Act (Term α) := do
  let saved ← getPrefix
  addPrefix (termPrefix terms k)
  let t ← aTermBody io junk linSize
  setPrefix saved
  return t

/-- The loop over the terms, src/Geometry/Geometry.h:125-129. -/
def aTerms [Mul α] [Star α] [IntCast α] [Zero α] (io : AIn α) (junk : Bool) (linSize terms : Nat) :
    Nat → List (Term α) → Act (List (Term α))
  | 0, ts => Act.ret ts
  | n + 1, ts => do
    let t ← aTerm io junk linSize terms ts.length
    aTerms io junk linSize terms n (ts ++ [t])

/-- The constructor of a geometry, src/Geometry/Geometry.h:110-130 (without a mesh, src/Geometry/GeometryEx.h). -/
def aGeo [Mul α] [Star α] [IntCast α] [Zero α] (io : AIn α) (junk : Bool) : Act (Geo α) := do
  let x ← getLine io.int "TotalNumberOfSites=".toList
  if x < 0 then Act.of throwOut
  else do
    let y ← getLine io.int "NumberOfTerms=".toList
    if y < 0 then Act.of throwOut
    else do
      let ts ← aTerms io junk x.toNat y.toNat y.toNat []
      return ⟨x.toNat, ts⟩

/-- The labels of one term, with their types, src/Geometry/GeometryTerm.h:292-302. -/
def importTerm (istr : Str) : List (Str × Str) :=
  [("integer".toList, istr ++ "DegreesOfFreedom".toList), ("string".toList, istr ++ "GeometryKind".toList),
   ("string".toList, istr ++ "GeometryOptions".toList), ("integer".toList, istr ++ "LadderLeg".toList),
   ("integer".toList, istr ++ "LongChainDistance".toList), ("integer".toList, istr ++ "BathSitesPerSite".toList),
   ("string".toList, istr ++ "GeometryValueModifier".toList)] ++
  (List.range 9).map fun j => ("vector".toList, istr ++ (dirPrefix j ++ "Connectors".toList))

/-- The labels of `import()`, with their types, src/Geometry/Geometry.h:139-147 and src/Geometry/GeometryTerm.h:284-306. -/
def importLabels : List (Str × Str) :=
  [("integer".toList, "TotalNumberOfSites".toList), ("integer".toList, "NumberOfTerms".toList)] ++
  (List.range 10).flatMap fun i => importTerm (if i + 1 < 10 then "gt".toList ++ Nat.toDigits 10 i ++ [':'] else [])

/-- `Geometry::import()`, src/Geometry/Geometry.h:139-147. -/
def importText : Str := importLabels.flatMap fun e => e.1 ++ ' ' :: (e.2 ++ [';', '\n'])

end Verif.Geom
