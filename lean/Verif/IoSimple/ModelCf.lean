import Verif.IoSimple.Model
import Verif.StrUtil.Spec

/-!
# Model of continued fractions in text files, src/ContinuedFraction.h, src/ContinuedFractionCollection.h and
src/TridiagonalMatrix.h

Numbers are any type, with the text that is written for them (12 digits, src/ContinuedFraction.h:118) and the way they are read.
-/

namespace Verif.IoSimple

/-- How numbers are written and read: `text` is `os << x`, `rd` is `fin_ >> x`, and `parse` is `temp2 >> x` for a string stream
with one word. -/
structure Fmt (α : Type) where
  text : α → Str
  rd : Stream → Stream × α
  parse : Str → α → α

/-- `temp2 >> x` for an `int`. -/
def parseInt (t : Str) (x : Int) : Int := ((readInt (.ofText t)).2).getD x

/-- `temp2 >> x` for a string. -/
def parseStr (t x : Str) : Str := (readWord (.ofText t) x).2

/-- The members of `ContinuedFraction`, src/ContinuedFraction.h:240-246, with those of its matrix, src/TridiagonalMatrix.h. -/
structure Cf (α W : Type) where
  a : List α
  b : List α
  matsubara : Bool
  weight : W
  eg : α
  isign : Int
  eigs : List α
  intensity : List α
  deriving DecidableEq

variable {α W : Type}

/-- `diagonalize`, src/ContinuedFraction.h:219-232: `diag` is the eigenvalues and the squares of the first components of the
eigenvectors of the matrix (LAPACK). -/
def Cf.diagonalize [DecidableEq W] (zero : W) (diag : List α → List α → List α × List α) (c : Cf α W) : Cf α W :=
  if c.weight = zero then c
  else
    { c with
      eigs := (diag c.a c.b).1
      intensity := (diag c.a c.b).2 }

/-- `TridiagonalMatrix::write`, src/TridiagonalMatrix.h:106-111. -/
def writeAb (f : Fmt α) (rank : Nat) (file : Str) (a b : List α) : Out Str := do
  let file ← writeOther rank file "#Avector".toList (vectorText f.text a)
  writeOther rank file "#Bvector".toList (vectorText f.text b)

/-- `TridiagonalMatrix(IoInputType&)`, src/TridiagonalMatrix.h:99-104. -/
def readAb (f : Fmt α) (file : Str) (st : Stream) : Out (Stream × List α × List α) := do
  let a ← readVector f.rd file st [] "#Avector".toList 0
  let b ← readVector f.rd file a.1 [] "#Bvector".toList 0
  return (b.1, a.2, b.2)

/-- The name of the kind of frequencies, src/ContinuedFraction.h:121. -/
def freqName (m : Bool) : Str := if m then "Matsubara".toList else "Real".toList

/-- `write`, src/ContinuedFraction.h:116-132. -/
def Cf.write (f : Fmt α) (g : Fmt W) (rank : Nat) (file : Str) (c : Cf α W) : Out Str := do
  let file ← writeAb f rank file c.a c.b
  let file ← writeOther rank file ("#FreqEnum=".toList ++ freqName c.matsubara) " ".toList
  let file ← writeScalar rank file "#CFWeight".toList (g.text c.weight)
  let file ← writeScalar rank file "#CFEnergy".toList (f.text c.eg)
  let file ← writeScalar rank file "#CFIsign".toList (StrUtil.decimal c.isign)
  let file ← writeOther rank file "#CFEigs".toList (vectorText f.text c.eigs)
  writeOther rank file "#CFIntensities".toList (vectorText f.text c.intensity)

/-- The reading of the kind of frequencies, src/ContinuedFraction.h:86-98: if there is none in the rest of the file, the file is
rewound. -/
def readFreq (file : Str) (st : Stream) : Out (Stream × Bool) :=
  match readline parseStr file st [] "#FreqEnum=".toList 0 with
  | .ok r => .ok (r.1, decide (r.2.1 = "Matsubara".toList))
  | .error .thrown => .ok (.ofText file, false)
  | .error .ub => ubOut

/-- The constructor from a file, src/ContinuedFraction.h:81-106.  `zero` is what the members that are not initialized have; every
one of them is read. -/
def Cf.read [DecidableEq W] (f : Fmt α) (g : Fmt W) (zeroA : α) (zero : W) (diag : List α → List α → List α × List α) (file : Str)
    (st : Stream) : Out (Stream × Cf α W) := do
  let ab ← readAb f file st
  let m ← readFreq file ab.1
  let w ← readline g.parse file m.1 zero "#CFWeight=".toList 0
  let e ← readline f.parse file w.1 zeroA "#CFEnergy=".toList 0
  let s ← readline parseInt file e.1 0 "#CFIsign=".toList 0
  let eigs ← readVector f.rd file s.1 [] "#CFEigs".toList 0
  let int ← readVector f.rd file eigs.1 [] "#CFIntensities".toList 0
  return (int.1, Cf.diagonalize zero diag ⟨ab.2.1, ab.2.2, m.2, w.2.1, e.2.1, s.2.1, eigs.2, int.2⟩)

/-- The label of a collection. -/
def collLabel : Str := "#CONTINUEDFRACTIONCOLLECTION".toList

/-- `ContinuedFractionCollection::write`, src/ContinuedFractionCollection.h:78-84. -/
def writeColl (f : Fmt α) (g : Fmt W) (rank : Nat) (file : Str) (cs : List (Cf α W)) : Out Str := do
  let file ← writeScalar rank file collLabel (Nat.toDigits 10 cs.length)
  cs.foldlM (fun file c => Cf.write f g rank file c) file

/-- The loop of the constructor of a collection, src/ContinuedFractionCollection.h:71-75. -/
def readMany [DecidableEq W] (f : Fmt α) (g : Fmt W) (zeroA : α) (zero : W) (diag : List α → List α → List α × List α)
    (file : Str) : Nat → Stream → Out (Stream × List (Cf α W))
  | 0, st => .ok (st, [])
  | n + 1, st => do
    let r ← Cf.read f g zeroA zero diag file st
    let q ← readMany f g zeroA zero diag file n r.1
    return (q.1, r.2 :: q.2)

/-- The constructor of a collection from a file, src/ContinuedFractionCollection.h:59-76: the fractions, and the kind of
frequencies, which is that of the last one. -/
def readColl [DecidableEq W] (f : Fmt α) (g : Fmt W) (zeroA : α) (zero : W) (diag : List α → List α → List α × List α)
    (file : Str) (st : Stream) (level : Nat) : Out (Stream × List (Cf α W) × Bool) := do
  let n ← readline parseInt file st 0 (collLabel ++ ['=']) level
  if n.2.1 ≤ 0 then throwOut
  else do
    let r ← readMany f g zeroA zero diag file n.2.1.toNat n.1
    return (r.1, r.2, (r.2.getLast?.map (·.matsubara)).getD false)

end Verif.IoSimple
