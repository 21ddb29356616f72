import Verif.TextIo.Model

/-!
# Matrices from a text file, with small elements left out, and as bytes

A descriptor of a file is the list of its bytes: the ones that are left for reading, or the ones written.
-/

namespace Verif.TextIo

open Verif.Loop Verif.IoSimple Verif.Dense

variable {α : Type}

/-- `io >> x` leaves `x` as it was: nothing is left in the stream but blanks, or it is not good. -/
def untouched (st : Stream) : Bool := !st.good || (st.rest.dropWhile isWs).isEmpty

/-- `io >> nrow_` where `nrow_` has no value yet, src/Matrix.h:104-105: it must get one, for it is used. -/
def readFresh (st : Stream) : Out (Stream × Nat) := if untouched st then ubOut else readU64 st 0

/-- `Matrix(std::ifstream&)`, src/Matrix.h:102-114; `limit` as for `operator>>`. -/
def matFromStream [Zero α] (limit : Nat) (rd : Stream → α → Out (Stream × α)) (st : Stream) : Out (Stream × Mat α) := do
  let r ← readFresh st
  let c ← readFresh r.1
  if r.2 = 0 ∨ c.2 = 0 then throwOut
  else if r.2 * c.2 % 2 ^ 64 > limit then throwOut
  else
    (List.range r.2).foldlM (fun s j => (List.range c.2).foldlM (readEntry rd j) s)
      (c.1, (⟨r.2, c.2, resizeL [] (r.2 * c.2 % 2 ^ 64) 0⟩ : Mat α))

/-- One element of `print(os, eps)`, src/Matrix.h:332-334. -/
def chop {β : Type} [LT β] [DecidableLT β] [Zero α] (norm : α → β) (eps : β) (val : α) : α := if norm val < eps then 0 else val

/-- One row of `print(os, eps)`, src/Matrix.h:331-337. -/
def chopRow {β : Type} [LT β] [DecidableLT β] [Zero α] (pr : α → Str) (norm : α → β) (eps : β) (m : Mat α) (i : Nat) (os : Str) :
    Option Str := do
  let os ← loopN m.ncol (fun j os => do
    let val ← m.data[i + j * m.nrow]?
    return os ++ pr (chop norm eps val) ++ [' ']) os
  return os ++ ['\n']

/-- `print(os, eps)`, src/Matrix.h:327-339; `norm` is src/Complex.h:102-113. -/
def printChopped {β : Type} [LT β] [DecidableLT β] [Zero α] (pr : α → Str) (norm : α → β) (eps : β) (m : Mat α) : Option Str :=
  loopN m.nrow (chopRow pr norm eps m) (Nat.toDigits 10 m.nrow ++ ' ' :: Nat.toDigits 10 m.ncol ++ ['\n'])

/-! ## Bytes -/

/-- The bytes of an element and of a `SizeType`: `size` of them, and the value that bytes are. -/
structure Bytes (α : Type) where
  size : Nat
  enc : α → List UInt8
  dec : List UInt8 → α

/-- Bytes that are the value: what the memory of an object of the type satisfies; `ok` are the values of the type. -/
structure Bytes.Lawful (e : Bytes α) (ok : α → Prop) : Prop where
  pos : 0 < e.size
  len : ∀ a, (e.enc a).length = e.size
  inv : ∀ a, ok a → e.dec (e.enc a) = a

/-- A `SizeType` in eight bytes, the low one first. -/
def wordBytes : Bytes Nat :=
  ⟨8, fun n => (List.range 8).map fun i => UInt8.ofNat (n / 256 ^ i), fun b => b.foldr (fun x n => x.toNat + 256 * n) 0⟩

/-- The elements in memory, by `size` bytes. -/
def Bytes.chunks (e : Bytes α) : Nat → List UInt8 → List α
  | 0, _ => []
  | n + 1, b => e.dec (b.take e.size) :: e.chunks n (b.drop e.size)

/-- `::read(fd, p, n)`: at most `n` bytes are written over the first ones at `p`; how many is returned and not looked at,
src/Matrix.h:146-149. -/
def readFd (n : Nat) (fd old : List UInt8) : List UInt8 × List UInt8 :=
  let got := fd.take n
  (fd.drop n, got ++ old.drop got.length)

/-- `Matrix::print(int fd)`, src/Matrix.h:195-200: the bytes written; `w` are the bytes of a `SizeType`.  A matrix whose array
has fewer elements than its dimensions say makes `::write` read out of range (`none`). -/
def printFd (w : Bytes Nat) (e : Bytes α) (m : Mat α) : Option (List UInt8) :=
  if m.nrow * m.ncol ≤ m.data.length then
    some (w.enc m.ncol ++ w.enc m.nrow ++ (m.data.take (m.nrow * m.ncol)).flatMap e.enc)
  else none

/-- `Matrix::read(int fd)`, src/Matrix.h:144-150 (sizes whose product does not wrap around). -/
def matReadFd [Zero α] (w : Bytes Nat) (e : Bytes α) (fd : List UInt8) (m : Mat α) : List UInt8 × Mat α :=
  let c := readFd w.size fd (w.enc m.ncol)
  let r := readFd w.size c.1 (w.enc m.nrow)
  let ncol := w.dec c.2
  let nrow := w.dec r.2
  let data := resizeL m.data (nrow * ncol) 0
  let d := readFd (e.size * nrow * ncol) r.1 (data.flatMap e.enc)
  (d.1, ⟨nrow, ncol, e.chunks (nrow * ncol) d.2⟩)

/-- Several matrices, one after the other. -/
def printAllFd (w : Bytes Nat) (e : Bytes α) : List (Mat α) → Option (List UInt8)
  | [] => some []
  | m :: l => do
    let a ← printFd w e m
    let b ← printAllFd w e l
    return a ++ b

/-- Several matrices are read into objects, one after the other. -/
def readAllFd [Zero α] (w : Bytes Nat) (e : Bytes α) (fd : List UInt8) : List (Mat α) → List UInt8 × List (Mat α)
  | [] => (fd, [])
  | m :: l =>
    let r := matReadFd w e fd m
    let s := readAllFd w e r.1 l
    (s.1, r.2 :: s.2)

/-! ## Other members -/

/-- `Matrix(const Matrix<RealType>&)`, src/Matrix.h:89-100; `f` is the conversion of an element; `data_[i + j*nrow_]`
is written as the element `(i, j)`. -/
def convertMat {β : Type} [Zero β] (f : α → β) (m : Mat α) : Option (Mat β) :=
  loopN m.nrow (fun i d => loopN m.ncol (fun j (d : Mat β) => do
    let a ← m.get i j
    d.set i j (f a)) d) ⟨m.nrow, m.ncol, List.replicate (m.nrow * m.ncol) 0⟩

/-- `Matrix::swap`, src/Matrix.h:341-350: both matrices. -/
def swapMat (m m2 : Mat α) : Mat α × Mat α :=
  let data := m.data
  let m := { m with data := m2.data }
  let m2 := { m2 with data := data }
  let row := m2.nrow
  let col := m2.ncol
  let m2 := { m2 with nrow := m.nrow, ncol := m.ncol }
  ({ m with nrow := row, ncol := col }, m2)

/-- `Matrix::clear`, src/Matrix.h:220-224, and `Matrix()`, src/Matrix.h:58-62. -/
def clearMat : Mat α := ⟨0, 0, []⟩

/-- `Matrix::operator==`, src/Matrix.h:280-283. -/
def equalMat [DecidableEq α] (m m2 : Mat α) : Bool := m.nrow = m2.nrow ∧ m.ncol = m2.ncol ∧ m.data = m2.data

end Verif.TextIo
