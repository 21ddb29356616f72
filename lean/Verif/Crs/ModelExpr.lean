import Verif.Crs.Model

/-!
# Expressions of sparse matrices, src/CrsMatrix.h

The variables of a program are numbered; `none` is an exception, a failed assertion or undefined behaviour.
-/

namespace Verif.Crs

open Verif.Loop

variable {α : Type}

/-- The factor of an expression, which is kept by reference: a number, or the stored element `k` of the matrix `y`
(`y.getValue(k)`). -/
inductive Factor (α : Type)
  | num (a : α)
  | elem (y k : Nat)

/-- The matrices of a program. -/
abbrev Store (α : Type) := Nat → Crs α

/-- The matrix `x` is replaced. -/
def Store.set (s : Store α) (x : Nat) (m : Crs α) : Store α := fun y => if y = x then m else s y

/-- The number that the factor stands for. -/
def Factor.value (s : Store α) : Factor α → Option α
  | .num a => some a
  | .elem y k => (s y).values[k]?

/-- `values_ *= c.r1`, src/Vector.h:403-410, where `c.r1` is the element `k` of the same vector: it is read at every step. -/
def mulByOwn [Mul α] (v : List α) (k : Nat) : Option (List α) :=
  loopN v.length (fun i v => do
    let a ← v[k]?
    updAt v i (· * a)) v

/-- `x = a * y`, src/CrsMatrix.h:537-548, and `CrsMatrix x(a * y)`, 243-250.  If the factor is an element of `x` and `x` is not `y`
the assignment may free it, and this is undefined behaviour. -/
def assignMul [Mul α] (s : Store α) (x : Nat) (a : Factor α) (y : Nat) : Option (Store α) :=
  match a with
  | .num a => some (s.set x (mulAssign (s y) a))
  | .elem z k =>
    if z = x then
      if y = x then do
        let v ← mulByOwn (s x).values k
        some (s.set x { s x with values := v })
      else none
    else do
      let a ← (s z).values[k]?
      some (s.set x (mulAssign (s y) a))

/-- `x += a * y`, src/CrsMatrix.h:551-562: the sum is made in a new matrix that is swapped. -/
def plusMul [Add α] [Mul α] [Zero α] [One α] [DecidableEq α] (s : Store α) (x : Nat) (a : Factor α) (y : Nat) : Option (Store α) := do
  let a ← a.value s
  let m ← add (s x) (s y) a
  some (s.set x m)

/-- `x += a * y * z`, src/CrsMatrix.h:564-578. -/
def plusMulProd [Add α] [Mul α] [Zero α] [One α] [DecidableEq α] (s : Store α) (x : Nat) (a : Factor α) (y z : Nat) : Option (Store α) := do
  let p ← multiply (s y) (s z)
  let a ← a.value s
  let m ← add (s x) p a
  some (s.set x m)

/-- `CrsMatrix x(y * z)`, src/CrsMatrix.h:232-241. -/
def makeProd [Add α] [Mul α] [Zero α] (s : Store α) (x y z : Nat) : Option (Store α) := do
  let p ← multiply (s y) (s z)
  some (s.set x p)

/-- `x.swap(y)`, src/CrsMatrix.h:444-455. -/
def swap (s : Store α) (x y : Nat) : Store α := fun z => if z = x then s y else if z = y then s x else s z

/-- A statement of a program with sparse matrices. -/
inductive Stmt (α : Type)
  | copy (x y : Nat)
  | mul (x : Nat) (a : α) (y : Nat)
  | scale (x : Nat) (a : α)
  | plus (x y : Nat)
  | plusMul (x : Nat) (a : α) (y : Nat)
  | plusMulProd (x : Nat) (a : α) (y z : Nat)
  | prod (x y z : Nat)
  | swap (x y : Nat)
  | clear (x : Nat)

/-- A statement is executed: the functions above, the copy assignment, `operator*=` (src/CrsMatrix.h:353), `operator+=` (388-394) and
`clear` (291-297). -/
def Stmt.run [Add α] [Mul α] [Zero α] [One α] [DecidableEq α] (s : Store α) : Stmt α → Option (Store α)
  | .copy x y => some (s.set x (s y))
  | .mul x a y => assignMul s x (.num a) y
  | .scale x a => some (s.set x (mulAssign (s x) a))
  | .plus x y => (addAssign (s x) (s y)).map (s.set x)
  | .plusMul x a y => Crs.plusMul s x (.num a) y
  | .plusMulProd x a y z => Crs.plusMulProd s x (.num a) y z
  | .prod x y z => makeProd s x y z
  | .swap x y => some (Crs.swap s x y)
  | .clear x => some (s.set x Crs.empty)

/-- `operator==`, src/CrsMatrix.h:355-358. -/
def equal [DecidableEq α] (a b : Crs α) : Bool :=
  decide (a.nrow = b.nrow ∧ a.ncol = b.ncol ∧ a.rowptr = b.rowptr ∧ a.colind = b.colind ∧ a.values = b.values)

/-- `setCol_check`, src/CrsMatrix.h:331-339. -/
def setColCheck (m : Crs α) (n v : Nat) : Option (Crs α) :=
  if n = m.colind.length + 1 then some { m with colind := m.colind ++ [v] } else setCol m n v

/-- `setValues_check`, src/CrsMatrix.h:343-351. -/
def setValuesCheck (m : Crs α) (n : Nat) (v : α) : Option (Crs α) :=
  if n = m.values.length + 1 then some { m with values := m.values ++ [v] } else setValues m n v

end Verif.Crs
