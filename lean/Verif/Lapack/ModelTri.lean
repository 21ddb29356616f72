import Verif.Lapack.Model

/-!
# Model of the eigenvalues of a tridiagonal matrix, src/TridiagonalMatrix.cpp
-/

namespace Verif.Lapack

open Verif.Loop

noncomputable section

/-- What `dstedc_` and `sstedc_` leave of `d`, and `info`. -/
structure StedcRes where
  d : List ℝ
  info : Int

/-- The routine: `compz`, `n`, `d`, `e`, `ldz`, `lwork`, `liwork`. -/
abbrev Stedc := Char → Int → List ℝ → List ℝ → Int → Int → Int → StedcRes

/-- The arguments that the routine accepts, for `compz` equal to `N`. -/
def stedcLegal (compz : Char) (n ldz lwork liwork : Int) : Prop :=
  compz = 'N' ∧ 0 ≤ n ∧ 1 ≤ ldz ∧ 1 ≤ lwork ∧ 1 ≤ liwork

/-- The arrays are long enough: `n` numbers in `d`, `n - 1` in `e`. -/
def stedcRoom (n : Int) (d e : List ℝ) (lwork liwork : Int) (work iwork : Nat) : Prop :=
  n ≤ d.length ∧ n - 1 ≤ e.length ∧ lwork ≤ work ∧ liwork ≤ iwork

open Classical in
/-- A call. -/
def stedcCall (f : Stedc) (compz : Char) (n : Int) (d e : List ℝ) (ldz lwork liwork : Int) (work iwork : Nat) : Out StedcRes :=
  if stedcLegal compz n ldz lwork liwork ∧ ¬ stedcRoom n d e lwork liwork work iwork then ubOut
  else .ok (f compz n d e ldz lwork liwork)

/-- `diag(eigs, nn)`, src/TridiagonalMatrix.h:166-172, and `diag2`, src/TridiagonalMatrix.cpp:5-28 and 30-53: `&(e[1])` needs an
element with this number. -/
def triDiag (f : Stedc) (a b : List ℝ) (nn : Nat) : Out (List ℝ) := do
  if a.length = 0 ∨ b.length ≤ 1 then ubOut
  else do
    let r ← stedcCall f 'N' nn a (b.drop 1) 1 10 10 10 10
    if r.info = 0 then return r.d else throwOut

end

end Verif.Lapack
