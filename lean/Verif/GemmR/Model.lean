import Verif.Util.Out
import Verif.Util.Loop
import Mathlib.Algebra.Star.Basic
import Mathlib.Algebra.BigOperators.Group.List.Basic

/-!
# Model of `GemmR`: multiplication of matrices in tiles
-/

namespace Verif.GemmR

variable {R : Type} [CommRing R] [StarRing R]

/-- The arguments of a multiplication (`GemmR::operator()`, src/GemmR.h:24), except for `C`. -/
structure Args (R : Type) where
  transA : Char
  transB : Char
  m : Nat
  n : Nat
  k : Nat
  alpha : R
  A : List R
  ldA : Nat
  B : List R
  ldB : Nat
  beta : R
  ldC : Nat

/-! ## BLAS -/

/-- `'T'` or `'t'`. -/
def isTrans (c : Char) : Bool := c == 'T' || c == 't'

/-- `'C'` or `'c'`. -/
def isConj (c : Char) : Bool := c == 'C' || c == 'c'

/-- `'N'` or `'n'`. -/
def isPlain (c : Char) : Bool := c == 'N' || c == 'n'

/-- The entry `(r, s)` of `op(M)`, where `M` begins at `p`. -/
def opAt (c : Char) (M : List R) (ld p r s : Nat) : Option R :=
  if isTrans c then M[p + s + r * ld]?
  else if isConj c then (M[p + s + r * ld]?).map star
  else M[p + r + s * ld]?

/-- The sum over `l` of `op(A)(i, l) op(B)(l, j)`. -/
def inner (g : Args R) (pA pB i j : Nat) : Nat → Option R
  | 0 => some 0
  | l + 1 => do
    let s ← inner g pA pB i j l
    let a ← opAt g.transA g.A g.ldA pA i l
    let b ← opAt g.transB g.B g.ldB pB l j
    return s + a * b

/-- The computation of one entry of `C`: where the three matrices begin, and the indices. -/
structure Step where
  pA : Nat
  pB : Nat
  pC : Nat
  i : Nat
  j : Nat

/-- One entry of `C := alpha op(A) op(B) + beta C` (`none`: out of bounds). -/
def Step.run (g : Args R) (C : List R) (s : Step) : Option (List R) := do
  let x ← inner g s.pA s.pB s.i s.j g.k
  Loop.updAt C (s.pC + s.i + s.j * g.ldC) fun c => g.alpha * x + g.beta * c

/-- The checks made by BLAS (`xerbla` ends the program). -/
def blasChecks (g : Args R) (mm nn : Nat) : Bool :=
  (isPlain g.transA || isTrans g.transA || isConj g.transA) && (isPlain g.transB || isTrans g.transB || isConj g.transB) &&
  decide (max 1 (if isPlain g.transA then mm else g.k) ≤ g.ldA) &&
  decide (max 1 (if isPlain g.transB then g.k else nn) ≤ g.ldB) && decide (max 1 mm ≤ g.ldC)

/-- The entries that `psimag::BLAS::GEMM` computes, src/BLAS.h: the product of `mm × k` and `k × nn` (trusted: BLAS). -/
def blasSteps (g : Args R) (mm nn pA pB pC : Nat) : Out (List Step) :=
  if blasChecks g mm nn then
    .ok ((List.range nn).flatMap fun j => (List.range mm).map fun i => ⟨pA, pB, pC, i, j⟩)
  else throwOut

/-- All steps, one after the other. -/
def runSteps (g : Args R) (C : List R) (l : List Step) : Out (List R) :=
  match l.foldlM (Step.run g) C with
  | some C => .ok C
  | none => ubOut

/-! ## Tiles -/

/-- `isSmall`, src/GemmR.h:119-124. -/
def isSmall (nb m n : Nat) : Bool := if nb = 0 then true else decide (m ≤ nb ∧ n ≤ nb)

/-- `nblocks_i` and `nblocks_j`, src/GemmR.h:48-49. -/
def nblocks (nb m : Nat) : Nat := (m + (nb - 1)) / nb

/-- `nb_i` and `nb_j`, src/GemmR.h:50-53. -/
def blockSize (m nbl : Nat) : Out Nat :=
  if nbl = 0 then ubOut else .ok (if m % nbl = 0 then m / nbl else m / nbl + 1)

/-- `a - 1 + (b - 1) * ld`, computed with `int`, src/GemmR.h:102-103. -/
def offset (a b ld : Nat) : Out Nat :=
  if a - 1 + (b - 1) * ld < 2 ^ 31 then .ok (a - 1 + (b - 1) * ld) else ubOut

/-- The steps of task `ij_block`, src/GemmR.h:72-106. -/
def tileSteps (g : Args R) (nblocksI nbI nbJ ijBlock : Nat) : Out (List Step) := do
  let iBlock := ijBlock % nblocksI
  let jBlock := (ijBlock - iBlock) / nblocksI
  let icStart := 1 + iBlock * nbI
  let icEnd := min g.m (icStart + nbI - 1)
  let jcStart := 1 + jBlock * nbJ
  let jcEnd := min g.n (jcStart + nbJ - 1)
  let mm := icEnd + 1 - icStart
  let nn := jcEnd + 1 - jcStart
  let noA := !isTrans g.transA && !isConj g.transA
  let noB := !isTrans g.transB && !isConj g.transB
  let ia := if noA then icStart else 1
  let ja := if noA then 1 else icStart
  let ib := if noB then 1 else jcStart
  let jb := if noB then jcStart else 1
  let pA ← offset ia ja g.ldA
  let pB ← offset ib jb g.ldB
  let pC ← offset icStart jcStart g.ldC
  blasSteps g mm nn pA pB pC

/-- The steps of all tasks, src/GemmR.h:38-114. -/
def bigSteps (g : Args R) (nb : Nat) : Out (List Step) := do
  let nbI ← blockSize g.m (nblocks nb g.m)
  let nbJ ← blockSize g.n (nblocks nb g.n)
  let l ← (List.range (nblocks nb g.m * nblocks nb g.n)).mapM (tileSteps g (nblocks nb g.m) nbI nbJ)
  return l.flatten

/-- A run of `GemmR::operator()`, src/GemmR.h:24-32.  The tasks are done by threads: the steps of large products are done
in any order (an entry is computed in one step, which only its own task takes). -/
inductive Run (g : Args R) (nb : Nat) (C : List R) : Out (List R) → Prop
  | small (l : List Step) : isSmall nb g.m g.n = true → blasSteps g g.m g.n 0 0 0 = .ok l → Run g nb C (runSteps g C l)
  | smallBad (e : Bad) : isSmall nb g.m g.n = true → blasSteps g g.m g.n 0 0 0 = .error e → Run g nb C (.error e)
  | big (l l' : List Step) : isSmall nb g.m g.n = false → bigSteps g nb = .ok l → l'.Perm l → Run g nb C (runSteps g C l')
  | bigBad (e : Bad) : isSmall nb g.m g.n = false → bigSteps g nb = .error e → Run g nb C (.error e)

end Verif.GemmR
