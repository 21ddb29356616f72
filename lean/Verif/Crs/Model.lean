import Verif.Dense.Model

/-!
# Model of the compressed-row-storage sparse matrix, src/CrsMatrix.h

* Row pointers and column indices are C++ `int`; here natural numbers (no overflow).
* Matrix elements come from an abstract ring.
* `none` is a failed `assert`, an out-of-range access or (where said) a `RuntimeError`.
* Output arguments are assumed not to alias the inputs.
* `reserve` only changes capacity and is dropped.
-/

namespace Verif.Crs

open Verif.Loop Verif.Dense

variable {α σ : Type}

/-- `class CrsMatrix`, src/CrsMatrix.h:683-687. -/
structure Crs (α : Type) where
  rowptr : List Nat
  colind : List Nat
  values : List α
  nrow : Nat
  ncol : Nat
  deriving DecidableEq

/-- `CrsMatrix()`, src/CrsMatrix.h:136-140. -/
def Crs.empty : Crs α := ⟨[], [], [], 0, 0⟩

/-- `for (int k = m.getRowPtr(i); k < m.getRowPtr(i+1); k++) f(m.getCol(k), m.getValue(k))`:
the loop over the stored elements of row `i` that most functions contain. -/
def rowLoop (m : Crs α) (i : Nat) (f : Nat → α → σ → Option σ) (s : σ) : Option σ := do
  let lo ← m.rowptr[i]?
  let hi ← m.rowptr[i + 1]?
  loopFrom lo hi (fun k s => do
    let c ← m.colind[k]?
    let v ← m.values[k]?
    f c v s) s

/-- `resize(nrow, ncol)`, src/CrsMatrix.h:281-289. -/
def resize2 (nrow ncol : Nat) : Crs α := ⟨List.replicate (nrow + 1) 0, [], [], nrow, ncol⟩

/-- `resize(nrow, ncol, nonzero)`, src/CrsMatrix.h:299-311 (contents are kept). -/
def resize3 [Zero α] (m : Crs α) (nrow ncol nonzero : Nat) : Crs α :=
  ⟨resizeL m.rowptr (nrow + 1) 0, resizeL m.colind nonzero 0, resizeL m.values nonzero 0, nrow, ncol⟩

/-- `setRow(n, v)`, src/CrsMatrix.h:323-327. -/
def setRow (m : Crs α) (n v : Nat) : Option (Crs α) :=
  (setAt m.rowptr n v).map fun r => { m with rowptr := r }

/-- `setCol(n, v)`, src/CrsMatrix.h:329. -/
def setCol (m : Crs α) (n v : Nat) : Option (Crs α) :=
  (setAt m.colind n v).map fun r => { m with colind := r }

/-- `setValues(n, v)`, src/CrsMatrix.h:341. -/
def setValues (m : Crs α) (n : Nat) (v : α) : Option (Crs α) :=
  (setAt m.values n v).map fun r => { m with values := r }

/-- `pushCol(j); pushValue(v)`, src/CrsMatrix.h:457-459. -/
def push (m : Crs α) (j : Nat) (v : α) : Crs α :=
  { m with colind := m.colind ++ [j], values := m.values ++ [v] }

/-- `nonZeros()`, src/CrsMatrix.h:396-409. -/
def nonZeros (m : Crs α) : Option Nat :=
  if m.nrow ≥ 1 then
    if m.rowptr.length = 1 + m.nrow ∧ m.rowptr[m.nrow]? = some m.colind.length ∧
        m.rowptr[m.nrow]? = some m.values.length then some m.colind.length else none
  else some 0

/-- One row of `checkValidity()`, src/CrsMatrix.h:521-531: `p` marks the columns seen. -/
def checkRow (m : Crs α) (i : Nat) (p : List Bool) : Option (List Bool) := do
  let lo ← m.rowptr[i]?
  let hi ← m.rowptr[i + 1]?
  if ¬ lo ≤ hi then none
  else
    let p ← rowLoop m i (fun col _ p => do
      let b ← p[col]?
      if b then none else setAt p col true) p
    rowLoop m i (fun col _ p => setAt p col false) p

/-- `checkValidity()`, src/CrsMatrix.h:511-533 (asserts; a no-op in release builds). -/
def checkValidity (m : Crs α) : Option Unit :=
  if m.nrow + 1 = m.rowptr.length ∧ m.rowptr[m.nrow]? = some m.colind.length ∧
      m.values.length = m.colind.length ∧ m.nrow > 0 ∧ m.ncol > 0 then
    (loopN m.nrow (fun i p => checkRow m i p) (List.replicate m.ncol false)).map fun _ => ()
  else none

/-- Shared by the two conversions from dense: row by row, skip what `skip` says. -/
def fromDense (skip : α → Bool) (a : Mat α) : Option (Crs α) := do
  let r ← loopN a.nrow (fun i (s : Crs α × Nat) => do
    let c ← setRow s.1 i s.2
    loopN a.ncol (fun j (s : Crs α × Nat) => do
      let x ← a.get i j
      if skip x then some s else some (push s.1 j x, s.2 + 1)) (c, s.2)) (resize2 a.nrow a.ncol, 0)
  setRow r.1 a.nrow r.2

/-- `CrsMatrix(const Matrix<T>&)`, src/CrsMatrix.h:178-197: skips `norm(a(i,j)) <= 0`.
`nrm` is `PsimagLite::norm`, src/Complex.h:102-113. -/
def ofDense {R : Type} [LE R] [DecidableLE R] [Zero R] (nrm : α → R) (a : Mat α) : Option (Crs α) :=
  fromDense (fun x => decide (nrm x ≤ 0)) a

/-- `fullMatrixToCrsMatrix(crs, a)`, src/CrsMatrix.h:790-832: skips exact zeros. -/
def fullMatrixToCrsMatrix [Zero α] [DecidableEq α] (a : Mat α) : Option (Crs α) := do
  let r ← fromDense (fun x => decide (x = 0)) a
  let _ ← checkValidity r
  some r

/-- `crsMatrixToFullMatrix(m, crs)`, src/CrsMatrix.h:775-785: assigns, does not add; `m` is
the previous contents of the destination. -/
def crsMatrixToFullMatrix [Zero α] (m : Mat α) (a : Crs α) : Option (Mat α) :=
  loopN a.nrow (fun i m => rowLoop a i (fun j v m => m.set i j v) m) (m.resizeVal a.nrow a.ncol 0)

/-- `toDense()`, src/CrsMatrix.h:504-509. -/
def toDense [Zero α] (a : Crs α) : Option (Mat α) := crsMatrixToFullMatrix ⟨0, 0, []⟩ a

/-- `matrixVectorProduct(x, y)`, src/CrsMatrix.h:414-428: `x += A*y`. -/
def matrixVectorProduct [Add α] [Mul α] (a : Crs α) (x y : List α) : Option (List α) :=
  if x.length ≠ y.length then none
  else loopN y.length (fun i x => rowLoop a i (fun j v x => do
    let b ← y[j]?
    updAt x i (· + v * b)) x) x

/-- `multiply(v2, m, v1)`, src/CrsMatrix.h:1093-1105: `v2 = m * v1`; `v2` is the previous
contents. -/
def multiplyVec [Add α] [Mul α] [Zero α] (v2 : List α) (m : Crs α) (v1 : List α) : Option (List α) :=
  loopN m.nrow (fun i v => do
    let v ← setAt v i 0
    rowLoop m i (fun j x v => do
      let b ← v1[j]?
      updAt v i (· + x * b)) v) (resizeL v2 m.nrow 0)

/-- `operator*=(x)`, src/CrsMatrix.h:353. -/
def mulAssign [Mul α] (m : Crs α) (x : α) : Crs α := { m with values := m.values.map (· * x) }

/-- `conjugate()`, src/CrsMatrix.h:497-502. -/
def conjugate [Star α] (m : Crs α) : Crs α := { m with values := m.values.map star }

/-- `makeDiagonal(row, value)`, src/CrsMatrix.h:461-477; `m` is the old contents. -/
def makeDiagonal [Zero α] (m : Crs α) (row : Nat) (value : α) : Option (Crs α) := do
  let m : Crs α := ⟨resizeL m.rowptr (row + 1) 0, resizeL m.colind row 0, resizeL m.values row 0, row, row⟩
  let m ← loopN row (fun i m => do
    let m ← setValues m i value
    let m ← setCol m i i
    setRow m i i) m
  setRow m row row

/-- Work space of `multiply`: `ptr` (`none` is -1), `index`, `temp`, `itemp`,
src/CrsMatrix.h:1048-1051. -/
structure Acc (α : Type) where
  ptr : List (Option Nat)
  index : List Nat
  temp : List α
  itemp : Nat

/-- Inner body of `multiply`, src/CrsMatrix.h:1068-1079. -/
def accStep [Add α] (jbk : Nat) (tmp : α) (s : Acc α) : Option (Acc α) := do
  let p ← s.ptr[jbk]?
  match p with
  | none =>
    let ptr ← setAt s.ptr jbk (some s.itemp)
    let temp ← setAt s.temp s.itemp tmp
    let index ← setAt s.index s.itemp jbk
    some ⟨ptr, index, temp, s.itemp + 1⟩
  | some q =>
    let temp ← updAt s.temp q (· + tmp)
    some ⟨s.ptr, s.index, temp, s.itemp⟩

/-- `multiply(C, A, B)`, src/CrsMatrix.h:1043-1091: `C = A*B`. -/
def multiply [Add α] [Mul α] [Zero α] (A B : Crs α) : Option (Crs α) := do
  let r ← loopN A.nrow (fun i (s : Crs α × Acc α × Nat) => do
    let c ← setRow s.1 i s.2.2
    let acc ← rowLoop A i (fun ja va acc =>
      rowLoop B ja (fun jb vb acc => accStep jb (va * vb) acc) acc) { s.2.1 with itemp := 0 }
    let out ← loopN acc.itemp (fun t (o : Crs α × List (Option Nat)) => do
      let v ← acc.temp[t]?
      let j ← acc.index[t]?
      let ptr ← setAt o.2 j none
      some (push o.1 j v, ptr)) (c, acc.ptr)
    some (out.1, { acc with ptr := out.2 }, s.2.2 + acc.itemp))
    (resize2 A.nrow B.ncol,
      ⟨List.replicate B.ncol none, List.replicate B.ncol 0, List.replicate B.ncol 0, 0⟩, 0)
  let c ← setRow r.1 A.nrow r.2.2
  let _ ← checkValidity c
  some c

/-- The row pointers computed from per-row counts, as in src/CrsMatrix.h:1138-1144 and
905-915; returns the matrix and the final position. -/
def setPtrs (n : Nat) (counts : List Nat) (b : Crs α) : Option (Crs α × Nat) :=
  loopN n (fun ib (s : Crs α × Nat) => do
    let b ← setRow s.1 ib s.2
    let c ← counts[ib]?
    some (b, s.2 + c)) (b, 0)

/-- Store an element at the next free place of row `ib`, src/CrsMatrix.h:1167-1177, 945-952. -/
def scatterStep (ib jb : Nat) (v : α) (s : Crs α × List Nat) : Option (Crs α × List Nat) := do
  let ip ← s.2[ib]?
  let b ← setCol s.1 ip jb
  let b ← setValues b ip v
  let ptr ← updAt s.2 ib (· + 1)
  some (b, ptr)

/-- `transposeConjugate(B, A)`, src/CrsMatrix.h:1107-1180; `old` is the previous contents
of `B`. -/
def transposeConjugate [Star α] [Zero α] (old A : Crs α) : Option (Crs α) := do
  let nnz ← nonZeros A
  let b := resize3 old A.ncol A.nrow nnz
  let counts ← loopN A.nrow (fun ia cnt => rowLoop A ia (fun ja _ cnt => updAt cnt ja (· + 1)) cnt)
    (List.replicate A.ncol 0)
  let r ← setPtrs A.ncol counts b
  if r.2 ≠ nnz then none
  else
    let b ← setRow r.1 A.ncol nnz
    let start := b.rowptr.take A.ncol
    let s ← loopN A.nrow (fun ia s => rowLoop A ia (fun ja v s => scatterStep ja ia (star v) s) s)
      (b, start)
    some s.1

/-- Loop over row `i` of `m` if there is such a row (`is_valid_B_row`), src/CrsMatrix.h:1232-1240. -/
def rowLoop? (m : Crs α) (i : Nat) (f : Nat → α → σ → Option σ) (s : σ) : Option σ :=
  if i < m.nrow then rowLoop m i f s else some s

/-- Number of stored elements in row `i` (0 if there is no such row), src/CrsMatrix.h:1235-1245. -/
def rowCount? (m : Crs α) (i : Nat) : Option Nat :=
  if i < m.nrow then do
    let lo ← m.rowptr[i]?
    let hi ← m.rowptr[i + 1]?
    some (hi - lo)
  else some 0

/-- State of `operatorPlus`: matrix, counter, `valueTmp`, `is_examined_already`. -/
structure PlusState (α : Type) where
  a : Crs α
  counter : Nat
  valueTmp : List α
  examined : List Bool

/-- "copy row to matrix A", src/CrsMatrix.h:1275-1287. -/
def plusCopy [Zero α] [DecidableEq α] (jcol : Nat) (s : PlusState α) : Option (PlusState α) := do
  let e ← s.examined[jcol]?
  if e then some s
  else
    let ex ← setAt s.examined jcol true
    let aij ← s.valueTmp[jcol]?
    if aij = 0 then some { s with examined := ex }
    else some { s with examined := ex, a := push s.a jcol aij, counter := s.counter + 1 }

/-- "reset vectors", src/CrsMatrix.h:1310-1318. -/
def plusReset [Zero α] (jcol : Nat) (s : PlusState α) : Option (PlusState α) := do
  let v ← setAt s.valueTmp jcol 0
  let ex ← setAt s.examined jcol false
  some { s with valueTmp := v, examined := ex }

/-- One row of `operatorPlus`, src/CrsMatrix.h:1229-1320. -/
def plusRow [Add α] [Mul α] [Zero α] [DecidableEq α] (B : Crs α) (b1 : α) (C : Crs α) (c1 : α)
    (irow : Nat) (s : PlusState α) : Option (PlusState α) := do
  let a ← setRow s.a irow s.counter
  let s := { s with a := a }
  let nb ← rowCount? B irow
  let nc ← rowCount? C irow
  if nb + nc ≥ 1 then
    let s ← rowLoop? B irow (fun j v s => (updAt s.valueTmp j (· + v * b1)).map
      fun t => { s with valueTmp := t }) s
    let s ← rowLoop? C irow (fun j v s => (updAt s.valueTmp j (· + v * c1)).map
      fun t => { s with valueTmp := t }) s
    let s ← rowLoop? B irow (fun j _ s => plusCopy j s) s
    let s ← rowLoop? C irow (fun j _ s => plusCopy j s) s
    let s ← rowLoop? B irow (fun j _ s => plusReset j s) s
    rowLoop? C irow (fun j _ s => plusReset j s) s
  else some s

/-- `operatorPlus(A, B, b1, C, c1)`, src/CrsMatrix.h:1182-1327: `A = B*b1 + C*c1`. -/
def operatorPlus [Add α] [Mul α] [Zero α] [DecidableEq α] (B : Crs α) (b1 : α) (C : Crs α) (c1 : α) :
    Option (Crs α) := do
  let nrow := if B.nrow ≥ C.nrow then B.nrow else C.nrow
  let ncol := if B.ncol ≥ C.ncol then B.ncol else C.ncol
  let _ ← nonZeros B
  let _ ← nonZeros C
  let s ← loopN nrow (fun irow s => plusRow B b1 C c1 irow s)
    ⟨resize2 nrow ncol, 0, List.replicate ncol 0, List.replicate ncol false⟩
  let a ← setRow s.a nrow s.counter
  let a := resize3 a nrow ncol s.counter
  let _ ← checkValidity a
  some a

/-- `add(c, m, t1)` (private), src/CrsMatrix.h:669-681: `c = *this + t1*m`. -/
def add [Add α] [Mul α] [Zero α] [One α] [DecidableEq α] (self m : Crs α) (t1 : α) : Option (Crs α) :=
  if m.nrow ≠ m.ncol then none
  else if self.nrow ≥ m.nrow then operatorPlus self 1 m t1
  else operatorPlus m t1 self 1

/-- `operator+=(m)`, src/CrsMatrix.h:388-394. -/
def addAssign [Add α] [Mul α] [Zero α] [One α] [DecidableEq α] (self m : Crs α) : Option (Crs α) :=
  add self m 1

/-- State of `sum` for one row: `valueTmp`, `is_examined_already`, `column_index`. -/
structure SumState (α : Type) where
  valueTmp : List α
  examined : List Bool
  columns : List Nat

/-- Body of `sum`, src/CrsMatrix.h:1411-1434. -/
def sumStep [Add α] (j : Nat) (x : α) (s : SumState α) : Option (SumState α) := do
  let e ← s.examined[j]?
  if e then
    let v ← updAt s.valueTmp j (· + x)
    some { s with valueTmp := v }
  else
    let ex ← setAt s.examined j true
    let v ← setAt s.valueTmp j x
    some ⟨v, ex, s.columns ++ [j]⟩

/-- `sum(A, Bmats, bvec)`, src/CrsMatrix.h:1329-1468: `A = Σ bvec[k] * Bmats[k]`. -/
def sum [Add α] [Mul α] [Zero α] (Bmats : List (Crs α)) (bvec : List α) : Option (Crs α) := do
  let nrow := Bmats.foldl (fun n B => if B.nrow > n then B.nrow else n) 0
  let ncol := Bmats.foldl (fun n B => if B.ncol > n then B.ncol else n) 0
  let _ ← Bmats.foldlM (fun (_ : Nat) B => nonZeros B) 0
  let r ← loopN nrow (fun irow (s : Crs α × Nat × List α × List Bool) => do
    let a ← setRow s.1 irow s.2.1
    let t ← loopN Bmats.length (fun imat (t : SumState α) => do
      let B ← Bmats[imat]?
      let n ← rowCount? B irow
      if n ≥ 1 then
        let b1 ← bvec[imat]?
        rowLoop? B irow (fun j v t => sumStep j (v * b1) t) t
      else some t) ⟨s.2.2.1, s.2.2.2, []⟩
    let o ← loopN t.columns.length (fun k (o : Crs α × List Bool) => do
      let j ← t.columns[k]?
      let v ← t.valueTmp[j]?
      let ex ← setAt o.2 j false
      some (push o.1 j v, ex)) (a, t.examined)
    some (o.1, s.2.1 + t.columns.length, t.valueTmp, o.2))
    (resize2 nrow ncol, 0, List.replicate ncol 0, List.replicate ncol false)
  let a ← setRow r.1 nrow r.2.1
  let a := resize3 a nrow ncol r.2.1
  let _ ← checkValidity a
  some a

/-- `fromBlockToFull(Bfull, B, offset)`, src/CrsMatrix.h:1490-1534; the full matrix only
contributes its dimensions. -/
def fromBlockToFull (nrows ncols : Nat) (B : Crs α) (offset : Nat) : Option (Crs α) := do
  let _ ← nonZeros B
  let f ← loopN offset (fun i f => setRow f i 0) (resize2 nrows ncols)
  let s ← loopN B.nrow (fun ii (s : Crs α × Nat) => do
    let f ← setRow s.1 (ii + offset) s.2
    rowLoop B ii (fun j v (s : Crs α × Nat) => some (push s.1 (j + offset) v, s.2 + 1)) (f, s.2)) (f, 0)
  let f ← loopFrom (B.nrow + offset) nrows (fun i f => setRow f i s.2) s.1
  let f ← setRow f nrows s.2
  let _ ← checkValidity f
  some f

/-- `externalProduct(B, A, nout, signs, order, permutationFull)`, src/CrsMatrix.h:840-964;
`old` is the previous contents of `B`. -/
def externalProductId [Mul α] [Zero α] (old A : Crs α) (nout : Nat) (signs : List α) (order : Bool)
    (perm : List Nat) : Option (Crs α) := do
  let _ ← (if A.nrow > 0 then checkValidity A else some ())
  let nnzA ← nonZeros A
  let b := resize3 old (nout * A.nrow) (nout * A.ncol) (nout * nnzA)
  if A.nrow ≠ A.ncol then none  -- RuntimeError
  else if ¬ A.nrow * nout ≤ perm.length then none
  else
    let counts ← loopN A.nrow (fun ia cnt => do
      let lo ← A.rowptr[ia]?
      let hi ← A.rowptr[ia + 1]?
      loopN nout (fun ie cnt => do
        let ib ← perm[if order then ia + ie * A.nrow else ie + ia * nout]?
        setAt cnt ib (hi - lo)) cnt) (List.replicate (nout * A.nrow) 0)
    let r ← setPtrs (nout * A.nrow) counts b
    if r.2 ≠ nout * nnzA then none
    else
      let b ← setRow r.1 (nout * A.nrow) (nout * nnzA)
      let start := b.rowptr.take (nout * A.nrow)
      let s ← loopN A.nrow (fun ia s => rowLoop A ia (fun ja aij s =>
        loopN nout (fun ie s => do
          let ib := if order then ia + ie * A.nrow else ie + ia * nout
          let jb := if order then ja + ie * A.ncol else ie + ja * nout
          let bij ← (if order then some aij else (signs[ie]?).map fun x => aij * x)
          let pib ← perm[ib]?
          let pjb ← perm[jb]?
          scatterStep pib pjb bij s) s) s) (b, start)
      let _ ← (if nout * A.nrow ≠ 0 then checkValidity s.1 else some ())
      some s.1

/-- `externalProduct(C, A, B, signs, order, permutationFull)`, src/CrsMatrix.h:966-1020. -/
def externalProduct [Mul α] (A B : Crs α) (signs : List α) (order : Bool) (perm : List Nat) :
    Option (Crs α) := do
  let nfull := perm.length
  let inv ← loopN nfull (fun i inv => do
    let p ← perm[i]?
    setAt inv p i) (List.replicate nfull 0)
  let nout := B.nrow
  let na := A.nrow
  let n1 := if order then na else nout
  let AorB := if order then B else A
  let BorA := if order then A else B
  if A.nrow ≠ A.ncol ∨ B.nrow ≠ B.ncol ∨ nout * na ≠ nfull ∨ signs.length ≠ n1 then none
  else
    let r ← loopN nfull (fun i (s : Crs α × Nat) => do
      let c ← setRow s.1 i s.2
      let ind ← inv[i]?
      rowLoop BorA (ind % n1) (fun col1 v1 s =>
        rowLoop AorB (ind / n1) (fun col2 v2 (s : Crs α × Nat) => do
          let j ← perm[col1 + col2 * n1]?
          let sg ← signs[ind % n1]?
          some (push s.1 j (v1 * v2 * sg), s.2 + 1)) s) (c, s.2)) (resize2 nfull nfull, 0)
    let c ← setRow r.1 nfull r.2
    let _ ← checkValidity c
    some c

/-- `isHermitian(A)`, src/CrsMatrix.h:1470-1478. -/
def isHermitian [Sub α] [Star α] [Zero α] {R : Type} [LT R] [DecidableLT R] (nrm : α → R) (eps : R)
    (a : Crs α) : Option Bool :=
  if a.nrow ≠ a.ncol then some false
  else do
    let d ← toDense a
    Dense.isHermitian nrm eps d

/-- `isAntiHermitian(A)`, src/CrsMatrix.h:1480-1488. -/
def isAntiHermitian [Add α] [Star α] [Zero α] {R : Type} [LT R] [DecidableLT R] (nrm : α → R) (eps : R)
    (a : Crs α) : Option Bool :=
  if a.nrow ≠ a.ncol then some false
  else do
    let d ← toDense a
    Dense.isAntiHermitian nrm eps d

/-- `isDiagonal(A, eps, checkForIdentity)`, src/CrsMatrix.h:1536-1556. -/
def isDiagonal [Add α] [Neg α] [One α] {R : Type} [LT R] [DecidableLT R] (nrm : α → R) (eps : R)
    (checkForIdentity : Bool) (a : Crs α) : Option Bool :=
  if a.nrow ≠ a.ncol then some false
  else loopN a.nrow (fun i b => rowLoop a i (fun col val b =>
    if b = false then some false  -- already returned
    else if checkForIdentity ∧ col = i ∧ nrm (val + -1) > eps then some false
    else if col ≠ i ∧ nrm val > eps then some false
    else some true) b) true

/-- `isTheIdentity(A, eps)`, src/CrsMatrix.h:1558-1562. -/
def isTheIdentity [Add α] [Neg α] [One α] {R : Type} [LT R] [DecidableLT R] (nrm : α → R) (eps : R)
    (a : Crs α) : Option Bool := isDiagonal nrm eps true a

/-- `isZero(A, eps)`, src/CrsMatrix.h:1586-1596; `nrm` is `std::abs`. -/
def isZero {R : Type} [LT R] [DecidableLT R] (nrm : α → R) (eps : R) (a : Crs α) : Bool :=
  a.values.all fun v => !decide (nrm v > eps)

/-- `norm2(m)`, src/CrsMatrix.h:1564-1572 (before taking the real part). -/
def norm2 [Add α] [Mul α] [Zero α] [Star α] (m : Crs α) : α :=
  m.values.foldl (fun val v => val + star v * v) 0

/-- `multiplyTc(a, b)`, src/CrsMatrix.h:1574-1584: `a * b†` as a dense matrix. -/
def multiplyTc [Add α] [Mul α] [Zero α] [Star α] (a b : Crs α) : Option (Mat α) := do
  let bb ← transposeConjugate Crs.empty b
  let c ← multiply a bb
  toDense c

/-- The constructor from coordinate lists, src/CrsMatrix.h:199-228.  `rows`, `iperm` are the
result of `Sort` on `rows2` (see C22). -/
def ofCoo (rank : Nat) (rows iperm cols : List Nat) (vals : List α) : Option (Crs α) := do
  let r0 ← rows[0]?
  let s ← loopN rows.length (fun i (s : Crs α × Nat × Nat) => do
    let row ← rows[i]?
    let (m, counter, prev) := s
    let (m, counter, prev) ←
      if prev ≠ row then (setRow m row counter).map fun m => (m, counter + 1, row)
      else some (m, counter, prev)
    let p ← iperm[i]?
    let c ← cols[p]?
    let v ← vals[p]?
    some (push m c v, counter, prev))
    (⟨List.replicate (rank + 1) 0, [], [], rank, rank⟩, 0, r0 + 1)
  let last ← rows[rows.length - 1]?
  loopFrom (last + 1) (rank + 1) (fun i m => setRow m i s.2.1) s.1

/-- A token of the text format: an integer or a matrix element. -/
inductive Tok (α : Type) where
  | num (n : Nat)
  | val (a : α)
  deriving DecidableEq

/-- `operator<<`, src/CrsMatrix.h:692-718. -/
def print (m : Crs α) : Option (List (Tok α)) :=
  if m.nrow = 0 then some [.num 0, .num 0]
  else do
    let ptrs ← loopN (m.nrow + 1) (fun i acc => (m.rowptr[i]?).map fun p => acc ++ [Tok.num p]) []
    let nz ← nonZeros m
    let cols ← loopN nz (fun i acc => (m.colind[i]?).map fun p => acc ++ [Tok.num p]) []
    let vals ← loopN nz (fun i acc => (m.values[i]?).map fun p => acc ++ [Tok.val p]) []
    some ([.num m.nrow, .num m.ncol] ++ ptrs ++ [.num nz] ++ cols ++ [.num nz] ++ vals)

/-- Read one integer. -/
def readNum : List (Tok α) → Option (Nat × List (Tok α))
  | .num a :: ts => some (a, ts)
  | _ => none

/-- Read `n` integers. -/
def readNums : Nat → List (Tok α) → Option (List Nat × List (Tok α))
  | 0, ts => some ([], ts)
  | n + 1, .num a :: ts => (readNums n ts).map fun r => (a :: r.1, r.2)
  | _ + 1, _ => none

/-- Read `n` matrix elements. -/
def readVals : Nat → List (Tok α) → Option (List α × List (Tok α))
  | 0, ts => some ([], ts)
  | n + 1, .val a :: ts => (readVals n ts).map fun r => (a :: r.1, r.2)
  | _ + 1, _ => none

/-- `operator>>`, src/CrsMatrix.h:720-754: returns the matrix and the unread tokens.
`none`: the stream does not hold a matrix (the C++ sets the fail bit). -/
def read (m : Crs α) (toks : List (Tok α)) : Option (Crs α × List (Tok α)) := do
  let (n, toks) ← readNum toks
  let (ncol, toks) ← readNum toks
  if n = 0 ∨ ncol = 0 then some (m, toks)
  else
    let (rowptr, toks) ← readNums (n + 1) toks
    let (nz, toks) ← readNum toks
    let (colind, toks) ← readNums nz toks
    let (nz, toks) ← readNum toks
    let (values, toks) ← readVals nz toks
    some (⟨rowptr, colind, values, n, ncol⟩, toks)

end Verif.Crs
