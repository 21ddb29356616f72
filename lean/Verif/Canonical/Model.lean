import Verif.Util.Out
import Verif.Ast.Model
import Verif.StrUtil.Model
import Mathlib.Algebra.Ring.Defs

/-!
# Model of operator expressions, src/QuasiCanonical.h and src/CanonicalExpression.h

The item type of the code is a template argument.  Here an item is empty (`none`) or an element of a ring `A`, and the
scalars are of type `F`.
-/

namespace Verif.Canonical

open Verif.Str Verif.StrUtil

/-- State of the loop of the constructor of `QuasiCanonical`: `mainBuffer_`, `tempBuffer`, `status`, `prev` (`none`
before the first character), `ats_`. -/
structure Scan where
  main : List Char
  temp : List Char
  isOpen : Bool
  prev : Option Char
  ats : List (List Char)

/-- One round of that loop, src/QuasiCanonical.h:31-68. -/
def scanStep (st : Scan) (c : Char) : Out Scan :=
  if c = '-' ∧ st.prev ≠ none ∧ st.prev ≠ some '(' ∧ st.prev ≠ some '+' then throwOut
  else if c = '(' then
    if st.isOpen then throwOut else .ok { st with isOpen := true, prev := some c }
  else if c = ')' then
    if !st.isOpen then throwOut
    else .ok { main := st.main ++ ('@' :: Nat.toDigits 10 st.ats.length ++ ['@']), temp := [], isOpen := false,
               prev := some c, ats := st.ats ++ [st.temp] }
  else if !st.isOpen then .ok { st with main := st.main ++ [c], prev := some c }
  else .ok { st with temp := st.temp ++ [c], prev := some c }

/-- The members of `QuasiCanonical`, src/QuasiCanonical.h:169-173. -/
structure QuasiCanonical (F : Type) where
  ats : List (List Char)
  terms : List (List Char)
  cached : List F

/-- `simpleArithmetics`, src/QuasiCanonical.h:154-167; `piText` is `ttos(M_PI)`. -/
def simpleArithmetics {F : Type} (o : Ast.Ops F) (piText str : List Char) : Out F :=
  match replaceAll str "pi".toList piText with
  | none => throwOut
  | some str =>
    match split [] str [':'] with
    | none => throwOut
    | some ve => ofThrow (Ast.run o (ve.map String.ofList))

/-- `QuasiCanonical::QuasiCanonical`, src/QuasiCanonical.h:24-81. -/
def QuasiCanonical.ctor {F : Type} (arith : List Char → Out F) (str : List Char) : Out (QuasiCanonical F) := do
  let st ← str.foldlM scanStep ⟨[], [], false, none, []⟩
  if st.isOpen then throwOut
  else do
    let terms ← ofThrow (split [] st.main ['+'])
    let cached ← st.ats.mapM arith
    .ok ⟨st.ats, terms, cached⟩

/-- `isRealScalar`, src/QuasiCanonical.h:135-150. -/
def isRealScalar (s : List Char) : Out Bool :=
  if s.length = 0 then throwOut
  else .ok (s.all fun c => c == '.' || c == '-' || c == '+' || isDigit c)

/-- `isPureComplex`, src/QuasiCanonical.h:113-123. -/
def isPureComplex (t : List Char) : Out Bool :=
  if t = ['i'] then .ok true
  else if t.length < 2 then .ok false
  else isRealScalar (t.take (t.length - 1))

/-- `scalarIndex`, src/QuasiCanonical.h:91-104; `none` is -1.  A negative number becomes a huge unsigned one. -/
def scalarIndex (nats : Nat) (str : List Char) : Out (Option Nat) :=
  if str.length < 3 then .ok none
  else if str.head? ≠ some '@' ∨ str[str.length - 1]? ≠ some '@' then .ok none
  else do
    let snumber ← ofThrow (substr str 1 (str.length - 2))
    let number ← ofNested (atoi snumber)
    if number < 0 ∨ nats ≤ number.toNat then .ok none else .ok (some number.toNat)

/-- The template parameters: reading a real number (`atof`) and an imaginary one (`pureComplex`,
src/QuasiCanonical.h:125-133), the operators (`itemSpec_`), and the comparison of metas. -/
structure Spec (F A : Type) where
  readReal : List Char → Out F
  readImag : List Char → Out F
  item : List Char → Out A
  metaItems : A → A → Bool
  metaResult : A → Option A → Bool
  /-- `+=` on an empty result -/
  plusEmpty : A → Out A

/-- `procCanonicalFactor`, src/CanonicalExpression.h:151-188: `prev` and `factor` before and after. -/
def procFactor {F A : Type} [Mul F] [Mul A] (sp : Spec F A) (qc : QuasiCanonical F) (st : Option A × F)
    (s : List Char) : Out (Option A × F) := do
  if ← isRealScalar s then
    let f ← sp.readReal s
    return (st.1, st.2 * f)
  else if ← isPureComplex s then
    let f ← sp.readImag s
    return (st.1, st.2 * f)
  else
    match ← scalarIndex qc.ats.length s with
    | some ind =>
      match qc.cached[ind]? with
      | some f => return (st.1, st.2 * f)
      | none => ubOut
    | none =>
      let term ← sp.item s
      match st.1 with
      | none => return (some term, st.2)
      | some p => if sp.metaItems term p then return (some (p * term), st.2) else throwOut

/-- `procCanonicalTerm`, src/CanonicalExpression.h:130-149; an empty result is `none`. -/
def procTerm {F A : Type} [Mul F] [One F] [Mul A] [SMul F A] (sp : Spec F A) (qc : QuasiCanonical F)
    (term : List Char) : Out (Option A) := do
  let vecStr ← ofThrow (split [] term ['*'])
  let r ← vecStr.foldlM (procFactor sp qc) (none, 1)
  match r.1 with
  | none => return none
  | some t => return (some (r.2 • t))

/-- One round of the loop of `operator()`, src/CanonicalExpression.h:76-92; the state is the round and
`result`. -/
def termStep {F A : Type} [Mul F] [One F] [Mul A] [SMul F A] [Add A] (sp : Spec F A) (qc : QuasiCanonical F)
    (st : Nat × Option A) (term : List Char) : Out (Nat × Option A) := do
  match ← procTerm sp qc term with
  | none => return (st.1 + 1, st.2)
  | some t =>
    if !sp.metaResult t st.2 then throwOut
    else if st.1 = 0 then return (st.1 + 1, some t)
    else match st.2 with
      | some r => return (st.1 + 1, some (r + t))
      | none =>
        let r ← sp.plusEmpty t
        return (st.1 + 1, some r)

/-- `CanonicalExpression::operator()`, src/CanonicalExpression.h:67-95: the final `result` (the value returned
says whether it is empty); `result` is its value before the call. -/
def evaluate {F A : Type} [Mul F] [One F] [Mul A] [SMul F A] [Add A] (sp : Spec F A) (arith : List Char → Out F)
    (result : Option A) (expr : List Char) : Out (Option A) := do
  let qc ← QuasiCanonical.ctor arith expr
  let r ← qc.terms.foldlM (termStep sp qc) (0, result)
  return r.2

end Verif.Canonical
