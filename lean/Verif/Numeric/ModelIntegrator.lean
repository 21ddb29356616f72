import Verif.Util.Out
import Mathlib.Data.Real.Basic

/-!
# Model of `Integrator`
-/

namespace Verif.Numeric

noncomputable section

/-- What the integration routines of GSL give back. -/
structure QRes where
  status : Int
  result : ℝ
  abserr : ℝ

/-- The routines of GSL that src/GslWrapper.h:232-249 forwards to; `work` is the size the workspace was made with. -/
structure Quad where
  qag : (ℝ → ℝ) → (a b epsabs epsrel : ℝ) → (limit : Nat) → (key : Int) → (work : Nat) → QRes
  qagp : (ℝ → ℝ) → (pts : List ℝ) → (epsabs epsrel : ℝ) → (limit work : Nat) → QRes
  qagiu : (ℝ → ℝ) → (a epsabs epsrel : ℝ) → (limit work : Nat) → QRes
  qagi : (ℝ → ℝ) → (epsabs epsrel : ℝ) → (limit work : Nat) → QRes

/-- `Integrator`, src/Integrator.h:98-105. -/
structure Integ where
  f : ℝ → ℝ
  epsabs : ℝ
  epsrel : ℝ
  limit : Nat
  work : Nat

/-- The constructor, src/Integrator.h:20-32; with GSL or without (src/GslWrapper.h:107-112, 181-183).  That `limit_ + 2` wraps around is
not modelled. -/
def Integ.make (hasGsl : Bool) (f : ℝ → ℝ) (epsabs epsrel : ℝ) (limit : Nat) : Out Integ :=
  if hasGsl then .ok ⟨f, epsabs, epsrel, limit, limit + 2⟩ else throwOut

/-- `INTEG_QAG` or `INTEG_QAGP`, src/Integrator.h:17-18. -/
inductive IntegKind
  | qag
  | qagp
  deriving DecidableEq

/-- The value, and the number of the error printed to the standard error if there was one. -/
structure Answer where
  value : ℝ
  printed : Option Int

/-- What all calls do with the status, src/Integrator.h:55-58, src/GslWrapper.h:198-201. -/
def QRes.answer (r : QRes) : Answer := ⟨r.result, if r.status ≠ 0 then some r.status else none⟩

/-- `operator()(pts, integ, key)`, src/Integrator.h:39-49, 74-96; less than two points, or none, are read out of bounds. -/
def Integ.between (q : Quad) (s : Integ) (pts : List ℝ) (kind : IntegKind) (key : Int) : Out Answer :=
  match kind with
  | .qag =>
    match pts with
    | a :: b :: _ => .ok (q.qag s.f a b s.epsabs s.epsrel s.limit key s.work).answer
    | _ => ubOut
  | .qagp =>
    match pts with
    | [] => ubOut
    | _ :: _ => .ok (q.qagp s.f pts s.epsabs s.epsrel s.limit s.work).answer

/-- `toInfinity(a, integ, key)`, src/Integrator.h:51-59. -/
def Integ.toInfinity (q : Quad) (s : Integ) (a : ℝ) (_ : IntegKind) (_ : Int) : Answer :=
  (q.qagiu s.f a s.epsabs s.epsrel s.limit s.work).answer

/-- `operator()()`, src/Integrator.h:61-70. -/
def Integ.everywhere (q : Quad) (s : Integ) : Answer := (q.qagi s.f s.epsabs s.epsrel s.limit s.work).answer

end

end Verif.Numeric
