import Verif.Krylov.ModelCheb
import Verif.SolverP.Model
import Verif.Util.Out
import Mathlib.Algebra.Order.Floor.Defs
import Mathlib.Data.Real.Archimedean

/-!
# Model of the constructor of `ChebyshevSolver`, of its bounds of the spectrum and of `ChebyshevSerializer::plot`
-/

namespace Verif.Krylov

noncomputable section

/-- The constructor of `LanczosVectors`, src/LanczosVectors.h:114-131: only `lotaMemory` matters, besides messages. -/
def vectorsCtor (lotaMemory : Bool) : Out Unit :=
  if lotaMemory = false then throwOut else .ok ()

/-- `ParametersForSolver::ParametersForSolver()`, src/ParametersForSolver.h:101-115. -/
def defaultParams (tiny : ℝ) : SolverP.Params ℝ where
  steps := 200
  minSteps := 4
  tolerance := tiny
  stepsForEnergyConvergence := 1000000
  eigsForStop := 1
  options := []
  oneOverA := 0
  b := 0
  eg := 0
  weight := 0
  isign := 0
  lotaMemory := false

/-- The two numbers, src/ChebyshevSolver.h:341-347: `eMax` is the energy found for the matrix with the opposite sign.  A
failed assertion is undefined behaviour. -/
def aAndB (eMax eMin : ℝ) : Out (ℝ × ℝ) :=
  open Classical in
  let eMax := -eMax * 3
  let eMin := eMin * 3
  if eMax - eMin > 1 / 100 then .ok (2 / (eMax - eMin), (eMax + eMin) / 2) else ubOut

/-- `computeAandB`, src/ChebyshevSolver.h:317-354.  `found` gives the energies that `computeOneState` finds for the matrix with
the opposite sign and for the matrix; the constructor of `LanczosSolver`, src/LanczosCore.h:121-127, constructs the vectors. -/
def computeAandB (tiny : ℝ) (found : ℝ × ℝ) : Out (ℝ × ℝ) := do
  vectorsCtor (defaultParams tiny).lotaMemory
  vectorsCtor (defaultParams tiny).lotaMemory
  aAndB found.1 found.2

/-- The constructor of `ChebyshevSolver`, src/ChebyshevSolver.h:133-149: the parameters afterwards; `reortho` is whether the
options ask for it, src/LanczosOrDavidsonBase.h:103-119. -/
def chebCtor (tiny : ℝ) (found : ℝ × ℝ) (reortho : Bool) (p : SolverP.Params ℝ) : Out (SolverP.Params ℝ) := do
  if reortho = true ∧ p.lotaMemory = false then throwOut
  vectorsCtor p.lotaMemory
  let r ← computeAandB tiny found
  return { p with
    steps := 400
    oneOverA := r.1
    b := r.2 }

/-! ## The curve -/

/-- `SizeType(x)` for a real number, in src/ChebyshevSerializer.h:144: undefined if the number without its fraction is
negative.  Numbers too large are not considered. -/
def toSize (x : ℝ) : Option Nat :=
  open Classical in if -1 < x then some ⌊x⌋₊ else none

/-- The loop of `plot`, src/ChebyshevSerializer.h:149-160; the list are the elements of `result` from `counter` on. -/
def plotLoop (q : PlotP) (gnmn : List ℝ) : List (ℝ × ℝ) → ℝ → Option (List (ℝ × ℝ))
  | [], omega => open Classical in if omega < q.omega2 then none else some []
  | p :: rest, omega =>
    open Classical in
    if omega < q.omega2 then
      match plotAt q gnmn omega with
      | none => none
      | some tmp => if rest = [] then some [(omega, tmp)] else (plotLoop q gnmn rest (omega + q.delta)).map ((omega, tmp) :: ·)
    else some (p :: rest)

/-- `plot`, src/ChebyshevSerializer.h:132-161; `a` and `b` are the moments. -/
def plot (k : Kernel) (cutoff : Nat) (a b : List ℝ) (q : PlotP) (result : List (ℝ × ℝ)) : Option (List (ℝ × ℝ)) := do
  let gnmun ← plotMoments k cutoff a b
  let n ← (open Classical in if q.delta = 0 then none else toSize ((q.omega2 - q.omega1) / q.delta))
  plotLoop q gnmun (if result = [] then List.replicate n (0, 0) else result) q.omega1

end

end Verif.Krylov
