import Verif.IoSimple.ModelCf
import Verif.Spectral.Model

/-!
# Whole programs: examples/combineContinuedFraction.cpp, examples/continuedFraction.cpp and
examples/continuedFractionCollection.cpp

Numbers of the program are of a type `α` (those of weights of a type `W`), with the text that is written for them and the way they are
read, as in `Verif.IoSimple.ModelCf`; `val` and `valW` are their values, and the arithmetic of the plots has no rounding.  Files are
given by their text.  `getopt` is not modelled: the programs have their options as arguments.
-/

namespace Verif.Whole.Combine

open Verif.IoSimple Verif.Spectral

variable {α W : Type}

/-- The last fraction of a file, examples/combineContinuedFraction.cpp:51-55. -/
def lastOf [DecidableEq W] (f : Fmt α) (g : Fmt W) (zeroA : α) (zero : W) (diag : List α → List α → List α × List α) (file : Str) :
    Out (Cf α W) := do
  let p ← advance file (.ofText file) "#Avector".toList (-1)
  let r ← Cf.read f g zeroA zero diag file p.1
  return r.2

/-- What examples/combineContinuedFraction.cpp:42-62 prints for these files; without any it is the usage, `none`. -/
def combine [DecidableEq W] (f : Fmt α) (g : Fmt W) (zeroA : α) (zero : W) (diag : List α → List α → List α × List α)
    (files : List Str) : Out (Option Str) :=
  if files = [] then .ok none
  else do
    let cs ← files.mapM (lastOf f g zeroA zero diag)
    let text ← writeColl f g 0 [] cs
    return some text

noncomputable section

open Classical

/-- The numbers of a fraction. -/
def toCF (val : α → ℝ) (valW : W → ℂ) (c : Cf α W) : CF :=
  ⟨c.matsubara, val c.eg, valW c.weight, c.isign, c.eigs.map val, c.intensity.map val⟩

/-- Undefined behaviour. -/
def ofOption {β : Type} : Option β → Out β
  | some x => .ok x
  | none => ubOut

/-- The lines that examples/continuedFraction.cpp:72-88 prints: frequency, real part, imaginary part; `none` is the usage. -/
def plotSingle [DecidableEq W] (f : Fmt α) (g : Fmt W) (zeroA : α) (zero : W) (diag : List α → List α → List α × List α) (val : α → ℝ)
    (valW : W → ℂ) (file : Str) (wbegin wend wstep delta : ℝ) : Out (Option (List (ℝ × ℝ × ℝ))) :=
  if wbegin ≥ wend ∨ wstep ≤ 0 ∨ delta ≤ 0 then .ok none
  else do
    let r ← Cf.read f g zeroA zero diag file (.ofText file)
    let v ← ofOption (plot (toCF val valW r.2) ⟨wbegin, wend, wstep, delta, 0, 0⟩ [])
    return some (v.map fun x => (x.1, x.2.re, x.2.im))

/-- The options are refused, examples/continuedFractionCollection.cpp:113-119. -/
def refused (p : PlotP) : Prop :=
  (p.omega1 ≥ p.omega2 ∨ p.deltaOmega ≤ 0 ∨ p.delta ≤ 0) ∧ (p.beta ≤ 0 ∨ p.matsubaras = 0)

/-- `plotAll`, examples/continuedFractionCollection.cpp:44-54: frequency, imaginary part, real part. -/
def printAll (cs : List CF) (p : PlotP) : Out (List (ℝ × ℝ × ℝ)) := do
  let v ← plotAll cs p []
  return v.map fun x => (x.1, x.2.im, x.2.re)

/-- `plotOneByOne`, examples/continuedFractionCollection.cpp:56-69. -/
def printEach (cs : List CF) (p : PlotP) : Out (List (ℝ × ℝ × ℝ)) := do
  let vs ← cs.mapM fun c => ofOption (plot c p [])
  return vs.flatten.map fun x => (x.1, x.2.im, x.2.re)

/-- The lines that examples/continuedFractionCollection.cpp:71-128 prints; `none` is the usage. -/
def plotCollection [DecidableEq W] (f : Fmt α) (g : Fmt W) (zeroA : α) (zero : W) (diag : List α → List α → List α × List α) (val : α → ℝ)
    (valW : W → ℂ) (file : Str) (p : PlotP) (oneByOne : Bool) : Out (Option (List (ℝ × ℝ × ℝ))) :=
  if refused p then .ok none
  else do
    let r ← readColl f g zeroA zero diag file (.ofText file) 0
    let l ← if oneByOne then printEach (r.2.1.map (toCF val valW)) p else printAll (r.2.1.map (toCF val valW)) p
    return some l

end

end Verif.Whole.Combine
