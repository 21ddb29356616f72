import Verif.StrUtil.Model
import Verif.Util.Out

/-!
# Model of `ParametersForSolver`, `Options` and `LabelDisabled`

An input file is a function from labels to values for every type that `readline` may be asked for; `none` is an exception.
A `readline` that throws is assumed not to have changed its argument.
-/

namespace Verif.SolverP

open Verif.StrUtil

/-- `hare`, src/ParametersForSolver.h:168-177. -/
def hare {τ : Type} (rd : List Char → Option τ) (t : τ) (pre post : List Char) : τ :=
  match rd (pre ++ post ++ "=".toList) with
  | some v => v
  | none => t

/-- The loop over smaller indices, src/ParametersForSolver.h:192-201, from pass `i` on; `k` is the number of passes left. -/
def search {τ : Type} (rd : List Char → Option τ) (pre post : List Char) (ind : Nat) : Nat → Nat → Option τ
  | 0, _ => none
  | k + 1, i =>
    match rd (pre ++ Nat.toDigits 10 (ind - i - 1) ++ post ++ "=".toList) with
    | some v => some v
    | none => search rd pre post ind k (i + 1)

/-- `bunnie`, src/ParametersForSolver.h:179-204. -/
def bunnie {τ : Type} (rd : List Char → Option τ) (t : τ) (pre : List Char) (ind : Nat) (post : List Char) : τ :=
  match rd (pre ++ Nat.toDigits 10 ind ++ post ++ "=".toList) with
  | some v => v
  | none =>
    match search rd pre post ind ind 0 with
    | some v => v
    | none => hare rd t pre post

/-- `rabbitHole`, src/ParametersForSolver.h:156-165. -/
def rabbitHole {τ : Type} (rd : List Char → Option τ) (t : τ) (pre : List Char) (ind : Int) (post : List Char) : τ :=
  if ind ≥ 0 then bunnie rd t pre ind.toNat post else hare rd t pre post

/-- The members, src/ParametersForSolver.h:206-217. -/
structure Params (R : Type) where
  steps : Nat
  minSteps : Nat
  tolerance : R
  stepsForEnergyConvergence : Nat
  eigsForStop : Nat
  options : List Char
  oneOverA : R
  b : R
  eg : R
  weight : R
  isign : Int
  lotaMemory : Bool
  deriving DecidableEq

/-- An input file: `readline` for each type. -/
structure Input (R : Type) where
  nat : List Char → Option Nat
  real : List Char → Option R
  str : List Char → Option (List Char)
  int : List Char → Option Int

/-- The constructor from an input file, src/ParametersForSolver.h:117-153; `tiny` is 1e-12. -/
def construct {R : Type} [Zero R] (tiny : R) (io : Input R) (pre : List Char) (ind : Int) : Params R where
  steps := rabbitHole io.nat 200 pre ind "Steps".toList
  minSteps := rabbitHole io.nat 4 pre ind "MinSteps".toList
  tolerance := rabbitHole io.real tiny pre ind "Eps".toList
  stepsForEnergyConvergence := rabbitHole io.nat 1000000 pre ind "StepsForEnergyConvergence".toList
  eigsForStop := rabbitHole io.nat 1 pre ind "EigsForStop".toList
  options := rabbitHole io.str "none".toList pre ind "Options".toList
  oneOverA := rabbitHole io.real 0 pre ind "OneOverA".toList
  b := rabbitHole io.real 0 pre ind "B".toList
  eg := rabbitHole io.real 0 pre ind "Energy".toList
  weight := 0
  isign := 0
  lotaMemory := if rabbitHole io.int 0 pre ind "NoSaveLanczosVectors".toList > 0 then false else true

/-! ## Options -/

/-- The modes, src/Options.h:100-102. -/
inductive Mode | disabled | permissive | strict
  deriving DecidableEq

/-- The loop over the options, src/Options.h:116-131: the unknown ones are printed or make it throw; returns what is printed. -/
def check (registered : List (List Char)) (mode : Mode) : List (List Char) → Out (List (List Char))
  | [] => .ok []
  | o :: rest =>
    if o ∈ registered then check registered mode rest
    else match mode with
      | .strict => throwOut
      | .permissive => do
        let r ← check registered mode rest
        return o :: r
      | .disabled => check registered mode rest

/-- `Writeable::set`, src/Options.h:112-132: the options that are set, and those that a warning names. -/
def set (registered : List (List Char)) (mode : Mode) (optsThatAreSet : List (List Char)) (opts : List Char) :
    Out (List (List Char) × List (List Char)) :=
  if mode = .disabled then .ok (optsThatAreSet, [])
  else match split optsThatAreSet opts ",".toList with
    | none => ubOut
    | some toks => do
      let w ← check registered mode toks
      return (toks, w)

/-- `Readable::Readable`, src/Options.h:144-147: `optsThatAreSet_`. -/
def readable (registered : List (List Char)) (mode : Mode) (opts : List Char) : Out (List (List Char)) := do
  let r ← set registered mode [] opts
  return r.1

/-- `Readable::isSet`, src/Options.h:149-156. -/
def isSet (optsThatAreSet : List (List Char)) (o : List Char) : Bool := decide (o ∈ optsThatAreSet)

/-- `LabelDisabled::disable`, src/LabelDisabled.h:13. -/
def disable (data : List (List Char)) (label : List Char) : List (List Char) := data ++ [label]

/-- `LabelDisabled::operator()`, src/LabelDisabled.h:15-18. -/
def isDisabled (data : List (List Char)) (label : List Char) : Bool := decide (label ∈ data)

end Verif.SolverP
