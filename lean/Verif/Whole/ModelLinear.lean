import Verif.IoSimple.Model
import Verif.Extrap.ModelFit

/-!
# A whole program: examples/linearPrediction.cpp

`getopt` is not modelled: the program has its options as arguments, and `p` and `q` are those of options that `atoi` reads as numbers
that are not negative.  `val` is the value of a number of the file and `pr` how a number is printed; arithmetic has no rounding.
-/

namespace Verif.Whole.Linear

open Verif.IoSimple Verif.Extrap Verif.Lapack Verif.Loop

noncomputable section

/-- Undefined behaviour. -/
def orUb {β : Type} : Option β → Out β
  | some x => .ok x
  | none => ubOut

/-- The loop of examples/linearPrediction.cpp:76-79: `own` are the numbers of the object, `y` those of the file. -/
def rounds (g : Getr ℝ) (v : Gemv) (y : List ℝ) (q : Nat) : Nat → List ℝ → Out (List ℝ)
  | 0, own => .ok own
  | k + 1, own => do
    let d ← refit g v own y q
    let own ← orUb (predict d own q)
    rounds g v y q k own

/-- The numbers that examples/linearPrediction.cpp:73-83 prints. -/
def numbers (g : Getr ℝ) (v : Gemv) (y : List ℝ) (p q : Nat) : Out (List ℝ) := do
  let d ← fit g v y q
  let own ← orUb (predict d y q)
  let own ← rounds g v y q p own
  orUb ((List.range (p + y.length)).mapM fun i => own[i]?)

/-- The options are refused, examples/linearPrediction.cpp:63-66. -/
def refused (file label : Str) (p q : Nat) : Prop := file = [] ∨ label = [] ∨ p = 0 ∨ q < 2

open Classical in
/-- examples/linearPrediction.cpp:62-84: what is printed; `none` is the usage.  `disk` has the texts of the files that can be opened. -/
def program {N : Type} (rd : Stream → Stream × N) (val : N → ℝ) (pr : ℝ → Str) (g : Getr ℝ) (v : Gemv) (disk : Str → Option Str)
    (file label : Str) (p q : Nat) : Out (Option Str) :=
  if refused file label p q then .ok none
  else
    match disk file with
    | none => throwOut
    | some text => do
      let r ← readVector rd text (.ofText text) [] label 0
      let l ← numbers g v (r.2.map val) p q
      return some ("#Found ".toList ++ Nat.toDigits 10 r.2.length ++ " points in file ".toList ++ file ++ ['\n'] ++
        l.flatMap fun x => pr x ++ ['\n'])

end

end Verif.Whole.Linear
