import Verif.Base64.Model
import Verif.Random.Model48
import Verif.Host.ModelRunId
import Verif.Lapack.Model

/-!
# Three whole programs: examples/base64test.cpp, examples/randomTest.cpp and examples/testLapack.cpp
-/

namespace Verif.Whole.Small

open Verif.Loop

/-! ## examples/base64test.cpp -/

/-- A character that is one byte. -/
def byteOf (c : Char) : UInt8 := UInt8.ofNat c.toNat

/-- `main`, examples/base64test.cpp:39-48, for the text `s`: the bytes printed.  A wrong index in the table of letters is undefined. -/
def base64 (s : List UInt8) : Out (List UInt8) :=
  match Base64.encode s with
  | none => ubOut
  | some encoded => .ok ("encoded: ".toList.map byteOf ++ encoded.map byteOf ++ [10] ++
      ("decoded: ".toList.map byteOf ++ Base64.decode encoded ++ [10]))

/-- The text of examples/base64test.cpp:41-42, in UTF-8. -/
def text : List UInt8 :=
  "ADP GmbH\nAnalyse Design & Programmierung\nGesellschaft mit beschr".toList.map byteOf ++ [195, 164] ++ "nkter Haftung".toList.map byteOf

/-! ## examples/randomTest.cpp -/

/-- Undefined behaviour. -/
def orUb {β : Type} : Option β → Out β
  | some x => .ok x
  | none => ubOut

/-- `main`, examples/randomTest.cpp:9-15: `args` are the arguments after the name of the program, `x0` is the state of the C library to
begin with, `pr` how a number is printed.  Without an argument `atoi` gets a null pointer. -/
def random (rnd : ℚ → ℚ) (pr : ℚ → List Char) (x0 : Nat) (args : List (List Char)) : Out (List Char) := do
  let p ← orUb (Random.call48 rnd ⟨[], x0⟩ (.new 100 0 1))
  let arg ← orUb args[0]?
  let s ← orUb (Host.atoi arg)
  let p ← orUb (Random.call48 rnd p.2 (.set 0 s))
  let p ← orUb (Random.call48 rnd p.2 (.draw 0))
  let x ← orUb p.1
  return "x=".toList ++ pr x ++ ['\n']

/-! ## examples/testLapack.cpp -/

noncomputable section

/-- The first loop, examples/testLapack.cpp:11-13; `x0` is the state of the C library to begin with. -/
def fill (n x0 : Nat) : List ℝ := (Random.drands (n * n) x0).1.map fun (d : ℚ) => 5 * (d : ℝ)

/-- The second loop, examples/testLapack.cpp:14-17. -/
def symmetrize {α : Type} (n : Nat) (m : List α) : Option (List α) :=
  loopN n (fun i m => loopFrom (i + 1) n (fun j m => do
    let x ← m[j + i * n]?
    setAt m (i + j * n) x) m) m

/-- `main`, examples/testLapack.cpp:7-42, where `n` is 100: the exit code, and `m` and `eigs` at the end. -/
def lapack (f : Lapack.Heev ℝ) (n x0 : Nat) : Out (Nat × List ℝ × List ℝ) := do
  let m ← orUb (symmetrize n (fill n x0))
  let eigs := List.replicate n (0 : ℝ)
  let q ← Lapack.heevCall f true 'V' 'U' n m n eigs (-1) 3 0
  if q.info ≠ 0 then return (1, q.a, q.w)
  else do
    let lwork := Lapack.toInt q.work0 + 1
    let r ← Lapack.heevCall f true 'V' 'U' n q.a n q.w lwork (lwork + 1).toNat 0
    if r.info ≠ 0 then return (1, r.a, r.w)
    else return (0, r.a, r.w)

end

end Verif.Whole.Small
