import Mathlib.Data.Rat.Floor
import Mathlib.Analysis.SpecialFunctions.Sqrt

/-!
# `Random48` (src/Random48.h) and `fillRandom` (src/PsimagLite.h)

`srand48` and `drand48` are the functions of the C library, whose algorithm is part of their specification (POSIX): a
state of 48 bits, shared by the whole program.
-/

namespace Verif.Random

/-- The step of the generator of POSIX: `X' = (0x5DEECE66D X + 0xB) mod 2^48`. -/
def lcg (x : Nat) : Nat := (25214903917 * x + 11) % 281474976710656

/-- `srand48(seed)`: the upper 32 bits of the state are those of the seed, the lower 16 are `0x330E`. -/
def srand48 (seed : Int) : Nat := (seed % 4294967296).toNat * 65536 + 13070

/-- `drand48()`: the number and the new state. -/
def drand48 (x : Nat) : ℚ × Nat := ((lcg x : ℚ) / 281474976710656, lcg x)

/-- The first `n` numbers from state `x`, and the state after them. -/
def drands : Nat → Nat → List ℚ × Nat
  | 0, x => ([], x)
  | n + 1, x => let r := drand48 x; let t := drands n r.2; (r.1 :: t.1, t.2)

/-- The constructor, src/Random48.h:34-42: `seed_` and the state of the C library; `none` is the access
`vOfSeeds[rank]` out of range.  `rnd` is the rounding of the product `10000.0 * drand48()`; the conversion to an
integer truncates. -/
def make48 (rnd : ℚ → ℚ) (seed : Int) (rank nprocs : Nat) : Option (Int × Nat) := do
  let vOfSeeds := (drands nprocs (srand48 seed)).1.map fun r => ⌊rnd (10000 * r)⌋
  let s ← vOfSeeds[rank]?
  return (s, srand48 s)

/-- The whole program: each object is the `seed_` it keeps, `state` belongs to the C library. -/
structure Prog48 where
  seeds : List Int
  state : Nat

/-- Calls of a program. -/
inductive Call48
  /-- a new object -/
  | new (seed : Int) (rank nprocs : Nat)
  /-- `operator()` or `random()` of object `i`, src/Random48.h:44-49 -/
  | draw (i : Nat)
  /-- `seed(s)` of object `i`, src/Random48.h:53 -/
  | set (i : Nat) (s : Int)

/-- One call: the number it gives, if any; `none` is undefined behaviour. -/
def call48 (rnd : ℚ → ℚ) (p : Prog48) : Call48 → Option (Option ℚ × Prog48)
  | .new seed rank nprocs => (make48 rnd seed rank nprocs).map fun r => (none, ⟨p.seeds ++ [r.1], r.2⟩)
  | .draw i => if i < p.seeds.length then some (some (drand48 p.state).1, { p with state := (drand48 p.state).2 }) else none
  | .set i s => if i < p.seeds.length then some (none, { p with seeds := p.seeds.set i s }) else none

/-- `fillRandom(v)`, src/PsimagLite.h:40-59, for a vector of `n` real numbers, where `now` is `time(0)`; `none` is the
exception for an empty vector, or an access out of range.  (With complex numbers the imaginary parts are zero.) -/
noncomputable def fillRandom (rnd : ℚ → ℚ) (now : Int) (n : Nat) : Option (List ℝ) :=
  if n = 0 then none
  else (make48 rnd now 0 1).map fun g =>
    let v := (drands n g.2).1.map fun (r : ℚ) => ((r : ℝ) - 0.5)
    let sum := (v.map fun x => x * x).sum
    v.map fun x => x * (1.0 / Real.sqrt sum)

end Verif.Random
