import Verif.Util.Loop

/-!
# Model of the random number generators, src/RandomForTests.h and src/MersenneTwister.cpp
-/

namespace Verif.Random

open Verif.Loop

/-! ## RandomForTests -/

/-- The value of an `int` expression: undefined behaviour (`none`) when it does not fit in 32 bits. -/
def int32 (x : Int) : Option Int := if -2147483648 ≤ x ∧ x ≤ 2147483647 then some x else none

/-- `next_` after one call of `RandomForTests::operator()`, src/RandomForTests.h:49-57.  Division and remainder of
`int` truncate towards zero. -/
def next (s : Int) : Option Int := do
  let a ← int32 (16807 * s.tmod 127773)
  let b ← int32 (2836 * s.tdiv 127773)
  let n ← int32 (a - b)
  let n ← (if n ≤ 0 then int32 (n + 2147483647) else some n)
  if n ≥ 2147483647 then some 1 else some n

/-- `next_` after `k` calls on a generator built with seed `s`, src/RandomForTests.h:44-47. -/
def state (s : Int) : Nat → Option Int
  | 0 => some s
  | k + 1 => (state s k).bind next

/-! ## MersenneTwister -/

/-- The members of `MersenneTwister`, src/MersenneTwister.h:25-26. -/
structure MT where
  index : Nat
  state : List (BitVec 32)

/-- One round of the loop of `seed`, src/MersenneTwister.cpp:27-30; `none` is an access out of bounds. -/
def seedStep (i : Nat) (st : List (BitVec 32)) : Option (List (BitVec 32)) := do
  let p ← st[i - 1]?
  let tmp := p ^^^ (p >>> 30)
  setAt st i (4294967295#32 &&& (1812433253#32 * (tmp + BitVec.ofNat 32 i)))

/-- `MersenneTwister::seed`, src/MersenneTwister.cpp:23-31; the old contents of `state_` are an argument since the
array is not initialised by the constructors. -/
def seed (old : List (BitVec 32)) (s : BitVec 32) : Option MT := do
  let st ← setAt old 0 s
  let st ← loopFrom 1 624 seedStep st
  return ⟨0, st⟩

/-- One round of the loop of `generate`, src/MersenneTwister.cpp:35-40. -/
def genStep (i : Nat) (st : List (BitVec 32)) : Option (List (BitVec 32)) := do
  let a ← st[i]?
  let b ← st[(i + 1) % 624]?
  let y := (a &&& 0x80000000#32) + (b &&& 0x7fffffff#32)
  let c ← st[(i + 397) % 624]?
  let st ← setAt st i (c ^^^ (y >>> 1))
  if y % 2#32 ≠ 0#32 then do
    let v ← st[i]?
    setAt st i (v ^^^ 2567483615#32)
  else return st

/-- `MersenneTwister::generate`, src/MersenneTwister.cpp:33-41. -/
def generate (st : List (BitVec 32)) : Option (List (BitVec 32)) := loopN 624 genStep st

/-- The scrambling of an output word, src/MersenneTwister.cpp:48-52; `07` is octal for 7. -/
def temper (y : BitVec 32) : BitVec 32 :=
  let y := y ^^^ (y >>> 11)
  let y := y ^^^ ((y <<< 7) &&& 2636928640#32)
  let y := y ^^^ ((y <<< 15) &&& 4022730752#32)
  y ^^^ (y >>> 18)

/-- `MersenneTwister::random`, src/MersenneTwister.cpp:43-57. -/
def random (g : MT) : Option (BitVec 32 × MT) := do
  let st ← (if g.index = 0 then generate g.state else some g.state)
  let y ← st[g.index]?
  return (temper y, ⟨(g.index + 1) % 624, st⟩)

/-- Results of `k` calls of `random`. -/
def outputs : Nat → MT → Option (List (BitVec 32) × MT)
  | 0, g => some ([], g)
  | k + 1, g => do
    let (y, g) ← random g
    let (ys, g) ← outputs k g
    return (y :: ys, g)

/-- `MersenneTwister::MersenneTwister(unsigned)`, src/MersenneTwister.cpp:5-9. -/
def ctor (old : List (BitVec 32)) (s : BitVec 32) : Option MT := seed old s

/-- The loop `for (int i = 1; i < rank; ++i) news = random()`, src/MersenneTwister.cpp:16-18: `m` rounds. -/
def skip : Nat → BitVec 32 → MT → Option (BitVec 32 × MT)
  | 0, news, g => some (news, g)
  | m + 1, _, g => do
    let (y, g) ← random g
    skip m y g

/-- `MersenneTwister::MersenneTwister(unsigned, int rank, int)`, src/MersenneTwister.cpp:11-21.  Converting to `int`
and back does not change the word. -/
def ctorRank (old : List (BitVec 32)) (s : BitVec 32) (rank : Int) : Option MT := do
  let g ← seed old s
  let (news, g) ← random g
  let (news, g) ← skip (rank - 1).toNat news g
  seed g.state news

end Verif.Random
