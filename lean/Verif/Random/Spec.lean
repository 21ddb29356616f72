import Verif.Random.Model

/-!
# What the random number generators should produce
-/

namespace Verif.Random

/-- The modulus of the minimal standard generator, `2^31 - 1`. -/
def minstdModulus : Nat := 2147483647

/-- A word made of the top bit of `u` and the 31 lower bits of `l`. -/
def mixWord (u l : BitVec 32) : BitVec 32 := u.extractLsb' 31 1 ++ l.extractLsb' 0 31

/-- The twist of the Mersenne twister: multiplication by its matrix. -/
def twist (y : BitVec 32) : BitVec 32 := if y.getLsbD 0 then (y >>> 1) ^^^ 0x9908b0df#32 else y >>> 1

/-- `x` is a stream of the Mersenne twister: 624 words, then
`x (n + 624) = x (n + 397) ^ twist (upper bit of x n, lower bits of x (n + 1))`. -/
def Stream (x : Nat → BitVec 32) : Prop :=
  ∀ n, x (n + 624) = x (n + 397) ^^^ twist (mixWord (x n) (x (n + 1)))

/-- `x` starts with the words made from the seed `s`. -/
def Seeded (s : BitVec 32) (x : Nat → BitVec 32) : Prop :=
  x 0 = s ∧ ∀ i < 623, x (i + 1) = 1812433253#32 * ((x i ^^^ (x i >>> 30)) + BitVec.ofNat 32 (i + 1))

/-- The same in the published algorithm (M. Matsumoto and T. Nishimura, init_genrand). -/
def ReferenceSeeded (s : BitVec 32) (x : Nat → BitVec 32) : Prop :=
  x 0 = s ∧ ∀ i < 623, x (i + 1) = 1812433253#32 * (x i ^^^ (x i >>> 30)) + BitVec.ofNat 32 (i + 1)

end Verif.Random
