import Verif.Util.Str
import Verif.BitManip.Model
import Verif.Random.Model

/-! # Model of the identifiers of runs, src/ApplicationInfo.h and examples/checkRunId.cpp -/

namespace Verif.Host

open Verif.Str Verif.Random Verif.BitManip

/-- Strings. -/
abbrev Str := List Char

/-- `isspace` in the C locale. -/
def isSpace (c : Char) : Bool := c = ' ' || ('\t' ≤ c && c ≤ '\r')

/-- The number that `atol` and `atoi` of the C library convert: white space, a sign and digits; what follows is not looked at. -/
def leading (s : Str) : Int :=
  let digits (t : Str) : Nat := Nat.ofDigitChars 10 (t.takeWhile isDigit) 0
  match s.dropWhile isSpace with
  | '-' :: t => - (digits t : Int)
  | '+' :: t => digits t
  | t => digits t

/-- `atol` for a `long` of 64 bits; a value that does not fit is undefined behaviour (`none`). -/
def atol (s : Str) : Option Int :=
  if -9223372036854775808 ≤ leading s ∧ leading s ≤ 9223372036854775807 then some (leading s) else none

/-- `atoi` of the C library. -/
def atoi (s : Str) : Option Int :=
  if -2147483648 ≤ leading s ∧ leading s ≤ 2147483647 then some (leading s) else none

/-- `runIdInternal`, src/ApplicationInfo.h:209-230.  The process number and the microseconds of the clock are arguments, and so is the
array of the generator before it is filled.  Sums and exclusive ors of `long` and `unsigned int` are taken modulo 2^32 since they are
converted to `unsigned int`. -/
def runIdInternal (old : List (BitVec 32)) (p : BitVec 32) (tt : BitVec 64) : Option Str := do
  let mt ← ctor old (tt.truncate 32 + p)
  let (r, mt) ← random mt
  let x := tt.truncate 32 ^^^ r
  let msg := Nat.toDigits 10 x.toNat
  let (r, mt) ← random mt
  let x := p ^^^ r
  let msg := msg ++ Nat.toDigits 10 x.toNat
  let y ← atol msg
  let (r, _) ← random mt
  let y : BitVec 64 := BitVec.ofInt 64 y ^^^ r.zeroExtend 64
  let x := countKernighan y
  let msg2 := Nat.toDigits 10 y.toNat
  let msg2 := if x < 10 then msg2 ++ ['0'] else msg2
  some (msg2 ++ Nat.toDigits 10 x)

/-- `checkRunId`, examples/checkRunId.cpp:11-33, without what it prints. -/
def checkRunId (str : Str) : Option Bool :=
  if str.length < 3 then some false
  else do
    let c1 ← str[str.length - 2]?
    let c2 ← str[str.length - 1]?
    let number := str.take (str.length - 2)
    let x ← atol number
    let bits := countKernighan (BitVec.ofInt 64 x)
    let check ← atoi [c1, c2]
    some (decide ((bits : Int) = check))

/-- One round of the loop of `convertToLuint`, src/ApplicationInfo.h:239-243: `sum` and `prod` are 64 bits wide, the character minus
48 is converted to `unsigned int`. -/
def luintStep (s : Nat × Nat) (c : Char) : Nat × Nat :=
  let d := (((c.toNat : Int) - 48) % 4294967296).toNat
  ((s.1 + s.2 * d) % 2 ^ 64, s.2 * 10 % 2 ^ 64)

/-- `convertToLuint`, src/ApplicationInfo.h:232-246; the assertion that there are fewer than 20 characters is `none`. -/
def convertToLuint (str : Str) : Option Nat :=
  if str.length < 20 then some (str.reverse.foldl luintStep (0, 1)).1 else none

end Verif.Host
