import Verif.StrUtil.Spec
import Mathlib.Data.Rat.Defs
import Mathlib.Algebra.Field.Rat

/-!
# Decimal numbers

What a number is and how it is written.  Nothing here depends on how text is read.
-/

namespace Verif.Cmplx

/-- A sign that may be written. -/
inductive Sign
  | none
  | plus
  | minus
  deriving DecidableEq

/-- How the sign is written. -/
def Sign.text : Sign → List Char
  | .none => []
  | .plus => ['+']
  | .minus => ['-']

/-- The sign applied to a number. -/
def Sign.apply : Sign → ℚ → ℚ
  | .minus, x => -x
  | _, x => x

/-- A decimal number as it is written: `sign whole [. frac] [e sign digits]`. -/
structure Numeral where
  sign : Sign
  whole : List Char
  frac : Option (List Char)
  expo : Option (Sign × List Char)

/-- The natural number that digits write. -/
def natOf (ds : List Char) : Nat := ds.foldl (fun n c => 10 * n + (c.toNat - '0'.toNat)) 0

/-- There are only digits where digits are meant, at least one in the mantissa, and one in the exponent. -/
structure Numeral.Ok (n : Numeral) : Prop where
  whole : StrUtil.DigitsOf n.whole
  frac : ∀ d, n.frac = some d → StrUtil.DigitsOf d
  some_digit : n.whole ≠ [] ∨ ∃ d, n.frac = some d ∧ d ≠ []
  expo : ∀ e, n.expo = some e → StrUtil.DigitsOf e.2 ∧ e.2 ≠ []

/-- How the fraction is written. -/
def fracText : Option (List Char) → List Char
  | none => []
  | some d => '.' :: d

/-- How the exponent is written. -/
def expoText : Option (Sign × List Char) → List Char
  | none => []
  | some (s, d) => 'e' :: (s.text ++ d)

/-- The text. -/
def Numeral.text (n : Numeral) : List Char := n.sign.text ++ n.whole ++ fracText n.frac ++ expoText n.expo

/-- The power of ten. -/
def expoValue : Option (Sign × List Char) → ℚ
  | none => 1
  | some (.minus, d) => 1 / 10 ^ natOf d
  | some (_, d) => 10 ^ natOf d

/-- The value of the fraction. -/
def fracValue : Option (List Char) → ℚ
  | none => 0
  | some d => (natOf d : ℚ) / 10 ^ d.length

/-- The value. -/
def Numeral.value (n : Numeral) : ℚ := n.sign.apply ((natOf n.whole + fracValue n.frac) * expoValue n.expo)

/-- `-12.50e+3` -/
def numeral1 : Numeral := ⟨.minus, ['1', '2'], some ['5', '0'], some (.plus, ['3'])⟩

end Verif.Cmplx
