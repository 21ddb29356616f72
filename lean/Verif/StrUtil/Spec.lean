import Mathlib.Data.List.Infix

/-! # Specification of text replacement -/

namespace Verif.StrUtil

/-- `Replaced pat new s t`: `t` is `s` with the leftmost occurrence of `pat` replaced by `new`,
then the leftmost in what follows it, and so on. -/
inductive Replaced (pat new : List Char) : List Char → List Char → Prop
  | done (s : List Char) : ¬ pat <:+: s → Replaced pat new s s
  | step (a rest rest' : List Char) :
      (∀ b c, a ++ pat ++ rest = b ++ pat ++ c → a.length ≤ b.length) →
      Replaced pat new rest rest' → Replaced pat new (a ++ pat ++ rest) (a ++ new ++ rest')

/-- `DigitsOf s`: every character of `s` is a decimal digit. -/
def DigitsOf (s : List Char) : Prop := ∀ c ∈ s, c ∈ ['0', '1', '2', '3', '4', '5', '6', '7', '8', '9']

/-- How an integer is written in decimal. -/
def decimal (v : Int) : List Char :=
  if v < 0 then '-' :: Nat.toDigits 10 v.natAbs else Nat.toDigits 10 v.natAbs

end Verif.StrUtil
