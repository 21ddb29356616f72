import Verif.Perms.Model
import Mathlib.Data.List.Lex

/-! # Specification: the states a program visits with `do { … } while (p.increase())` -/

namespace Verif.Perms

/-- `Run a l`: starting from data `a` and calling `increase` until it returns false, the data
seen are `l`, in this order. -/
inductive Run : List Nat → List (List Nat) → Prop
  | last {a a' : List Nat} : increase a = some (false, a') → Run a [a]
  | step {a a' : List Nat} {l : List (List Nat)} : increase a = some (true, a') → Run a' l → Run a (a :: l)

end Verif.Perms
