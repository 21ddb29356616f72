import Verif.Canonical.Model
import Mathlib.Algebra.BigOperators.Group.List.Basic
import Mathlib.Algebra.Algebra.Defs

/-!
# Operator expressions: sums of products of numbers and operators
-/

namespace Verif.Canonical

/-- A factor: a real number, an imaginary number, an arithmetic expression in parentheses, an operator. -/
inductive Factor
  | real (s : List Char)
  | imag (s : List Char)
  | paren (s : List Char)
  | op (s : List Char)

def Factor.text : Factor → List Char
  | real s => s
  | imag s => s
  | paren s => '(' :: s ++ [')']
  | op s => s

/-- Factors are joined by `*`, terms by `+`. -/
def termText (t : List Factor) : List Char := ['*'].intercalate (t.map Factor.text)
def exprText (e : List (List Factor)) : List Char := ['+'].intercalate (e.map termText)

/-- What a factor may be made of. -/
def Factor.Ok : Factor → Prop
  | real s => s ≠ [] ∧ ∀ c ∈ s, c ∈ "0123456789.-".toList
  | imag s => s = ['i'] ∨ ∃ r, r ≠ [] ∧ s = r ++ ['i'] ∧ ∀ c ∈ r, c ∈ "0123456789.-".toList
  | paren s => ∀ c ∈ s, c ≠ '(' ∧ c ≠ ')'
  | op s => (∀ c ∈ s, c ∉ "+*()@-".toList) ∧ s ≠ ['i'] ∧ ∃ c w, s = c :: w ∧ c ∉ "0123456789.".toList

/-- A minus sign comes first, or after `(` or `+`. -/
def DashOk : Option Char → List Char → Prop
  | _, [] => True
  | prev, c :: cs => (c = '-' → prev = none ∨ prev = some '(' ∨ prev = some '+') ∧ DashOk (some c) cs

/-- The number a factor contributes: its value, or one for an operator. -/
inductive ScalarOf {F A : Type} [One F] (sp : Spec F A) (arith : List Char → Out F) : Factor → F → Prop
  | real (s : List Char) (f : F) : sp.readReal s = .ok f → ScalarOf sp arith (.real s) f
  | imag (s : List Char) (f : F) : sp.readImag s = .ok f → ScalarOf sp arith (.imag s) f
  | paren (s : List Char) (f : F) : arith s = .ok f → ScalarOf sp arith (.paren s) f
  | op (s : List Char) : ScalarOf sp arith (.op s) 1

/-- The operators of a term, in order. -/
def opsOf : List Factor → List (List Char)
  | [] => []
  | .op s :: t => s :: opsOf t
  | _ :: t => opsOf t

/-- The value of a term: the product of its numbers times the product of its operators, in order. -/
def TermValue {F A : Type} [CommSemiring F] [Semiring A] [Algebra F A] (sp : Spec F A) (arith : List Char → Out F)
    (t : List Factor) (a : A) : Prop :=
  ∃ (fs : List F) (as : List A), List.Forall₂ (ScalarOf sp arith) t fs ∧
    List.Forall₂ (fun s x => sp.item s = .ok x) (opsOf t) as ∧ a = fs.prod • as.prod

end Verif.Canonical
