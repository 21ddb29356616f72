import Verif.Ast.Spec
import Mathlib.Order.Defs.LinearOrder

/-!
# The predicate language: syntax, how it is written, and what it means
-/

namespace Verif.Predicate

open Verif.Ast

/-- The comparisons. -/
inductive Rel | eq | ne | le | ge | gt | lt | div
  deriving DecidableEq

/-- How a comparison is written. -/
def Rel.text : Rel → List Char
  | eq => "==".toList | ne => "!=".toList | le => "<=".toList | ge => ">=".toList
  | gt => ">".toList | lt => "<".toList | div => "%%".toList

/-- What a comparison means; `%%` is divisibility. -/
def Rel.holds {V : Type} [LinearOrder V] (toSize : V → Nat) : Rel → V → V → Prop
  | eq, a, b => a = b | ne, a, b => a ≠ b | le, a, b => a ≤ b | ge, a, b => b ≤ a
  | gt, a, b => b < a | lt, a, b => a < b | div, a, b => toSize b ∣ toSize a

/-- A comparison of two expressions. -/
structure Comparison where
  l : Expr
  r : Rel
  h : Expr

/-- An expression is written level by level with `:` between the symbols. -/
def exprText (e : Expr) : List Char := [':'].intercalate ((Expr.levels e.size [e]).map String.toList)

def Comparison.text (c : Comparison) : List Char := exprText c.l ++ c.r.text ++ exprText c.h

/-- Conjunction: comparisons joined by `&`. -/
def conjText (a : List Comparison) : List Char := ['&'].intercalate (a.map Comparison.text)

/-- An item of the list: a special option `@...` or a conjunction. -/
inductive Item
  | option (s : List Char)
  | conj (a : List Comparison)

def Item.text : Item → List Char
  | option s => '@' :: s
  | conj a => conjText a

/-- The list: items joined by `,`. -/
def listText (p : List Item) : List Char := [','].intercalate (p.map Item.text)

/-- The number a symbol stands for: the value of a variable, or a number read by `parse`. -/
def lookup {V : Type} (parse : String → Option V) : List (List Char × V) → String → Option V
  | [], s => parse s
  | (n, v) :: vars, s => if s.toList = n then some v else lookup parse vars s

/-- The value of an expression when the variables have the given values. -/
def Means {V : Type} (o : Ops V) (vars : List (List Char × V)) (e : Expr) (v : V) : Prop :=
  Expr.Value { o with parse := lookup o.parse vars } e v

/-- The comparison is true of the values of its two sides. -/
def Comparison.Holds {V : Type} [LinearOrder V] (o : Ops V) (toSize : V → Nat) (vars : List (List Char × V))
    (c : Comparison) : Prop :=
  ∃ a b, Means o vars c.l a ∧ Means o vars c.h b ∧ c.r.holds toSize a b

/-- The predicate is true: some conjunction has all its comparisons true. -/
def ListHolds {V : Type} [LinearOrder V] (o : Ops V) (toSize : V → Nat) (vars : List (List Char × V))
    (p : List Item) : Prop :=
  ∃ a, Item.conj a ∈ p ∧ ∀ c ∈ a, c.Holds o toSize vars

/-- Symbols of an expression. -/
def symbols (e : Expr) : List String := Expr.levels e.size [e]

/-- Symbols that can be written in a predicate: not empty, none of the characters `,&:=<>!`, and `%` only
alone. -/
def SymbolOk (s : String) : Prop :=
  s.toList ≠ [] ∧ (∀ c ∈ s.toList, c ∉ ",&:=<>!".toList) ∧ ('%' ∈ s.toList → s = "%")

/-- The names of the variables do not interfere with the symbols: a symbol that contains a name is that name,
and is no operator. -/
def NamesOk (names : List (List Char)) (s : String) : Prop :=
  ∀ n ∈ names, n <:+: s.toList → s.toList = n ∧ operands s = 0

/-- A comparison the language can express, whose sides have values, the right one not zero for `%%`. -/
structure Comparison.Ok {V : Type} (o : Ops V) (toSize : V → Nat) (vars : List (List Char × V))
    (c : Comparison) : Prop where
  wfl : c.l.WF
  wfh : c.h.WF
  syml : ∀ s ∈ symbols c.l, SymbolOk s ∧ NamesOk (vars.map Prod.fst) s
  symh : ∀ s ∈ symbols c.h, SymbolOk s ∧ NamesOk (vars.map Prod.fst) s
  vall : ∃ a, Means o vars c.l a
  valh : ∃ b, Means o vars c.h b ∧ (c.r = Rel.div → toSize b ≠ 0)

/-- An item of the language: an option without a comma, or at least one comparison and no leading `@`. -/
def Item.Ok {V : Type} (o : Ops V) (toSize : V → Nat) (vars : List (List Char × V)) : Item → Prop
  | option s => ',' ∉ s
  | conj a => a ≠ [] ∧ (conjText a).head? ≠ some '@' ∧ ∀ c ∈ a, c.Ok o toSize vars

/-- The options of the list, as written. -/
def optionsOf : List Item → List (List Char)
  | [] => []
  | .option s :: p => ('@' :: s) :: optionsOf p
  | .conj _ :: p => optionsOf p

/-- The values can be printed and read back, and neither they nor the names confuse the substitution. -/
structure VarsOk {V : Type} (o : Ops V) (ttos : V → List Char) (vars : List (List Char × V)) : Prop where
  name : ∀ p ∈ vars, p.1 ≠ [] ∧ ':' ∉ p.1
  val : ∀ p ∈ vars, ttos p.2 ≠ [] ∧ ':' ∉ ttos p.2 ∧ operands (String.ofList (ttos p.2)) = 0 ∧
    o.parse (String.ofList (ttos p.2)) = some p.2
  apart : ∀ p ∈ vars, ∀ q ∈ vars, ¬ p.1 <:+: ttos q.2

end Verif.Predicate
