import Verif.Ast.Model
import Verif.StrUtil.Model
import Mathlib.Order.Defs.LinearOrder

/-!
# Model of the predicate language, src/PredicateSimple.h, src/PredicateAnd.h, src/PredicateAwesome.h

A thrown exception, a failed assertion, undefined behaviour and a loop that exceeds its budget are all `none`.
The value type and the printing of a value (`ttos`) are parameters, as the code is a template.
-/

namespace Verif.Predicate

open Verif.Str Verif.StrUtil

/-- `PredicateSimple::ops_`, src/PredicateSimple.cpp:4-12. -/
def ops : List (List Char) :=
  ["==".toList, "!=".toList, "<=".toList, ">=".toList, ">".toList, "<".toList, "%%".toList]

/-- `operatorLength`, src/PredicateSimple.h:105-113. -/
def operatorLength (op : List Char) : Nat := if op ∈ ops then op.length else 0

/-- The fields `lhs_`, `op_`, `rhs_`, src/PredicateSimple.h:166-168. -/
structure Simple where
  lhs : List Char
  op : List Char
  rhs : List Char

/-- The search for the operator, src/PredicateSimple.h:35-50: `i` runs over `steps` positions.  The result is
`location` and `length`. -/
def findOp (pred : List Char) : Nat → Nat → Option (Nat × Nat)
  | 0, _ => none
  | steps + 1, i =>
    if operatorLength ((pred.drop i).take 2) = 2 then some (i, 2)
    else if operatorLength ((pred.drop i).take 1) = 1 then some (i, 1)
    else findOp pred steps (i + 1)

/-- `PredicateSimple::PredicateSimple`, src/PredicateSimple.h:23-61. -/
def Simple.ctor (pred : List Char) : Option Simple :=
  if pred.length < 3 then none
  else do
    let (location, length) ← findOp pred (pred.length - 1) 0
    let lhs ← substr pred 0 location
    let op ← substr pred location length
    let rhs ← substr pred (location + length) (pred.length - location - length)
    if lhs = [] ∨ rhs = [] then none else some ⟨lhs, op, rhs⟩

/-- `compareOnOp` and `divisibleBy`, src/PredicateSimple.h:74-103; `toSize` is the conversion to `SizeType`. -/
def compareOnOp {V : Type} [LinearOrder V] (toSize : V → Nat) (lv : V) (op : List Char) (rv : V) : Option Bool :=
  if op = "==".toList then some (decide (lv = rv))
  else if op = "!=".toList then some (decide (lv ≠ rv))
  else if op = "<".toList then some (decide (lv < rv))
  else if op = ">".toList then some (decide (lv > rv))
  else if op = "<=".toList then some (decide (lv ≤ rv))
  else if op = ">=".toList then some (decide (lv ≥ rv))
  else if op = "%%".toList then
    if toSize rv = 0 then none else some (decide (toSize lv % toSize rv = 0))
  else none

/-- The loop of `replaceVariable`, src/PredicateSimple.h:145-161, with a budget. -/
def replaceVariable (name val : List Char) : Nat → List Char → Option (List Char)
  | 0, _ => none
  | fuel + 1, hs =>
    match find hs name 0 with
    | none => some hs
    | some index => do
      let part1 ← (if index = 0 then some [] else substr hs 0 index)
      let part2 ← substr hs (index + name.length) (hs.length - name.length - index)
      replaceVariable name val fuel (part1 ++ val ++ part2)

/-- `replaceVariables`, src/PredicateSimple.h:132-142; `vars` is `names` zipped with `vals`. -/
def replaceVariables {V : Type} (ttos : V → List Char) (fuel : Nat) : List (List Char × V) → List Char →
    Option (List Char)
  | [], hs => some hs
  | (n, v) :: vars, hs => do
    let hs ← replaceVariable n (ttos v) fuel hs
    replaceVariables ttos fuel vars hs

/-- `getValue`, src/PredicateSimple.h:115-129, with the separator `:`. -/
def getValue {V : Type} (o : Ast.Ops V) (ttos : V → List Char) (fuel : Nat) (hs : List Char)
    (vars : List (List Char × V)) : Option V := do
  let numericHs ← replaceVariables ttos fuel vars hs
  let tokens ← split [] numericHs [':']
  Ast.run o (tokens.map String.ofList)

/-- `PredicateSimple::isTrue`, src/PredicateSimple.h:63-70. -/
def Simple.isTrue {V : Type} [LinearOrder V] (o : Ast.Ops V) (ttos : V → List Char) (toSize : V → Nat)
    (fuel : Nat) (p : Simple) (vars : List (List Char × V)) : Option Bool := do
  let lv ← getValue o ttos fuel p.lhs vars
  let rv ← getValue o ttos fuel p.rhs vars
  compareOnOp toSize lv p.op rv

/-- `PredicateAnd::PredicateAnd`, src/PredicateAnd.h:23-31. -/
def andCtor (pred sep : List Char) : Option (List Simple) := do
  let tokens ← split [] pred sep
  tokens.mapM Simple.ctor

/-- The loop of `PredicateAnd::isTrue`, src/PredicateAnd.h:38-42 (and 50-53, 62-65, 74-77). -/
def andTrue {V : Type} [LinearOrder V] (o : Ast.Ops V) (ttos : V → List Char) (toSize : V → Nat)
    (fuel : Nat) (vars : List (List Char × V)) : List Simple → Option Bool
  | [] => some true
  | p :: ps => do
    let b ← p.isTrue o ttos toSize fuel vars
    if !b then some false else andTrue o ttos toSize fuel vars ps

/-- The loop of `PredicateAwesome::PredicateAwesome`, src/PredicateAwesome.h:74-88: the terms of the
predicate, and the options handed to `spec`, in order. -/
def awesomeItems (hasSpec : Bool) (andSep : List Char) : List (List Char) →
    Option (List (List Simple) × List (List Char))
  | [] => some ([], [])
  | t :: ts =>
    if t.head? = some '@' then
      if hasSpec then do
        let r ← awesomeItems hasSpec andSep ts
        some (r.1, t :: r.2)
      else none
    else do
      let a ← andCtor t andSep
      let r ← awesomeItems hasSpec andSep ts
      some (a :: r.1, r.2)

/-- `PredicateAwesome::PredicateAwesome`, src/PredicateAwesome.h:66-88. -/
def awesomeCtor (hasSpec : Bool) (pred orSep andSep : List Char) :
    Option (List (List Simple) × List (List Char)) :=
  if pred = [] then some ([], [])
  else do
    let tokens ← split [] pred orSep
    awesomeItems hasSpec andSep tokens

/-- The loop of `PredicateAwesome::isTrue`, src/PredicateAwesome.h:96-100 (and 108-112, 120-124, 132-136); an
empty predicate has no terms, so the test of line 94 changes nothing. -/
def awesomeTrue {V : Type} [LinearOrder V] (o : Ast.Ops V) (ttos : V → List Char) (toSize : V → Nat)
    (fuel : Nat) (vars : List (List Char × V)) : List (List Simple) → Option Bool
  | [] => some false
  | a :: as => do
    let b ← andTrue o ttos toSize fuel vars a
    if b then some true else awesomeTrue o ttos toSize fuel vars as

end Verif.Predicate
