import Verif.Ainur.Model

/-!
# What Ainur variables and macros mean
-/

namespace Verif.Ainur

/-! ## Histories of declarations, assignments and reads -/

/-- A call. -/
inductive Op
  | declare (type key value : Str)
  | assign (key value : Str)
  | read (key : Str)

/-- What a call answers: nothing, a value, or an exception. -/
inductive Ans
  | done
  | value (v : Str)
  | refused
  deriving DecidableEq, Repr

/-- The value of a variable after the calls `h`, the newest first; `none` if it is not declared. -/
def valueOf : List Op → Str → Option Str
  | [], _ => none
  | .declare _ k' v :: h, k => if k' = k ∧ valueOf h k = none then some v else valueOf h k
  | .assign k' v :: h, k => if k' = k ∧ valueOf h k ≠ none then some v else valueOf h k
  | .read _ :: h, k => valueOf h k

/-- A value between double quotes is read without them. -/
def strip (v : Str) : Str :=
  if v.length > 1 ∧ v.head? = some '"' ∧ v.getLast? = some '"' then (v.drop 1).dropLast else v

/-- No value was given. -/
def NoValue (v : Str) : Prop := v = [] ∨ v = ['\x00']

instance (v : Str) : Decidable (NoValue v) := inferInstanceAs (Decidable (_ ∨ _))

/-- The answer to a call after the calls `h`, the newest first. -/
def answer (h : List Op) : Op → Ans
  | .declare _ k _ => if valueOf h k = none then .done else .refused
  | .assign k _ => if valueOf h k = none then .refused else .done
  | .read k =>
    match valueOf h k with
    | none => .refused
    | some v => if NoValue v then .refused else .value (strip v)

/-- The variable was read with success. -/
def wasRead : List Op → Str → Prop
  | [], _ => False
  | .read k' :: h, k => (k' = k ∧ answer h (.read k') ≠ .refused) ∨ wasRead h k
  | _ :: h, k => wasRead h k

instance decWasRead : (h : List Op) → (k : Str) → Decidable (wasRead h k)
  | [], _ => isFalse id
  | .read k' :: h, k =>
    have := decWasRead h k
    inferInstanceAs (Decidable ((k' = k ∧ answer h (.read k') ≠ .refused) ∨ wasRead h k))
  | .declare _ _ _ :: h, k => decWasRead h k
  | .assign _ _ :: h, k => decWasRead h k

/-- The type asks for a warning if the variable is never read: it ends with `!`. -/
def Marked (type : Str) : Prop := type.length > 1 ∧ type.getLast? = some '!'

instance (t : Str) : Decidable (Marked t) := inferInstanceAs (Decidable (_ ∧ _))

/-- The variables in the order of their declarations, with their types. -/
def order : List Op → List (Str × Str)
  | [] => []
  | .declare d k _ :: h => if valueOf h k = none then order h ++ [(k, d)] else order h
  | _ :: h => order h

/-- The variables to warn about. -/
def unusedOf (h : List Op) : List Str :=
  ((order h).filter fun e => decide (Marked e.2 ∧ ¬ wasRead h e.1)).map (·.1)

/-- The variables handed on, with their values. -/
def exportedOf (h : List Op) : List (Str × Str) :=
  ((order h).filter fun e => ! decide (Marked e.2 ∧ ¬ wasRead h e.1)).map fun e => (e.1, (valueOf h e.1).getD [])

/-- The calls of the model; a call that throws leaves the state as it was. -/
def Op.run (fs : Files) (s : State) : Op → Out (Ans × State)
  | .declare d k v =>
    match Ainur.declare s d k v with
    | .ok s => .ok (.done, s)
    | .error .thrown => .ok (.refused, s)
    | .error .ub => ubOut
  | .assign k v =>
    match Ainur.assign s k v with
    | .ok s => .ok (.done, s)
    | .error .thrown => .ok (.refused, s)
    | .error .ub => ubOut
  | .read k =>
    match readValue fs s k with
    | .ok (v, s) => .ok (.value v, s)
    | .error .thrown => .ok (.refused, s)
    | .error .ub => ubOut

/-- All calls, in order. -/
def runOps (fs : Files) : State → List Op → Out (List Ans × State)
  | s, [] => .ok ([], s)
  | s, op :: ops => do
    let (a, s) ← op.run fs s
    let (as, s) ← runOps fs s ops
    return (a :: as, s)

/-- The answers expected, after the calls `h`, the newest first. -/
def answers : List Op → List Op → List Ans
  | _, [] => []
  | h, op :: ops => answer h op :: answers (op :: h) ops

/-! ## Macros -/

/-- A piece of a value: a character, or the use of a macro and the character that ends its name. -/
inductive Piece
  | char (c : Char)
  | use (name : Str) (after : Char)
  deriving DecidableEq

/-- A value. -/
abbrev Template := List Piece

/-- The text of a value. -/
def Piece.text : Piece → Str
  | .char c => [c]
  | .use n c => '\\' :: (n ++ [c])

/-- The text of a value. -/
def Template.text (t : Template) : Str := t.flatMap Piece.text

/-- Characters are not backslashes, and the characters of names are letters, digits and underscores, which the
character after the name is not. -/
def Piece.Ok : Piece → Prop
  | .char c => c ≠ '\\'
  | .use n c => (∀ d ∈ n, isNameChar d = true) ∧ isNameChar c = false ∧ c ≠ '\\'

/-- `Full tbl t r`: replacing every use of a macro in `t` by the full expansion of its value in `tbl` gives `r`. -/
inductive Full (tbl : Str → Option Template) : Template → Str → Prop
  | nil : Full tbl [] []
  | char (c : Char) (t : Template) (r : Str) : Full tbl t r → Full tbl (.char c :: t) (c :: r)
  | use (n : Str) (c : Char) (t : Template) (v : Template) (rv r : Str) : tbl n = some v → Full tbl v rv →
      Full tbl t r → Full tbl (.use n c :: t) (rv ++ c :: r)

/-- The macros used in a value. -/
def Template.uses (t : Template) : List Str := t.filterMap fun p => match p with | .use n _ => some n | .char _ => none

/-! ## Vectors and matrices -/

/-- White space. -/
def white (c : Char) : Bool := decide (c ∈ [' ', '\t', '\n', '\x0b', '\x0c', '\r'])

/-- An entry: not empty, without white space, commas and brackets. -/
def IsCell (w : Str) : Prop := w ≠ [] ∧ ∀ c ∈ w, c ≠ ',' ∧ c ≠ '[' ∧ c ≠ ']' ∧ white c = false

/-- `[a, b, c]`, without spaces. -/
def vectorText (ws : List Str) : Str := '[' :: ([','].intercalate ws ++ [']'])

/-- `[[a, b], [c, d]]`, without spaces. -/
def matrixText (rs : List (List Str)) : Str := '[' :: ([','].intercalate (rs.map vectorText) ++ [']'])

/-- The text without its white space. -/
def squeeze (s : Str) : Str := s.filter fun c => !white c

end Verif.Ainur
