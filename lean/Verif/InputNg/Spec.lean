import Verif.InputNg.Model

/-!
# What an input file means

A file is a list of lines.  Nothing here depends on how the file is parsed or stored.
-/

namespace Verif.InputNg

open Verif.StrUtil

/-- A line of an input file. -/
inductive Line
  /-- `label=value` -/
  | text (label value : Str)
  /-- `label n x1 x2 …` -/
  | vec (label : Str) (numbers : List Str)
  /-- an empty line -/
  | blank
  /-- `#text` -/
  | comment (t : Str)
  /-- `!A$iB a b c …`, short for `A0B=a`, `A1B=b`, `A2B=c`, … -/
  | expand (a b : Str) (values : List Str)

/-- Words separated by one space. -/
def spaced (ws : List Str) : Str := [' '].intercalate ws

/-- The line in the file. -/
def Line.render : Line → Str
  | .text l v => l ++ ('=' :: v) ++ ['\n']
  | .vec l ns => l ++ (' ' :: spaced ns) ++ ['\n']
  | .blank => ['\n']
  | .comment t => '#' :: (t ++ ['\n'])
  | .expand a b vs => '!' :: (a ++ ('$' :: 'i' :: b) ++ (' ' :: spaced vs) ++ ['\n'])

/-- The file. -/
def render (ls : List Line) : Str := ls.flatMap Line.render

/-- The texts the line assigns to labels. -/
def Line.texts : Line → List (Str × Str)
  | .text l v => [(l, v)]
  | .expand a b vs => vs.mapIdx fun i v => (a ++ Nat.toDigits 10 i ++ b, v)
  | _ => []

/-- The lists of numbers the line assigns to labels (the first is the count). -/
def Line.vecs : Line → List (Str × List Str)
  | .vec l ns => [(l, ns)]
  | _ => []

/-- All texts, in the order of the file. -/
def texts (ls : List Line) : List (Str × Str) := ls.flatMap Line.texts

/-- All lists of numbers, in the order of the file. -/
def vecs (ls : List Line) : List (Str × List Str) := ls.flatMap Line.vecs

/-- What a label is given in a list of assignments, in order. -/
def occ {V : Type} (l : List (Str × V)) (label : Str) : List V := (l.filter (·.1 = label)).map (·.2)

/-! ## Well formed files -/

/-- Not white space, not the end of a line, not `=` and not `#`. -/
def Plain (c : Char) : Prop := c ∉ ['\n', ' ', '\t', '=', '#']

/-- What numbers begin with: a digit, a sign, a period, a parenthesis, a comma or a colon. -/
def NumberChar (c : Char) : Prop := c ∈ "0123456789:.+-(),".toList

/-- A label begins with a letter (not a digit or the like), and has no `@`. -/
def IsLabel (l : Str) : Prop :=
  (∃ c s, l = c :: s ∧ ¬ NumberChar c) ∧ ∀ c ∈ l, Plain c ∧ c ≠ '@'

/-- A value is not empty and has no white space and no `#`; it may have `=`, but not at the start. -/
def IsValue (v : Str) : Prop := (∃ c s, v = c :: s ∧ Plain c) ∧ ∀ c ∈ v, Plain c ∨ c = '='

/-- A number begins with one of these characters; it has no white space, `=` or `#`. -/
def IsNumber (v : Str) : Prop := (∃ c s, v = c :: s ∧ NumberChar c) ∧ ∀ c ∈ v, Plain c

/-- The line is well formed, given the checker of the application. -/
def Line.Ok (chk : Check) : Line → Prop
  | .text l v => IsLabel l ∧ l.head? ≠ some '!' ∧ IsValue v
  | .vec l ns => IsLabel l ∧ l.head? ≠ some '!' ∧ (∀ n ∈ ns, IsNumber n) ∧
      ∃ n rest k, ns = n :: rest ∧ rest ≠ [] ∧ atoi n = some (some k) ∧
        (chk.checkVec l ns = some true ∨ chk.checkVec l ns = some false ∧ (rest.length : Int) = k)
  | .blank => True
  | .comment t => '\n' ∉ t
  | .expand a b vs => IsLabel a ∧ (∀ c ∈ b, Plain c ∧ c ≠ '@') ∧ '$' ∉ a ∧ vs ≠ [] ∧ ∀ v ∈ vs, IsValue v

/-- No comment line comes between a list of numbers and the next label (see `comment_after_vector_fails`);
`afterVec`: a list of numbers came last. -/
def CommentsOk : Bool → List Line → Prop
  | _, [] => True
  | _, .text _ _ :: ls => CommentsOk false ls
  | _, .expand _ _ _ :: ls => CommentsOk false ls
  | _, .vec _ _ :: ls => CommentsOk true ls
  | f, .blank :: ls => CommentsOk f ls
  | f, .comment _ :: ls => f = false ∧ CommentsOk f ls

/-- A file that the reader accepts. -/
structure FileOk (chk : Check) (ls : List Line) : Prop where
  lines : ∀ l ∈ ls, l.Ok chk
  comments : CommentsOk false ls
  labels : ∀ l, chk.checkSimpleLabel l = true
  values : ∀ l v, chk.checkText l v = true
  size : (texts ls).length + (vecs ls).length < 2 ^ 31

/-! ## Reading -/

/-- A call: `readline(string)` (with or without moving on to the next occurrence), or `read(vector)`. -/
inductive Call
  | text (label : Str) (clean : Bool)
  | vec (label : Str)
  deriving DecidableEq

/-- The result of a call. -/
inductive Answer
  | text (v : Str)
  | vec (v : List Str)
  deriving DecidableEq

/-- How many calls of `past` have moved past an occurrence of this label as a text. -/
def movedText (past : List Call) (label : Str) : Nat :=
  past.countP fun c => match c with | .text l true => l = label | _ => false

/-- The same for lists of numbers. -/
def movedVec (past : List Call) (label : Str) : Nat :=
  past.countP fun c => match c with | .vec l => l = label | _ => false

/-- The answer to a call after the calls `past`: the next occurrence of the label, the last one again and again
once there are no more; no answer if the label does not occur. -/
def answer (ls : List Line) (past : List Call) : Call → Option Answer
  | .text l _ => ((occ (texts ls) l)[min (movedText past l) ((occ (texts ls) l).length - 1)]?).map .text
  | .vec l => ((occ (vecs ls) l)[min (movedVec past l) ((occ (vecs ls) l).length - 1)]?).map fun v => .vec (v.drop 1)

/-- The call of the model. -/
def Call.run (r : Readable) : Call → Out (Answer × Readable)
  | .text l clean => do
    let (v, r) ← readline r l clean
    return (.text v, r)
  | .vec l => do
    let (v, r) ← readVector r l
    return (.vec v, r)

/-- A sequence of calls; a call that throws leaves the reader as it was. -/
def runCalls (r : Readable) : List Call → Out (List (Option Answer))
  | [] => .ok []
  | c :: cs =>
    match c.run r with
    | .ok (a, r) => do
      let as ← runCalls r cs
      return some a :: as
    | .error .thrown => do
      let as ← runCalls r cs
      return none :: as
    | .error .ub => ubOut

/-- The answers expected. -/
def answers (ls : List Line) : List Call → List Call → List (Option Answer)
  | _, [] => []
  | past, c :: cs => answer ls past c :: answers ls (past ++ [c]) cs

end Verif.InputNg
