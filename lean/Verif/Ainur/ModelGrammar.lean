import Verif.Ainur.Model

/-!
# Model of the grammar of Ainur files, src/Ainur/AinurSpirit1.cpp and AinurLexical.h

The parser is built with Boost Spirit Qi.  The model follows its rules: a rule without a skipper of its own skips first
and then reads without skipping; a sequence that fails takes nothing; alternatives are tried in order; a list `a % b`
ends before the first separator that is not followed by an element; `phrase_parse` that succeeds skips at the end, and
one that fails takes nothing.  The actions run when their statement was read; since they do not change what is read,
the model collects the statements first and runs them then.  Verbose output is left out.
-/

namespace Verif.Ainur

open Verif.Str

/-- A statement: its action calls `assign`, `declare` without value or `declare` with value,
src/Ainur/AinurSpirit1.cpp:13-38. -/
inductive Stmt
  | assign (key value : Str)
  | declare (type key : Str)
  | define (type key value : Str)
  deriving DecidableEq, Repr

/-- `isEmptyChar`, src/Ainur/AinurLexical.h:25-28, 47-49. -/
def isEmptyChar (c : Char) : Bool := c = ' ' ∨ c = '\t' ∨ c = '\n' ∨ c = '\r'

/-- `allowedChar`, src/Ainur/AinurLexical.h:40-45. -/
def allowedChar (c : Char) : Bool :=
  if isEmptyChar c then true else if c.toNat < 33 ∨ c.toNat > 126 ∨ c.toNat = 96 then false else true

/-- The constructor of `AinurLexical`, src/Ainur/AinurLexical.h:14-23. -/
def lexical (s : Str) : Out Unit := if s.all allowedChar then .ok () else throwOut

/-- `qi::eol`: a carriage return, a line feed, or one after the other. -/
def eol : Str → Option Str
  | '\r' :: '\n' :: s => some s
  | '\r' :: s => some s
  | '\n' :: s => some s
  | _ => none

/-- The comment of `AINUR_COMMENTS`, src/Ainur/AinurSpirit1.cpp:48-49: it needs an end of line. -/
def comment : Str → Option Str
  | '#' :: s => eol (s.dropWhile fun c => ! (c = '\r' ∨ c = '\n'))
  | _ => none

/-- `qi::space`. -/
def oneSpace : Str → Option Str
  | c :: s => if isSpace c then some s else none
  | [] => none

/-- `AINUR_COMMENTS`, once, src/Ainur/AinurSpirit1.cpp:48-49. -/
def skipOne (s : Str) : Option Str := comment s <|> eol s <|> oneSpace s

/-- `AINUR_COMMENTS` as often as possible.  The number bounds the rounds. -/
def skipN : Nat → Str → Str
  | 0, s => s
  | n + 1, s =>
    match skipOne s with
    | none => s
    | some t => skipN n t

/-- The skipper.  Each round takes a character, so that the length of the text bounds the rounds. -/
def skip (s : Str) : Str := skipN s.length s

/-- `aToZ`, src/Ainur/AinurSpirit1.cpp:68. -/
def aToZ (c : Char) : Bool := ('a' ≤ c ∧ c ≤ 'z') ∨ ('A' ≤ c ∧ c ≤ 'Z')

/-- `zeroToNine`, src/Ainur/AinurSpirit1.cpp:69. -/
def zeroToNine (c : Char) : Bool := '0' ≤ c ∧ c ≤ '9'

/-- The characters of `typeQualifier`, src/Ainur/AinurSpirit1.cpp:71. -/
def typeChar (c : Char) : Bool := aToZ c ∨ c = '.' ∨ c = '!'

/-- The last characters of `keywords`, src/Ainur/AinurSpirit1.cpp:72. -/
def nameChar (c : Char) : Bool := aToZ c ∨ zeroToNine c ∨ c = ':' ∨ c = '_'

/-- `+p` for a class of characters. -/
def plus (p : Char → Bool) (s : Str) : Option (Str × Str) :=
  if s.takeWhile p = [] then none else some (s.takeWhile p, s.dropWhile p)

/-- The rule `typeQualifier`, src/Ainur/AinurSpirit1.cpp:71. -/
def typeQualifier (s : Str) : Option (Str × Str) := plus typeChar (skip s)

/-- The rule `keywords`, src/Ainur/AinurSpirit1.cpp:72. -/
def keywords (s : Str) : Option (Str × Str) :=
  let s := skip s
  let bars := s.takeWhile (· = '_')
  match plus aToZ (s.dropWhile (· = '_')) with
  | none => none
  | some (l, t) => some (bars ++ l ++ t.takeWhile nameChar, t.dropWhile nameChar)

/-- The rule `value`, src/Ainur/AinurSpirit1.cpp:67. -/
def valueRule (s : Str) : Option (Str × Str) := plus (fun c => ! (c = ';')) (skip s)

/-- A character literal, after skipping. -/
def lit (c : Char) (s : Str) : Option Str :=
  match skip s with
  | d :: t => if d = c then some t else none
  | [] => none

/-- `statement1`, src/Ainur/AinurSpirit1.cpp:73, 77. -/
def statement1 (s : Str) : Option (Stmt × Str) := do
  let (k, s) ← keywords s
  let s ← lit '=' s
  let (v, s) ← valueRule s
  return (.assign k v, s)

/-- `statement2`, src/Ainur/AinurSpirit1.cpp:74, 78. -/
def statement2 (s : Str) : Option (Stmt × Str) := do
  let (d, s) ← typeQualifier s
  let (k, s) ← keywords s
  return (.declare d k, s)

/-- `statement3`, src/Ainur/AinurSpirit1.cpp:75, 79. -/
def statement3 (s : Str) : Option (Stmt × Str) := do
  let (d, s) ← typeQualifier s
  let (k, s) ← keywords s
  let s ← lit '=' s
  let (v, s) ← valueRule s
  return (.define d k v, s)

/-- `statement`, src/Ainur/AinurSpirit1.cpp:80. -/
def statement (s : Str) : Option (Stmt × Str) := statement3 s <|> statement2 s <|> statement1 s

/-- The list `statement % ";"` after its first statement, src/Ainur/AinurSpirit1.cpp:84.  The number bounds the
rounds. -/
def moreStatements : Nat → Str → List Stmt × Str
  | 0, s => ([], s)
  | n + 1, s =>
    match lit ';' s with
    | none => ([], s)
    | some t =>
      match statement t with
      | none => ([], s)
      | some (st, r) => let (l, u) := moreStatements n r; (st :: l, u)

/-- `phrase_parse`, src/Ainur/AinurSpirit1.cpp:82-84: the statements and what `first` points to then.  Each round takes
a semicolon, so that the length of the text bounds the rounds. -/
def phraseParse (s : Str) : List Stmt × Str :=
  match statement s with
  | none => ([], s)
  | some (st, r) => let (l, u) := moreStatements s.length r; (st :: l, skip u)

/-- The test of the rest, src/Ainur/AinurSpirit1.cpp:86-96: without a character to step over, `first` runs past the
end. -/
def checkRest : Str → Out Unit
  | [] => ubOut
  | _ :: r =>
    if r ≠ [] ∧ ! r.all isEmptyChar then
      let r := skip r
      if r.length ≠ 1 ∧ ! r.all isEmptyChar then throwOut else .ok ()
    else .ok ()

/-- The actions of the statements, src/Ainur/AinurSpirit1.cpp:13-38. -/
def Stmt.act (s : State) : Stmt → Out State
  | .assign k v => Ainur.assign s k v
  | .declare d k => declare2 s d k
  | .define d k v => Ainur.declare s d k v

/-- The constructor of `Ainur`, src/Ainur/AinurSpirit1.cpp:40-100. -/
def ainur (fs : Files) (str : Str) : Out State := do
  lexical str
  let s ← (phraseParse str).1.foldlM Stmt.act State.init
  checkRest (phraseParse str).2
  initMacros fs s

end Verif.Ainur
