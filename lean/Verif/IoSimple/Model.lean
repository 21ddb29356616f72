import Verif.Util.Out
import Verif.StrUtil.Model
import Verif.Util.Loop

/-!
# Model of `IoSimple`: labelled values in text files

A stream (`std::ifstream`, trusted) is the text not yet extracted and the flags `eofbit` and `failbit`; `badbit` is never set.
-/

namespace Verif.IoSimple

abbrev Str := List Char

/-- White space of the C locale. -/
def isWs (c : Char) : Bool := c = ' ' ∨ c = '\t' ∨ c = '\n' ∨ c = '\x0b' ∨ c = '\x0c' ∨ c = '\r'

/-- An input stream. -/
structure Stream where
  rest : Str
  eof : Bool
  fail : Bool
  deriving DecidableEq, Repr

/-- `good()`. -/
def Stream.good (st : Stream) : Bool := !st.eof && !st.fail

/-- A stream that was just opened, or rewound. -/
def Stream.ofText (s : Str) : Stream := ⟨s, false, false⟩

/-- `fin_ >> temp` for a string: it is left as it was if nothing can be extracted. -/
def readWord (st : Stream) (temp : Str) : Stream × Str :=
  if st.good then
    match st.rest.dropWhile isWs with
    | [] => (⟨[], true, true⟩, temp)
    | c :: r =>
      let w := (c :: r).takeWhile fun c => !isWs c
      let r' := (c :: r).dropWhile fun c => !isWs c
      (⟨r', r'.isEmpty, false⟩, w)
  else (⟨st.rest, st.eof, true⟩, temp)

/-- `fin_ >> xsize` for an `int`: `none` if it is left as it was. -/
def readInt (st : Stream) : Stream × Option Int :=
  if st.good then
    match st.rest.dropWhile isWs with
    | [] => (⟨[], true, true⟩, none)
    | c :: r =>
      let neg := c == '-'
      let body := if c = '-' ∨ c = '+' then r else c :: r
      let ds := body.takeWhile Str.isDigit
      let r' := body.dropWhile Str.isDigit
      if ds = [] then (⟨r', r'.isEmpty, true⟩, some 0)
      else
        let v : Int := if neg then - (Nat.ofDigitChars 10 ds 0 : Int) else Nat.ofDigitChars 10 ds 0
        if v < -2147483648 then (⟨r', r'.isEmpty, true⟩, some (-2147483648))
        else if v > 2147483647 then (⟨r', r'.isEmpty, true⟩, some 2147483647)
        else (⟨r', r'.isEmpty, false⟩, some v)
  else (⟨st.rest, st.eof, true⟩, none)

/-! ## Out -/

/-- `write` of a number, src/Io/IoSimple.h:201-205, by the given rank; ranks other than 0 have no file (lines 122-138) and
follow a null pointer. -/
def writeScalar (rank : Nat) (file : Str) (label text : Str) : Out Str :=
  if rank = 0 then .ok (file ++ label ++ '=' :: text ++ ['\n']) else ubOut

/-- `operator<<` of a vector, src/Vector.h:436-443. -/
def vectorText {α : Type} (pr : α → Str) (xs : List α) : Str :=
  Nat.toDigits 10 xs.length ++ '\n' :: xs.flatMap fun x => pr x ++ ['\n']

/-- `write` of other values, src/Io/IoSimple.h:207-216. -/
def writeOther (rank : Nat) (file : Str) (label text : Str) : Out Str :=
  if rank ≠ 0 then .ok file else .ok (file ++ label ++ '\n' :: text ++ ['\n'])

/-- `printline`, src/Io/IoSimple.h:185-190. -/
def printline (rank : Nat) (file s : Str) : Out Str := if rank ≠ 0 then .ok file else .ok (file ++ s ++ ['\n'])

/-! ## In -/

/-- The loop of `readline`, src/Io/IoSimple.h:298-312; `parse` is `temp2 >> x`.  The result has `found`, `foundOnce` and
`counter`; `none` when the budget runs out. -/
def rlLoop {X : Type} (parse : Str → X → X) (s : Str) (level : Int) :
    Nat → Stream → Str → X → Bool → Nat → Option (Stream × X × Bool × Bool × Nat)
  | 0, _, _, _, _, _ => none
  | fuel + 1, st, temp, x, once, counter =>
    if st.eof then some (st, x, false, once, counter)
    else
      let r := readWord st temp
      if r.1.eof then some (r.1, x, false, once, counter)
      else if r.2.take s.length = s then
        let x := parse (r.2.drop s.length) x
        if level ≥ 0 ∧ (counter : Int) = level then some (r.1, x, true, true, counter)
        else rlLoop parse s level fuel r.1 r.2 x true (counter + 1)
      else rlLoop parse s level fuel r.1 r.2 x once counter

/-- `readline` up to line 318, src/Io/IoSimple.h:289-317. -/
def readlineOnce {X : Type} (parse : Str → X → X) (st : Stream) (x : X) (s : Str) (level : Int) : Out (Stream × X × Nat) :=
  if !st.good then throwOut
  else match rlLoop parse s level (st.rest.length + 1) st [] x false 0 with
    | none => ubOut
    | some (st, x, found, once, counter) =>
      if !once || (!found && level ≠ -1) then throwOut else .ok (st, x, counter)

/-- `readline`, src/Io/IoSimple.h:288-326, of the file with the given contents. -/
def readline {X : Type} (parse : Str → X → X) (file : Str) (st : Stream) (x : X) (s : Str) (level : Int) :
    Out (Stream × X × Nat) := do
  let r ← readlineOnce parse st x s level
  if level = -1 then
    let r2 ← readlineOnce parse (.ofText file) r.2.1 s (r.2.2 - 1)
    return (r2.1, r2.2.1, r.2.2)
  else return r

/-- `"NOTFOUND"`. -/
def notFound : Str := "NOTFOUND".toList

/-- The loop of `advance`, src/Io/IoSimple.h:375-388: `tempSaved`, `found` and `counter`. -/
def advLoop (s : Str) (level : Int) : Nat → Stream → Str → Str → Nat → Option (Stream × Str × Bool × Nat)
  | 0, _, _, _, _ => none
  | fuel + 1, st, temp, saved, counter =>
    if st.eof then some (st, saved, false, counter)
    else
      let r := readWord st temp
      if !r.1.good then some (r.1, saved, false, counter)
      else if r.2.take s.length = s then
        if level ≥ 0 ∧ (counter : Int) = level then some (r.1, r.2, true, counter)
        else advLoop s level fuel r.1 r.2 r.2 (counter + 1)
      else advLoop s level fuel r.1 r.2 saved counter

/-- `advance` with a level that is not `LAST_INSTANCE`, src/Io/IoSimple.h:365-410. -/
def advanceTo (st : Stream) (s : Str) (level : Int) : Out (Stream × Str × Nat) :=
  match advLoop s level (st.rest.length + 1) st notFound notFound 0 with
  | none => ubOut
  | some (st, saved, found, counter) => if !found && saved = notFound then throwOut else .ok (st, saved, counter)

/-- `advance`, src/Io/IoSimple.h:365-411. -/
def advance (file : Str) (st : Stream) (s : Str) (level : Int) : Out (Stream × Str × Nat) :=
  if level = -1 then
    match advLoop s level (st.rest.length + 1) st notFound notFound 0 with
    | none => ubOut
    | some (_, saved, _, counter) =>
      if saved ≠ notFound then
        if counter > 1 then do
          let r ← advanceTo (.ofText file) s (counter - 2)
          return (r.1, saved, counter)
        else .ok (.ofText file, saved, counter)
      else throwOut
  else advanceTo st s level

/-- The loop of `count`, src/Io/IoSimple.h:416-425, with the number of passes left: `none` if it is not left by the
exception of `advance`. -/
def countLoop (file s : Str) : Nat → Stream → Nat → Out (Option Nat)
  | 0, _, _ => .ok none
  | k + 1, st, i =>
    match advance file st s 0 with
    | .ok r => countLoop file s k r.1 (i + 1)
    | .error .thrown => .ok (some i)
    | .error .ub => ubOut

/-- `count`, src/Io/IoSimple.h:413-429: the number, and the stream, which is rewound. -/
def count (file : Str) (st : Stream) (s : Str) : Out (Nat × Stream) := do
  match ← countLoop file s 1000 st 0 with
  | some i => return (i, .ofText file)
  | none => throwOut

/-- The loop of `read` of a vector, src/Io/IoSimple.h:339-343. -/
def readElems {α : Type} (rd : Stream → Stream × α) : Nat → Stream → Stream × List α
  | 0, st => (st, [])
  | n + 1, st =>
    let r := rd st
    let r2 := readElems rd n r.1
    (r2.1, r.2 :: r2.2)

/-- `read` of a vector, src/Io/IoSimple.h:329-345: nothing is done to the vector if the size is zero; a size that was not
read is not initialized. -/
def readVector {α : Type} (rd : Stream → Stream × α) (file : Str) (st : Stream) (x : List α) (s : Str) (level : Int) :
    Out (Stream × List α) := do
  let r ← advance file st s level
  match readInt r.1 with
  | (_, none) => ubOut
  | (st, some n) =>
    if n = 0 then return (st, x)
    else if n < 0 then throwOut
    else return readElems rd n.toNat st

end Verif.IoSimple
