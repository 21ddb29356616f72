import Verif.Host.ModelRunId
import Mathlib.Algebra.Field.Rat

/-! # Model of src/MemoryUsage.h and src/MicroArchitecture.h -/

namespace Verif.Host

open Verif.Str

/-- An input stream: what is left of it and its flags. -/
structure In where
  rest : Str
  eof : Bool
  fail : Bool
  deriving DecidableEq

/-- `istream::getline(tmp, n)` of the standard library: the characters before the end of the line, at most `n - 1` of them.  A line that
is longer sets the flag of failure, and so does a call that takes nothing; a stream that is not good gives nothing. -/
def getlineN (n : Nat) (st : In) : In × Str :=
  if st.eof || st.fail then ({ st with fail := true }, [])
  else
    let l := st.rest.takeWhile (· != '\n')
    if l.length ≤ n - 1 then
      match st.rest.dropWhile (· != '\n') with
      | [] => (⟨[], true, l.isEmpty⟩, l)
      | _ :: r => (⟨r, false, false⟩, l)
    else (⟨st.rest.drop (n - 1), false, true⟩, l.take (n - 1))

/-- The loop of `update`, src/MemoryUsage.h:154-158; `none` when the budget of rounds runs out. -/
def updateLoop (n : Nat) : Nat → In → Str → Option Str
  | 0, _, _ => none
  | fuel + 1, st, data =>
    if st.eof then some data
    else
      let r := getlineN n st
      updateLoop n fuel r.1 (data ++ r.2.takeWhile (· != '\x00') ++ ['\n'])

/-- `update`, src/MemoryUsage.h:147-161, with `MY_MAX_LINE`, src/MemoryUsage.h:88: a file that cannot be read leaves the data as they
are. -/
def update (fuel : Nat) (file : Option Str) (data : Str) : Option Str :=
  match file with
  | none => some data
  | some s => updateLoop 40240 fuel ⟨s, false, false⟩ []

/-- The loop of `findEntry`, src/MemoryUsage.h:177-183: the value of `x` after it. -/
def skipBlanks : Str → Nat
  | [] => 0
  | c :: s => if c = ' ' ∨ c = '\t' then skipBlanks s + 1 else 1

/-- `findEntry`, src/MemoryUsage.h:163-189; `none` is the exception of `substr`. -/
def findEntry (data label : Str) : Option Str :=
  match find data label 0 with
  | none => some "NOT_FOUND".toList
  | some x => do
    let x := x + label.length
    let len := match find data ['\n'] x with
      | none => data.length - x
      | some y => y - x
    let s2 ← substr data x len
    let x := skipBlanks s2
    let x := if x > 0 then x - 1 else x
    substr s2 x (s2.length - x)

/-- `TimeHandle`, src/MemoryUsage.h:92-144, without the range of its integers. -/
structure TimeHandle where
  sec : Int
  usec : Int
  deriving DecidableEq

/-- `operator-`, src/MemoryUsage.h:109-114. -/
def TimeHandle.sub (a b : TimeHandle) : TimeHandle := ⟨a.sec - b.sec, a.usec - b.usec⟩

/-- `operator+=`, src/MemoryUsage.h:116-121. -/
def TimeHandle.add (a b : TimeHandle) : TimeHandle := ⟨a.sec + b.sec, a.usec + b.usec⟩

/-- `millis`, src/MemoryUsage.h:127-131, in exact arithmetic. -/
def TimeHandle.millis (a : TimeHandle) : Rat := ((a.usec : Rat) / 1000 + (a.sec : Rat) * 1000) / 1000

/-- `readLabel`, src/MicroArchitecture.h:31-51, for the lines of the file. -/
def readLabel (lines : Option (List Str)) (label : Str) : Str :=
  match lines with
  | none => []
  | some ls => (ls.find? fun l => (find l label 0).isSome).getD []

/-- `extractOther`, src/MicroArchitecture.h:53-69; `none` is the exception of `substr`. -/
def extractOther (v : Str) : Option Str :=
  match find v [':'] 0 with
  | none => some []
  | some i =>
    let ind := i + 1 + ((v.drop (i + 1)).takeWhile fun c => c == ' ' || c == '\t').length
    substr v ind (v.length - ind)

/-- The constructor of `MicroArchitecture`, src/MicroArchitecture.h:13-25. -/
def vendorId (lines : Option (List Str)) : Option Str :=
  let v := readLabel lines "vendor_id".toList
  if (find v "Intel".toList 0).isSome then some "Intel".toList
  else if (find v "AMD".toList 0).isSome then some "AMD".toList
  else extractOther v

end Verif.Host
