import Verif.Host.ModelRunId

/-! # Model of the messages of programs, src/ProgressIndicator.h and src/Profiling.h

The clock is read for every prefix; its text is an argument.  What `updateBuffer` says on the error stream and the precision of numbers
are left out.  Signals arrive between calls. -/

namespace Verif.Host

/-- An `OstringStream`: its text and the place where the next character goes. -/
structure OStr where
  text : Str
  pos : Nat
  deriving DecidableEq

/-- Writing to a string stream: characters that are already there are overwritten. -/
def OStr.put (o : OStr) (s : Str) : OStr := ⟨o.text.take o.pos ++ s ++ o.text.drop (o.pos + s.length), o.pos + s.length⟩

/-- `seekp(beg)`: the argument is the position zero. -/
def OStr.rewind (o : OStr) : OStr := ⟨o.text, 0⟩

/-- A new stream to which `s` was written. -/
def OStr.fresh (s : Str) : OStr := (⟨[], 0⟩ : OStr).put s

/-- The static members, src/ProgressIndicator.h:93-95, with the stream that is written to and the file of the buffer. -/
structure World where
  out : Str
  buffer : OStr
  active : Bool
  file : Option Str
  deriving DecidableEq

/-- The members, src/ProgressIndicator.h:229-231. -/
structure Indicator where
  caller : Str
  threadId : Nat
  rank : Nat
  deriving DecidableEq

/-- The constructor, src/ProgressIndicator.h:99-109: `rank` is the rank of the process. -/
def Indicator.mk' (caller : Str) (threadId rank : Nat) : Indicator :=
  if threadId ≠ 0 then ⟨[], threadId, 0⟩ else ⟨caller, threadId, rank⟩

/-- `updateBuffer`, src/ProgressIndicator.h:112-131. -/
def updateBuffer (w : World) : World :=
  let w := if w.active then { w with file := some (w.buffer.text ++ ['\n']), buffer := ⟨[], 0⟩ } else w
  { w with active := !w.active }

/-- `prefix`, src/ProgressIndicator.h:206-215: what it writes, for the text of the clock. -/
def prefixText (p : Indicator) (clock : Str) : Str := p.caller ++ " [".toList ++ clock ++ "]: ".toList

/-- `printline(const String&, ...)`, src/ProgressIndicator.h:133-148. -/
def printline (p : Indicator) (s c1 c2 : Str) (w : World) : World :=
  if p.threadId ≠ 0 then w
  else if p.rank ≠ 0 then w
  else
    let w := { w with out := w.out ++ prefixText p c1 ++ (s ++ ['\n']) }
    if !w.active then w
    else { w with buffer := (w.buffer.put (prefixText p c2)).put (s ++ ['\n']) }

/-- `printline(const String&, ...)` when a signal arrives after step `k` of it, src/ProgressIndicator.h:133-148.  Each insertion into a
stream is one step; a signal within one of them is not modelled. -/
def printlineSignal (k : Nat) (p : Indicator) (s c1 c2 : Str) (w : World) : World :=
  let sig (j : Nat) (w : World) : World := if j = k then updateBuffer w else w
  if p.threadId ≠ 0 then sig 0 w
  else if p.rank ≠ 0 then sig 0 w
  else
    let w := sig 1 { w with out := w.out ++ prefixText p c1 }
    let w := sig 2 { w with out := w.out ++ (s ++ ['\n']) }
    if !w.active then sig 3 w
    else
      let w := sig 3 w
      let w := sig 4 { w with buffer := w.buffer.put (prefixText p c2) }
      sig 5 { w with buffer := w.buffer.put (s ++ ['\n']) }

/-- `printline(OstringStream&, ...)`, src/ProgressIndicator.h:150-166, for a stream that is not the buffer. -/
def printStream (p : Indicator) (s : OStr) (c1 c2 : Str) (w : World) : World × OStr :=
  if p.threadId ≠ 0 then (w, s)
  else if p.rank ≠ 0 then (w, s)
  else
    let w := { w with out := w.out ++ prefixText p c1 ++ (s.text ++ ['\n']) }
    let s := s.rewind
    if !w.active then (w, s)
    else
      let w := { w with buffer := (w.buffer.put (prefixText p c2)).put (s.text ++ ['\n']) }
      (w, s.rewind)

/-- The same, src/ProgressIndicator.h:150-166, for the buffer itself. -/
def printBuffer (p : Indicator) (c1 c2 : Str) (w : World) : World :=
  if p.threadId ≠ 0 then w
  else if p.rank ≠ 0 then w
  else
    let w := { w with out := w.out ++ prefixText p c1 ++ (w.buffer.text ++ ['\n']) }
    let w := { w with buffer := w.buffer.rewind }
    if !w.active then w
    else
      let w := { w with buffer := w.buffer.put (prefixText p c2) }
      let w := { w with buffer := w.buffer.put (w.buffer.text ++ ['\n']) }
      { w with buffer := w.buffer.rewind }

/-- `print`, src/ProgressIndicator.h:168-182. -/
def print (p : Indicator) (s c1 c2 : Str) (w : World) : World :=
  if p.threadId ≠ 0 then w
  else if p.rank ≠ 0 then w
  else
    let w := { w with out := w.out ++ prefixText p c1 ++ s }
    if !w.active then w
    else { w with buffer := (w.buffer.put (prefixText p c2)).put s }

/-- The message of `printMemoryUsage`, src/ProgressIndicator.h:190-191. -/
def memoryText (size peak : Str) : Str := "Current virtual memory is ".toList ++ size ++ " maximum was ".toList ++ peak

/-- `printMemoryUsage`, src/ProgressIndicator.h:184-200, for the entries that were found. -/
def printMemoryUsage (p : Indicator) (size peak c1 c2 c3 c4 : Str) (w : World) : World :=
  let w := (printStream p (OStr.fresh (memoryText size peak)) c1 c2 w).1
  if !w.active then w
  else printBuffer p c3 c4 { w with buffer := w.buffer.put (memoryText size peak) }

/-- A call; streams of messages are new ones, as they are in all calls of the library. -/
inductive Call where
  | line (p : Indicator) (s c1 c2 : Str)
  | stream (p : Indicator) (s c1 c2 : Str)
  | print (p : Indicator) (s c1 c2 : Str)
  | memory (p : Indicator) (size peak c1 c2 c3 c4 : Str)
  | signal

/-- One call. -/
def step (w : World) : Call → World
  | .line p s c1 c2 => printline p s c1 c2 w
  | .stream p s c1 c2 => (printStream p (OStr.fresh s) c1 c2 w).1
  | .print p s c1 c2 => Host.print p s c1 c2 w
  | .memory p size peak c1 c2 c3 c4 => printMemoryUsage p size peak c1 c2 c3 c4 w
  | .signal => updateBuffer w

/-- The beginning of a program, src/ProgressIndicator.cpp:81-83. -/
def start : World := ⟨[], ⟨[], 0⟩, false, none⟩

/-! ## Profiling -/

/-- The members that change, src/Profiling.h:75-78. -/
structure Profiling where
  indicator : Indicator
  dead : Bool

/-- `killIt`, src/Profiling.h:65-73. -/
def Profiling.killIt (q : Profiling) (msg c1 c2 : Str) (w : World) : Profiling × World :=
  if q.dead then (q, w)
  else
    let w := (printStream q.indicator (OStr.fresh ("stopping clock ".toList ++ msg)) c1 c2 w).1
    ({ q with dead := true }, w)

/-- The constructors, src/Profiling.h:36-57: `extra` is empty in the second one, and a blank with the text in the first one. -/
def Profiling.begin (p : Indicator) (extra c1 c2 : Str) (w : World) : Profiling × World :=
  (⟨p, false⟩, (printStream p (OStr.fresh ("starting clock".toList ++ extra)) c1 c2 w).1)

/-- The calls of `end`, then the destructor, src/Profiling.h:59-61. -/
def Profiling.run (q : Profiling) (ends : List (Str × Str × Str)) (c1 c2 : Str) (w : World) : World :=
  let r := ends.foldl (fun (r : Profiling × World) e => r.1.killIt e.1 e.2.1 e.2.2 r.2) (q, w)
  (r.1.killIt [] c1 c2 r.2).2

end Verif.Host
