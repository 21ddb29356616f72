import Verif.Host.ModelRunId
import Mathlib.Logic.Function.Basic


/-!
# Model of `RedirectOutput` (src/RedirectOutput.hh)

The standard library: `std::cout` writes to the buffer it points to; the buffer of an `ofstream` keeps text that is not yet in the file,
and may pass any part of it to the file at any time; with `unitbuf` everything is passed after each `<<`; `close` passes all of it;
`open` fails if the buffer has a file open already, or if the file cannot be opened, and otherwise clears the flags of the stream.
The buffer of the terminal is not modelled.
-/

namespace Verif.Host

open Verif.Str

/-- The whole program as far as output is concerned. -/
structure Redirect where
  /-- files on disk -/
  disk : Str → Option Str
  /-- what went to the buffer that `std::cout` had at the start -/
  terminal : Str
  /-- what went to `std::cerr` -/
  cerr : Str
  /-- `app_name2_` (src/RedirectOutput.hh:67; `app_name_` is only used in the message of the exception) -/
  appName2 : Str
  /-- the file open in `cout_stream_` and the text not yet in the file -/
  stream : Option (Str × Str)
  /-- whether `std::cout` points to the buffer of `cout_stream_` -/
  toStream : Bool
  /-- `cout_buffer_`: null, or what `std::cout` pointed to before -/
  saved : Option Bool
  /-- the flag `unitbuf` of `std::cout` -/
  unitbuf : Bool
  /-- `redirected_` -/
  redirected : Bool
  /-- how many times `restoreCoutBuffer` is registered -/
  handlers : Nat

/-- The start of the program. -/
def Redirect.start (disk : Str → Option Str) : Redirect := ⟨disk, [], [], [], none, false, none, false, false, 0⟩

/-- What happens in a program. -/
inductive RCall
  /-- `setAppName(app_name, app_name2)` -/
  | name (a b : Str)
  /-- `doIt(label, app or out, unbuffered)` -/
  | doIt (label : Str) (app unbuffered : Bool)
  /-- `std::cout << text` -/
  | print (text : Str)
  /-- the buffer passes `n` more characters to the file -/
  | leak (n : Nat)
  /-- the functions registered with `atexit` run -/
  | exit

/-- Passes the first `n` characters of the buffer to the file. -/
def Redirect.flush (s : Redirect) (n : Nat) : Redirect :=
  match s.stream with
  | none => s
  | some (f, pending) =>
    { s with disk := Function.update s.disk f (some ((s.disk f).getD [] ++ pending.take n)), stream := some (f, pending.drop n) }

/-- `cout_stream_.close()`. -/
def Redirect.close (s : Redirect) : Redirect :=
  match s.stream with
  | none => s
  | some (_, pending) => { s.flush pending.length with stream := none }

/-- `restoreCoutBuffer`, src/RedirectOutput.hh:56-64. -/
def Redirect.restore (s : Redirect) : Redirect :=
  match s.saved with
  | none => s
  | some b => { s.close with toStream := b }

/-- `doIt`, src/RedirectOutput.hh:26-50; `can` tells which files can be opened. -/
def Redirect.doIt (can : Str → Bool) (s : Redirect) (label : Str) (app unbuffered : Bool) : Bool × Redirect :=
  if s.stream.isSome || !can label then (false, s)
  else
    let old := (s.disk label).getD []
    (true, { s with
      disk := Function.update s.disk label (some (if app then old else []))
      stream := some (label, [])
      cerr := s.cerr ++ s.appName2 ++ ": Standard output sent to ".toList ++ label ++ ['\n']
      saved := some s.toStream
      toStream := true
      unitbuf := unbuffered || s.unitbuf
      handlers := s.handlers + 1
      redirected := true })

/-- `std::cout << text`; a buffer without a file drops it. -/
def Redirect.print (s : Redirect) (text : Str) : Redirect :=
  if s.toStream then
    match s.stream with
    | none => s
    | some (f, pending) =>
      let s := { s with stream := some (f, pending ++ text) }
      if s.unitbuf then s.flush (pending ++ text).length else s
  else { s with terminal := s.terminal ++ text }

/-- One event; the answer is whether it returns (an exception is thrown otherwise). -/
def Redirect.step (can : Str → Bool) (s : Redirect) : RCall → Bool × Redirect
  | .name _ b => (true, { s with appName2 := b })
  | .doIt l a u => s.doIt can l a u
  | .print t => (true, s.print t)
  | .leak n => (true, s.flush n)
  | .exit => (true, (Redirect.restore^[s.handlers]) { s with handlers := 0 })

/-- All events, with the answers. -/
def Redirect.run (can : Str → Bool) (s : Redirect) : List RCall → List Bool × Redirect
  | [] => ([], s)
  | c :: cs => let r := s.step can c; let t := Redirect.run can r.2 cs; (r.1 :: t.1, t.2)

end Verif.Host
