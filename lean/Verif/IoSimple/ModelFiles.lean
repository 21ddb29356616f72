import Verif.IoSimple.Model

/-!
# Model of opening, writing and closing with `IoSimple::Out`

Files are a map from names to their contents.  What is written is kept by the stream until it is closed: the buffer is
as large as needed, so that nothing is stored before (`PSI_PUBSETBUF` is not defined).  `canOpen` says which
files the system lets the program open.  The constructor from a `std::ostream` is not modelled.
-/

namespace Verif.IoSimple

/-- The files. -/
abbrev Disk := Str → Option Str

/-- A file gets new contents. -/
def Disk.put (d : Disk) (fn text : Str) : Disk := fun x => if x = fn then some text else d x

/-- A `std::ofstream`: the file that is open, whether the stream is good, and what has been written since it was opened. -/
structure OFile where
  file : Option Str
  ok : Bool
  buf : Str

/-- A new `std::ofstream`. -/
def OFile.fresh : OFile := ⟨none, true, []⟩

/-- `std::ofstream::open`: fails if a file is open; a success clears the state of the stream. -/
def OFile.openIn (canOpen : Str → Bool) (d : Disk) (o : OFile) (fn : Str) (app : Bool) : Disk × OFile :=
  if o.file.isSome = true ∨ canOpen fn = false then (d, { o with ok := false })
  else (d.put fn (if app then (d fn).getD [] else []), ⟨some fn, true, []⟩)

/-- `operator<<` of a `std::ofstream` for a text that is not empty: without a file the stream becomes bad. -/
def OFile.out (o : OFile) (text : Str) : OFile :=
  if o.ok = false then o
  else if o.file.isSome = true then { o with buf := o.buf ++ text } else { o with ok := false }

/-- `std::ofstream::close`. -/
def OFile.closeIn (d : Disk) (o : OFile) : Disk × OFile :=
  match o.file with
  | none => (d, { o with ok := false })
  | some fn => (d.put fn ((d fn).getD [] ++ o.buf), ⟨none, o.ok, []⟩)

/-- An `IoSimple::Out`, src/Io/IoSimple.h:246-248, and the files. -/
structure OutState where
  disk : Disk
  rank : Nat
  name : Str
  fout : Option OFile

/-- How a call ends. -/
inductive Ending | done | threw | undefined
  deriving DecidableEq

/-- The name that the constructor from a `std::ostream` gives. -/
def ostreamName : Str := "OSTREAM".toList

/-- `Out()`, src/Io/IoSimple.h:109-113: the rank is zero in every process. -/
def newOut (d : Disk) : OutState := ⟨d, 0, [], none⟩

/-- `Out(fn)`, src/Io/IoSimple.h:122-138. -/
def newOutFile (canOpen : Str → Bool) (d : Disk) (rank : Nat) (fn : Str) : OutState × Ending :=
  if rank ≠ 0 then (⟨d, rank, fn, none⟩, .done)
  else
    let r := OFile.fresh.openIn canOpen d fn false
    (⟨r.1, rank, fn, some r.2⟩, if r.2.ok then .done else .threw)

/-- `~Out`, src/Io/IoSimple.h:140-148: the files afterwards. -/
def OutState.destroy (s : OutState) : Disk :=
  if s.rank ≠ 0 then s.disk
  else if s.name = ostreamName then s.disk
  else match s.fout with
    | none => s.disk
    | some o => (o.closeIn s.disk).1

/-- The calls. -/
inductive Call
  /-- `open`, for writing or appending -/
  | openFile (fn : Str) (app : Bool)
  /-- `close` -/
  | close
  /-- `printline` -/
  | line (s : Str)
  /-- `write` of a number -/
  | num (label text : Str)
  /-- `write` of anything else -/
  | obj (label text : Str)

/-- What a call writes to the file that is open. -/
def Call.text : Call → Str
  | .openFile _ _ => []
  | .close => []
  | .line s => s ++ ['\n']
  | .num label text => label ++ ['='] ++ text ++ ['\n']
  | .obj label text => label ++ ['\n'] ++ text ++ ['\n']

/-- `open`, src/Io/IoSimple.h:154-170. -/
def OutState.doOpen (canOpen : Str → Bool) (s : OutState) (fn : Str) (app : Bool) : OutState × Ending :=
  if s.rank ≠ 0 then (s, .done)
  else if s.name = ostreamName then (s, .threw)
  else
    let r := (s.fout.getD .fresh).openIn canOpen s.disk fn app
    (⟨r.1, s.rank, fn, some r.2⟩, if r.2.ok then .done else .threw)

/-- `close`, src/Io/IoSimple.h:172-177. -/
def OutState.doClose (s : OutState) : OutState × Ending :=
  if s.name = ostreamName then (s, .threw)
  else match s.fout with
    | none => (s, .undefined)
    | some o => ({ s with
        disk := (o.closeIn s.disk).1
        fout := some (o.closeIn s.disk).2 }, .done)

/-- `*fout_ << text`. -/
def OutState.send (s : OutState) (text : Str) : OutState × Ending :=
  match s.fout with
  | none => (s, .undefined)
  | some o => ({ s with fout := some (o.out text) }, .done)

/-- Whether the stream is good; following a null pointer is undefined. -/
def OutState.isGood (s : OutState) : Option Bool := s.fout.map OFile.ok

/-- One call: `printline`, src/Io/IoSimple.h:185-190, `write`, src/Io/IoSimple.h:201-216. -/
def step (canOpen : Str → Bool) (c : Call) (s : OutState) : OutState × Ending :=
  match c with
  | .openFile fn app => s.doOpen canOpen fn app
  | .close => s.doClose
  | .line t => if s.rank ≠ 0 then (s, .done) else s.send (Call.line t).text
  | .num label t => s.send (Call.num label t).text
  | .obj label t =>
    if s.rank ≠ 0 then (s, .done)
    else match s.isGood with
      | none => (s, .undefined)
      | some false => (s, .threw)
      | some true => s.send (Call.obj label t).text

/-- Calls one after the other; the program goes on after an exception, but not after undefined behaviour. -/
def runCalls (canOpen : Str → Bool) : List Call → OutState → OutState × List Ending
  | [], s => (s, [])
  | c :: rest, s =>
    let r := step canOpen c s
    if r.2 = .undefined then (r.1, [.undefined])
    else
      let q := runCalls canOpen rest r.1
      (q.1, r.2 :: q.2)

end Verif.IoSimple
