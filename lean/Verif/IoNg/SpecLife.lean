import Verif.IoNg.ModelLife

/-!
# What a user expects of the object

A disk of stores, each marked as finished or not; an object that is absent, shut, or open on one of them to be written or read.
Nothing here depends on files of HDF5.
-/

namespace Verif.IoNg.Life

variable {α : Type}

/-- The object: there is none, it is shut, or it is open; `writes` says if it was made to write. -/
inductive State
  | gone
  | shut (writes : Bool)
  | opened (writes : Bool) (name : Str)

/-- Stores by name, with a mark that says if a program was done with it, and the object. -/
structure Abs (α : Type) where
  files : Str → Option (Store α × Bool)
  obj : State

/-- One store put in place. -/
def Abs.put (a : Abs α) (n : Str) (s : Store α) (fin : Bool) (o : State) : Abs α :=
  ⟨fun m => if m = n then some (s, fin) else a.files m, o⟩

/-- The same disk, another state. -/
def Abs.now (a : Abs α) (o : State) : Abs α := ⟨a.files, o⟩

/-- Mark the store as finished if the object was made to write. -/
def Abs.finish (a : Abs α) (writes : Bool) (n : Str) (o : State) : Abs α :=
  match writes, a.files n with
  | true, some (s, _) => a.put n s true o
  | _, _ => a.now o

/-- What a call does and answers. -/
def Abs.step [DecidableEq α] (a : Abs α) : Call α → Abs α × Ans α
  | .construct n .trunc => (a.put n Store.init false (.opened true n), .done)
  | .construct n .rdw => match a.files n with
    | none => (a, .thrown)
    | some _ => (a.now (.opened true n), .done)
  | .construct n .rdonly => match a.files n with
    | some (_, true) => (a.now (.opened false n), .done)
    | _ => (a, .thrown)
  | .construct _ .excl => (a, .thrown)
  | .open n _ => match a.obj with
    | .shut wr => match a.files n with
      | none => (a, .thrown)
      | some _ => (a.finish wr n (.opened wr n), .done)
    | _ => (a, .thrown)
  | .close => match a.obj with
    | .opened wr n => (a.finish wr n (.shut wr), .done)
    | _ => (a, .thrown)
  | .flush => match a.obj with
    | .opened wr n => (a.finish wr n a.obj, .done)
    | _ => (a, .thrown)
  | .filename => match a.obj with
    | .opened _ n => (a, .name n)
    | _ => (a, .thrown)
  | .op o => match a.obj with
    | .opened true n => match a.files n with
      | some (s, fin) => if s.throws o then (a, .thrown) else (a.put n (s.step o) fin a.obj, .done)
      | none => (a, .thrown)
    | _ => (a, .thrown)
  | .exists g => match a.obj with
    | .opened _ n => match a.files n with
      | some (s, _) => (a, .answer (decide (h5path g ∈ s.groups)))
      | none => (a, .thrown)
    | _ => (a, .thrown)
  | .read v _ => match a.obj with
    | .opened _ n => match a.files n with
      | some (s, _) => match s.vals (h5path v) with
        | some x => (a, .value x)
        | none => (a, .thrown)
      | none => (a, .thrown)
    | _ => (a, .thrown)
  | .destroy => match a.obj with
    | .opened wr n => (a.finish wr n .gone, .done)
    | _ => (a.now .gone, .done)

/-- The calls that are considered; `K` gives for each file what each name is used for.  A shut object is opened again only for what
it was made for and not to make a new file, `ACC_EXCL` is left out, a reader does not write, and a shut object is not used (see
`shut_fails`, `reopen_new_fails`, `reopen_read_fails`,
`reopen_write_fails`, `excl_destroy_fails` and `reader_writes_fails`). -/
def Legal (K : Str → Name → Option LeafKind) (a : Abs α) : Call α → Prop
  | .construct _ m => a.obj = .gone ∧ m ≠ .excl
  | .open _ m => (∃ wr f, a.obj = .opened wr f) ∨ (a.obj = .shut true ∧ m = .rdw) ∨ (a.obj = .shut false ∧ m = .rdonly)
  | .close => ∃ wr f, a.obj = .opened wr f
  | .flush => ∃ wr f, a.obj = .opened wr f
  | .filename => ∃ wr f, a.obj = .opened wr f
  | .op o => ∃ f, a.obj = .opened true f ∧ o.Ok (K f)
  | .exists g => ∃ wr f n, a.obj = .opened wr f ∧ g = Name.text n ∧ Good n
  | .read v k => ∃ wr f n, a.obj = .opened wr f ∧ v = Name.text n ∧ Good n ∧ K f n = some k
  | .destroy => a.obj ≠ .gone

/-- Every call of the list is one of those. -/
def LegalAll [DecidableEq α] (K : Str → Name → Option LeafKind) (a : Abs α) : List (Call α) → Prop
  | [] => True
  | c :: cs => Legal K a c ∧ LegalAll K (a.step c).1 cs

/-- What a list of calls does and answers. -/
def Abs.run [DecidableEq α] (a : Abs α) : List (Call α) → Abs α × List (Ans α)
  | [] => (a, [])
  | c :: cs => (((a.step c).1.run cs).1, (a.step c).2 :: ((a.step c).1.run cs).2)

end Verif.IoNg.Life
