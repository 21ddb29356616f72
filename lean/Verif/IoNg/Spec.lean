import Verif.IoNg.Model

/-!
# What a store is

Nothing here depends on how the values are laid out in the file.
-/

namespace Verif.IoNg

/-! ## Names -/

/-- A name is a list of parts. -/
abbrev Name := List Str

/-- The name as it is given to `write` and `read`: parts separated by slashes. -/
def Name.text : Name → Str
  | [] => []
  | [w] => w
  | w :: r => w ++ '/' :: Name.text r

/-- A part of a name: not empty and without slashes. -/
def IsPart (w : Str) : Prop := w ≠ [] ∧ '/' ∉ w

/-- Names a user may choose: `Canary` and parts that end in `ComplexOrReal` are taken. -/
def Good (n : Name) : Prop :=
  n ≠ [] ∧ ∀ w ∈ n, IsPart w ∧ w ≠ "Canary".toList ∧ ¬ "ComplexOrReal".toList <:+ w

/-! ## Values -/

/-- Values that are stored in one data set. -/
inductive Leaf (α : Type)
  | scalar (ty : Ty) (x : Num α)
  | text (s : Str)
  | bool (b : Bool)
  | vec (ty : Ty) (xs : List (Num α))
  | cvec (xs : List (α × α))
  | bools (v : List Bool)
  deriving DecidableEq

/-- Their types. -/
inductive LeafKind
  | scalar (ty : Ty)
  | text
  | bool
  | vec (ty : Ty)
  | cvec
  | bools
  deriving DecidableEq

/-- The type of a value. -/
def Leaf.kind {α : Type} : Leaf α → LeafKind
  | .scalar ty _ => .scalar ty
  | .text _ => .text
  | .bool _ => .bool
  | .vec ty _ => .vec ty
  | .cvec _ => .cvec
  | .bools _ => .bools

/-- The value is one of its type; strings and vectors of numbers are not empty (see `empty_vector_fails`). -/
def Leaf.Ok {α : Type} : Leaf α → Prop
  | .scalar ty x => x.Fits ty
  | .text s => s ≠ [] ∧ ∀ c ∈ s, c.toNat < 128
  | .bool _ => True
  | .vec ty xs => xs ≠ [] ∧ ∀ x ∈ xs, x.Fits ty
  | .cvec xs => xs ≠ []
  | .bools v => v.length < 2 ^ 32

/-! ## Calls -/

/-- A call that changes the file. -/
inductive Op (α : Type)
  | group (n : Name)
  | write (n : Name) (v : Leaf α) (m : Mode)

/-- The calls of the model. -/
def Leaf.write {α : Type} [DecidableEq α] (f : File α) (name : Str) (m : Mode) : Leaf α → Out (File α)
  | .scalar ty x => .ok (writeScalar f name ty x m)
  | .text s => writeString f name s m
  | .bool b => .ok (writeBool f name b m)
  | .vec ty xs => .ok (writeVector f name ty xs m)
  | .cvec xs => .ok (writeComplex f name xs m)
  | .bools v => writeBools f name v m

/-- Reading a value of a given type. -/
def Leaf.read {α : Type} [DecidableEq α] [Zero α] (h : H5 α) (f : File α) (name : Str) : LeafKind → Out (Leaf α)
  | .scalar ty => (readScalar h f name ty (.int 0)).map (.scalar ty)
  | .text => (readString h f name).map .text
  | .bool => (readBool h f name).map .bool
  | .vec ty => (readVector h f name ty).map (.vec ty)
  | .cvec => (readComplex h f name).map .cvec
  | .bools => (readBools h f name).map .bools

/-- The call of the model. -/
def Op.run {α : Type} [DecidableEq α] (f : File α) : Op α → Out (File α)
  | .group n => createGroup f n.text
  | .write n v m => v.write f n.text m

/-- A sequence of calls; a call that throws leaves the file as it was.  The results say which calls threw. -/
def runOps {α : Type} [DecidableEq α] (f : File α) : List (Op α) → Out (File α × List Bool)
  | [] => .ok (f, [])
  | op :: ops =>
    match op.run f with
    | .ok f => do
      let r ← runOps f ops
      return (r.1, false :: r.2)
    | .error .thrown => do
      let r ← runOps f ops
      return (r.1, true :: r.2)
    | .error .ub => ubOut

/-! ## The store -/

/-- A store: the groups and the values. -/
structure Store (α : Type) where
  groups : List Name
  vals : Name → Option (Leaf α)

/-- The store of a new file. -/
def Store.init {α : Type} : Store α := ⟨[], fun _ => none⟩

/-- The group that a name belongs to exists. -/
def Store.HasParent {α : Type} (s : Store α) (n : Name) : Prop := n.dropLast = [] ∨ n.dropLast ∈ s.groups

instance {α : Type} (s : Store α) (n : Name) : Decidable (s.HasParent n) := by unfold Store.HasParent; infer_instance

/-- The call throws: making a group that exists or that has no parent, overwriting a string. -/
def Store.throws {α : Type} (s : Store α) : Op α → Bool
  | .group n => decide (n ∈ s.groups) || decide (¬ s.HasParent n)
  | .write _ v m => decide (v.kind = .text ∧ m = .allow)

/-- The store after a call that does not throw.  A value is stored under its name, except that without permission to
overwrite the old value stays, and a value whose group does not exist is lost. -/
def Store.step {α : Type} (s : Store α) : Op α → Store α
  | .group n => { s with groups := n :: s.groups }
  | .write n v m =>
    if s.HasParent n ∧ (m = .allow ∨ s.vals n = none) then
      { s with vals := fun k => if k = n then some v else s.vals k }
    else s

/-- The store after a sequence of calls, and which of them throw. -/
def Store.run {α : Type} (s : Store α) : List (Op α) → Store α × List Bool
  | [] => (s, [])
  | op :: ops =>
    if s.throws op then
      let r := s.run ops
      (r.1, true :: r.2)
    else
      let r := (s.step op).run ops
      (r.1, false :: r.2)

/-- The calls that are considered: every name is used for one thing only; vectors of complex numbers are not
overwritten (see `overwrite_complex_fails`). -/
def Op.Ok {α : Type} (kindOf : Name → Option LeafKind) : Op α → Prop
  | .group n => Good n ∧ kindOf n = none
  | .write n v m => Good n ∧ kindOf n = some v.kind ∧ v.Ok ∧ (v.kind = .cvec → m = .no)

/-! ## Composite values -/

/-- The name with the last part extended by `ComplexOrReal`. -/
def mark : Name → Name
  | [] => []
  | [w] => [w ++ "ComplexOrReal".toList]
  | w :: r => w :: mark r

/-- The places in the file that belong to a name: its own, those below it, and that of its mark. -/
def Foot (n : Name) (q : Path) : Prop := ("Def".toList :: n) <+: q ∨ q = "Def".toList :: mark n

/-- A way of writing and reading values of a type that keeps them: under a name whose places are free and whose group
exists, `write` succeeds and changes only those places; `read` gives the value back, and depends on nothing else. -/
structure Codec.Lawful {α T : Type} (c : Codec α T) (ok : T → Prop) : Prop where
  writes : ∀ (f : File α) (n : Name) (x : T), n ≠ [] → (∀ w ∈ n, IsPart w) → ok x →
    f ("Def".toList :: n).dropLast = some .group → (∀ q, Foot n q → f q = none) →
    ∃ f', c.write f n.text x = .ok f' ∧ (∀ q, ¬ Foot n q → f' q = f q) ∧ ∀ h, c.read h f' n.text = .ok x
  local_ : ∀ (h : H5 α) (f g : File α) (n : Name), n ≠ [] → (∀ w ∈ n, IsPart w) →
    (∀ q, Foot n q → f q = g q) → c.read h f n.text = c.read h g n.text

/-! ## Sessions and crashes -/

/-- A call of a session: one that changes the file, or `flush`. -/
inductive Call (α : Type)
  | op (o : Op α)
  | flush

/-- The name is one a user may choose. -/
def Op.GoodName {α : Type} : Op α → Prop
  | .group n => Good n
  | .write n _ _ => Good n

/-- `flush`? -/
def Call.isFlush {α : Type} : Call α → Bool
  | .op _ => false
  | .flush => true

/-- The calls that change values. -/
def ops {α : Type} (calls : List (Call α)) : List (Op α) := calls.filterMap fun
  | .op o => some o
  | .flush => none

/-- The call of the model (src/Io/IoNgSerializer.h:112-118 for `flush`); a call that throws leaves the file as it was. -/
def Call.run {α : Type} [DecidableEq α] (f : File α) : Call α → Out (File α)
  | .op o =>
    match o.run f with
    | .ok f => .ok f
    | .error .thrown => .ok f
    | .error .ub => ubOut
  | .flush =>
    match writeCanary f with
    | .ok f => .ok f
    | .error .thrown => .ok f
    | .error .ub => ubOut

/-- A session. -/
def runCalls {α : Type} [DecidableEq α] (f : File α) : List (Call α) → Out (File α)
  | [] => .ok f
  | c :: cs =>
    match c.run f with
    | .ok f => runCalls f cs
    | .error e => .error e

/-- What may be on the disk when the program dies in a session: at every place nothing, or what was there at some moment
of the session (calls may be cut in the middle, and parts may reach the disk in any order). -/
def CrashDisk {α : Type} [DecidableEq α] (f0 : File α) (calls : List (Call α)) (disk : File α) : Prop :=
  ∀ q, disk q = none ∨ ∃ pre f, pre <+: calls ∧ runCalls f0 pre = .ok f ∧ disk q = f q

end Verif.IoNg
