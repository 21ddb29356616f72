/-!
# Model of `MPI::pointByPointGather`, src/MpiYes.h:219-321

The three overloads (arithmetic or vector elements; objects with `send`/`recv` members;
pairs) have the same loops and differ in the messages of one element, see `Wire`.

The ranks run asynchronously.  A `MPI_Send` may complete by buffering (`Step.send`) or only
when the matching receive is posted (`Step.rendezvous`); which one happens is left open.
`MPI_Recv(source, tag)` takes the oldest buffered message with that source and tag (MPI's
non-overtaking rule).  Error codes, communicators and the choice between `mpiComm` and the
default communicator (src/MpiYes.h:237, 249 ignore the argument) are not modelled; ranks are
those of one communicator.
-/

namespace Verif.Gather

/-- The messages that carry one element: `tags t` are the tags used for the element sent
with tag `t`, `pack` the payloads in order, `unpack` what `recv` rebuilds. -/
structure Wire (α β : Type) where
  tags : Nat → List Nat
  pack : α → List β
  unpack : List β → Option α

/-- What a usable message format satisfies (not in the C++): as many payloads as tags, at
least one, and `unpack` inverts `pack`. -/
structure Wire.Lawful {α β : Type} (w : Wire α β) : Prop where
  len : ∀ t a, (w.tags t).length = (w.pack a).length
  ne : ∀ a, w.pack a ≠ []
  inv : ∀ a, w.unpack (w.pack a) = some a

/-- Arithmetic element: one message, src/MpiYes.h:117-126 and 171-179. -/
def scalar (α : Type) : Wire α α where
  tags := fun t => [t]
  pack := fun a => [a]
  unpack := fun l => match l with | [a] => some a | _ => none

/-- Pair: `first` with tag `t`, `second` with tag `2*t`, src/MpiYes.h:128-133, 181-186. -/
def pair (α β : Type) : Wire (α × β) (α ⊕ β) where
  tags := fun t => [t, 2 * t]
  pack := fun p => [Sum.inl p.1, Sum.inr p.2]
  unpack := fun l => match l with | [Sum.inl a, Sum.inr b] => some (a, b) | _ => none

/-- Vector of numbers: the size, then the data, both with tag `t`, src/MpiYes.h:135-151 and
188-201.  (`recv` resizes to the received size before receiving the data.) -/
def vector (α : Type) : Wire (List α) (Nat ⊕ List α) where
  tags := fun t => [t, t]
  pack := fun v => [Sum.inl v.length, Sum.inr v]
  unpack := fun l => match l with
    | [Sum.inl n, Sum.inr v] => if v.length = n then some v else none
    | _ => none

/-- `blockSize`, src/MpiYes.h:228-230: `v.size()/nprocs`, plus one if there is a remainder. -/
def blockSize (size nprocs : Nat) : Nat :=
  if size % nprocs ≠ 0 then size / nprocs + 1 else size / nprocs

/-- The loop `for (p = 0; p < blockSize; p++) { taskNumber = r*blockSize + p;
if (taskNumber >= v.size()) break; ... }`, src/MpiYes.h:233-236 and 244-247: the task numbers
for which the body is run. -/
def tasksLoop (size bs r : Nat) : Nat → Nat → List Nat
  | 0, _ => []
  | fuel + 1, p =>
    let taskNumber := r * bs + p
    if taskNumber ≥ size then [] else taskNumber :: tasksLoop size bs r fuel (p + 1)

/-- Task numbers of rank `r`. -/
def tasksOf (size nprocs r : Nat) : List Nat :=
  tasksLoop size (blockSize size nprocs) r (blockSize size nprocs) 0

/-- The sends of rank `r` (all addressed to rank 0), src/MpiYes.h:232-239; `v r t` is the
element `t` of the vector of rank `r`. -/
def sends {α β : Type} (w : Wire α β) (size nprocs root : Nat) (v : Nat → Nat → α) (r : Nat) :
    List (Nat × β) :=
  if r = root then []
  else (tasksOf size nprocs r).flatMap fun t => (w.tags t).zip (w.pack (v r t))

/-- The receives of the root, as `(source, task, tag)`, src/MpiYes.h:240-253. -/
def receives {α β : Type} (w : Wire α β) (size nprocs root : Nat) : List (Nat × Nat × Nat) :=
  ((List.range nprocs).filter (fun r => r ≠ root)).flatMap fun r =>
    (tasksOf size nprocs r).flatMap fun t => (w.tags t).map fun tag => (r, t, tag)

/-- State of the exchange: what each rank has still to send, the buffered messages
`chan source dest`, what the root still has to receive and the payloads it has received,
with the task they are for. -/
structure State (β : Type) where
  pc : Nat → List (Nat × β)
  chan : Nat → Nat → List (Nat × β)
  expect : List (Nat × Nat × Nat)
  log : List (Nat × β)

/-- Initial state. -/
def init {α β : Type} (w : Wire α β) (size nprocs root : Nat) (v : Nat → Nat → α) : State β where
  pc := sends w size nprocs root v
  chan := fun _ _ => []
  expect := receives w size nprocs root
  log := []

/-- One step; `root` is the receiving rank, messages are sent to rank 0. -/
inductive Step {β : Type} (root : Nat) : State β → State β → Prop
  | send (s r m rest) : s.pc r = m :: rest →
      Step root s { s with
        pc := fun k => if k = r then rest else s.pc k
        chan := fun a b => if a = r ∧ b = 0 then s.chan r 0 ++ [m] else s.chan a b }
  | recv (s r t tag rest pre x post) : s.expect = (r, t, tag) :: rest →
      s.chan r root = pre ++ (tag, x) :: post → (∀ m ∈ pre, m.1 ≠ tag) →
      Step root s { s with
        chan := fun a b => if a = r ∧ b = root then pre ++ post else s.chan a b
        expect := rest
        log := s.log ++ [(t, x)] }
  | rendezvous (s r t tag rest x prest) : s.expect = (r, t, tag) :: rest →
      s.pc r = (tag, x) :: prest → root = 0 → (∀ m ∈ s.chan r root, m.1 ≠ tag) →
      Step root s { s with
        pc := fun k => if k = r then prest else s.pc k
        expect := rest
        log := s.log ++ [(t, x)] }

/-- `n` steps. -/
inductive Steps {β : Type} (root : Nat) : Nat → State β → State β → Prop
  | refl (s) : Steps root 0 s s
  | tail (n s t u) : Steps root n s t → Step root t u → Steps root (n + 1) s u

/-- The root's element `t` afterwards: rebuilt from the payloads received for it, or the
root's own element if nothing was received for it. `none`: malformed messages. -/
def rootElement {α β : Type} (w : Wire α β) (own : Nat → α) (s : State β) (t : Nat) : Option α :=
  match (s.log.filter (fun m => m.1 = t)).map Prod.snd with
  | [] => some (own t)
  | l => w.unpack l

end Verif.Gather
