import Verif.Util.Out

/-!
# Model of `DeepCopyOrNot`: copies that live as long as the object that made them
-/

namespace Verif.Copy

variable {V : Type}

/-- Objects at their addresses; `none`: no object is there. -/
abbrev Heap (V : Type) := Nat → Option V

/-- One address is changed. -/
def Heap.put (h : Heap V) (a : Nat) (v : Option V) : Heap V := fun b => if b = a then v else h b

/-- A `DeepCopyOrNot`, src/DeepCopyOrNot.h:44-45; `garbage_` has addresses. -/
structure Obj where
  isDeep : Bool
  garbage : List Nat

/-- Constructor, src/DeepCopyOrNot.h:14-17. -/
def Obj.make (isDeep : Bool) : Obj := ⟨isDeep, []⟩

/-- `operator()`, src/DeepCopyOrNot.h:28-36: `x` is the address of the argument, `fresh` the one that `new` finds.  The result is the
address of what is returned.  An argument that is no longer there is undefined. -/
def Obj.call (o : Obj) (h : Heap V) (fresh x : Nat) : Out (Obj × Heap V × Nat) :=
  match h x with
  | none => ubOut
  | some v => if o.isDeep then .ok (⟨true, o.garbage ++ [fresh]⟩, h.put fresh (some v), fresh) else .ok (o, h, x)

/-- `delete`: what is no longer there cannot be deleted. -/
def delete (h : Heap V) (a : Nat) : Out (Heap V) :=
  match h a with
  | none => ubOut
  | some _ => .ok (h.put a none)

/-- Destructor, src/DeepCopyOrNot.h:19-26. -/
def Obj.destroy (o : Obj) (h : Heap V) : Out (Heap V) := o.garbage.foldlM delete h

/-- What the program does while the object is there. -/
inductive Event (V : Type)
  /-- calls the object with what is at `x` (and `new` finds the address `fresh`) -/
  | call (fresh x : Nat)
  /-- makes an object of its own -/
  | make (a : Nat) (v : V)
  /-- changes an object of its own -/
  | change (a : Nat) (v : V)
  /-- deletes an object of its own -/
  | drop (a : Nat)

/-- The object, all objects, and for each call where the argument was, where the result is, and the value of the argument. -/
structure State (V : Type) where
  obj : Obj
  heap : Heap V
  log : List (Nat × Nat × Option V)

/-- One event; the object does its part as in src/DeepCopyOrNot.h. -/
def step (s : State V) : Event V → Out (State V)
  | .call fresh x => do
    let (o, h, r) ← s.obj.call s.heap fresh x
    return ⟨o, h, s.log ++ [(x, r, s.heap x)]⟩
  | .make a v => .ok { s with heap := s.heap.put a (some v) }
  | .change a v => if (s.heap a).isSome then .ok { s with heap := s.heap.put a (some v) } else ubOut
  | .drop a => do
    let h ← delete s.heap a
    return { s with heap := h }

/-- All events, from the construction on. -/
def run (isDeep : Bool) (h : Heap V) (evs : List (Event V)) : Out (State V) := evs.foldlM step ⟨.make isDeep, h, []⟩

end Verif.Copy
