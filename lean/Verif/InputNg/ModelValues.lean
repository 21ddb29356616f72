import Verif.InputNg.Model
import Verif.Dense.Model

/-!
# Model of the reading of numbers, matrices and maps, src/InputNg.h

`num` reads one number from its text: `atof` with its check for numbers in floating point.
-/

namespace Verif.InputNg

open Verif.StrUtil

/-- `readline` of a number, src/InputNg.h:678-776, and `read` of a `SizeType`, lines 778-791: the text is converted before
the occurrence is removed. -/
def readValue {β : Type} (conv : Str → Out β) (r : Readable) (label : Str) : Out (β × Readable) := do
  let label2 ← label2label label
  match findFirst label2 r.mapStr with
  | none => throwOut
  | some (before, e, after) => do
    let val ← conv e.2
    let (m, rem) ← clean label2 r.mapStr (before ++ after) r.removal false
    return (val, { r with mapStr := m, removal := rem })

/-- `val = atoi(…)` for an `int` or a `long int`, src/InputNg.h:722, 770. -/
def asInt (s : Str) : Out Int := ofNested (atoi s)

/-- `val = atoi(…)` for a `SizeType`, src/InputNg.h:746, 788: a negative number becomes a huge one. -/
def asSize (s : Str) : Out Nat := do
  let n ← ofNested (atoi s)
  return (n % 2 ^ 64).toNat

/-- One element of a matrix, src/InputNg.h:851, 887-888; with the matrix, the position `k` in the list. -/
def element {β : Type} (num : Str → Out β) (s : List Str) (i : Nat) (st : Dense.Mat β × Nat) (j : Nat) : Out (Dense.Mat β × Nat) :=
  match s[st.2]? with
  | none => ubOut
  | some x =>
    match num x with
    | .error e => .error e
    | .ok a =>
      match st.1.set i j a with
      | none => ubOut
      | some m => .ok (m, st.2 + 1)

/-- The loops over the elements of a matrix, src/InputNg.h:849-851, 885-890. -/
def elements {β : Type} (num : Str → Out β) (s : List Str) (nrow ncol : Nat) (m : Dense.Mat β) : Out (Dense.Mat β × Nat) :=
  (List.range nrow).foldlM (fun st i => (List.range ncol).foldlM (element num s i) st) (m, 2)

/-- A matrix from its list, src/InputNg.h:840-851, 876-890, after the sizes `a` and `b` were read. -/
def matrixSized {β : Type} [Zero β] (num : Str → Out β) (s : List Str) (a b : Int) (m : Dense.Mat β) : Out (Dense.Mat β) :=
  if a ≤ 0 ∨ b ≤ 0 then throwOut
  else
    match m.resize a.toNat b.toNat with
    | none => throwOut
    | some m =>
      if s.length < 2 + a.toNat * b.toNat then throwOut
      else (elements num s a.toNat b.toNat m).map Prod.fst

/-- A matrix of real numbers from its list, src/InputNg.h:830-851: both sizes are looked at before the length of the list
is tested. -/
def realMatrix {β : Type} [Zero β] (num : Str → Out β) (s : List Str) (m : Dense.Mat β) : Out (Dense.Mat β) :=
  match s with
  | [] => ubOut
  | [x] =>
    match asInt x with
    | .error e => .error e
    | .ok _ => ubOut
  | x :: y :: _ => do
    let a ← asInt x
    let b ← asInt y
    matrixSized num s a b m

/-- A matrix of complex numbers from its list, src/InputNg.h:870-890: the second size is not looked at if the first one is
not positive. -/
def complexMatrix {β : Type} [Zero β] (num : Str → Out β) (s : List Str) (m : Dense.Mat β) : Out (Dense.Mat β) :=
  match s with
  | x :: y :: _ => do
    let a ← asInt x
    if a ≤ 0 then throwOut
    else do
      let b ← asInt y
      matrixSized num s a b m
  | _ => throwOut

/-- `read` of a matrix, src/InputNg.h:816-854, 856-892, with the conversion of the list as a parameter. -/
def readMatrix {β : Type} (conv : List Str → Out β) (r : Readable) (label : Str) : Out (β × Readable) := do
  let label2 ← label2label label
  match findFirst label2 r.mapVec with
  | none => throwOut
  | some (before, e, after) => do
    let val ← conv e.2
    let (m, rem) ← clean label2 r.mapVec (before ++ after) r.removal false
    return (val, { r with mapVec := m, removal := rem })

/-- One round of `read` of a map, src/InputNg.h:905-925: `erase(0, n)` takes at most what there is, and `erase` after the
end of an empty string throws. -/
def mapEntry {β : Type} (label2 : Str) (num : Str → Out β) (val : Str → Option β) (e : Str × Str) : Out (Str → Option β) :=
  if ¬ label2 <:+: e.1 then .ok val
  else if '[' ∉ e.1 then .ok val
  else if ']' ∉ e.1 then throwOut
  else if e.1.drop (label2.length + 1) = [] then throwOut
  else
    match num e.2 with
    | .error b => .error b
    | .ok v => .ok (Function.update val (e.1.drop (label2.length + 1)).dropLast (some v))

/-- `read` of a map, src/InputNg.h:894-926; the map is the function from its keys to their values. -/
def readMap {β : Type} (num : Str → Out β) (r : Readable) (label : Str) (val : Str → Option β) : Out (Str → Option β) := do
  let label2 ← label2label label
  r.mapStr.foldlM (mapEntry label2 num) val

end Verif.InputNg
