import Verif.Krylov.Model
import Verif.Util.Out

/-!
# Model of a `LanczosCore` that is used more than once
-/

namespace Verif.Krylov

open Verif.Loop

noncomputable section

variable {𝕜 : Type} [RCLike 𝕜] {n : Nat}

/-- `decomposition`, src/LanczosCore.h:147-256, from line 184 on, as in `Krylov.decomposition` but for what is stored before: the
columns `data`, which are as many as the maximum number of steps. -/
def run (p : Params 𝕜 n) (maxn : Nat) (data : List (Fin n → 𝕜)) (init : Fin n → 𝕜) : Option (Result 𝕜 n) := do
  let V0 : Fin n → 𝕜 := fun i => init i * ((1 / Real.sqrt (reDot init init) : ℝ) : 𝕜)
  let a := List.replicate maxn (0 : ℝ)
  let b ← setAt (List.replicate maxn (0 : ℝ)) 0 0
  let data ← setAt data 0 V0
  let w := p.mul V0
  let atmp := reDot w V0
  let a ← setAt a 0 atmp
  let V1 : Fin n → 𝕜 := fun i => w i - (atmp : 𝕜) * V0 i
  let btmp := Real.sqrt (reDot V1 V1)
  let b ← setAt b 1 btmp
  let V1 := normalize V1 btmp
  let data ← (if 1 < maxn then setAt data 1 V1 else some data)
  let (j, data, a, b) ← loop p maxn (maxn - 1) 1 false V0 V1 data a b
  let k := if j < maxn then j + 1 else maxn
  return ⟨k, data.take k, a.take k, b.take k⟩

/-- What `data_` of `LanczosVectors` points to: a matrix with as many rows as the matrix of the problem, by columns, or with another
number of rows, the values of which never matter. -/
inductive Store (𝕜 : Type) (n : Nat)
  | vectors (cols : List (Fin n → 𝕜))
  | other (rows cols : Nat)

/-- The members of `LanczosCore` that change, src/LanczosCore.h:288-289: `steps_` and `lanczosVectors_`. -/
structure Core (𝕜 : Type) (n : Nat) where
  steps : Nat
  store : Option (Store 𝕜 n)

/-- The constructor, src/LanczosCore.h:121-133, src/LanczosVectors.h:114-131. -/
def Core.make (lotaMemory : Bool) (steps : Nat) : Out (Core 𝕜 n) :=
  if lotaMemory = false then throwOut else .ok ⟨steps, none⟩

/-- `prepareMemory(rows, steps)`, src/LanczosVectors.h:155-166, 268-285: the columns to write to. -/
def Store.prepare (s : Option (Store 𝕜 n)) (steps : Nat) : Out (List (Fin n → 𝕜)) :=
  match s with
  | none => .ok (List.replicate steps 0)
  | some (.vectors cols) => if cols.length ≠ steps then throwOut else .ok cols
  | some (.other _ _) => throwOut

/-- `decomposition(initVector, ab, …)`, src/LanczosCore.h:147-256, on an object with a history; `steps_` is changed because `max_nstep`
is a reference to it (lines 151, 180-181, 251-256). -/
def Core.decompose (c : Core 𝕜 n) (p : Params 𝕜 n) {m : Nat} (init : Fin m → 𝕜) : Out (Core 𝕜 n × Result 𝕜 n) :=
  if h : m = n then do
    let maxn := if c.steps > n then n else c.steps
    let cols ← Store.prepare c.store maxn
    match run p maxn cols (fun i => init (Fin.cast h.symm i)) with
    | none => ubOut
    | some r => .ok (⟨r.steps, some (.vectors r.data)⟩, r)
  else throwOut

/-- `lanczosVectorsSwap(V)`, src/LanczosCore.h:281-289. -/
def Core.swap (c : Core 𝕜 n) (V : Store 𝕜 n) : Out (Core 𝕜 n × Store 𝕜 n) :=
  match c.store with
  | none => throwOut
  | some s => .ok (⟨c.steps, some V⟩, s)

/-- Some decompositions in a row. -/
def Core.runs (c : Core 𝕜 n) : List (Params 𝕜 n × (Fin n → 𝕜)) → Out (List (Result 𝕜 n))
  | [] => .ok []
  | (p, init) :: l => do
    let (c, r) ← c.decompose p init
    let rs ← c.runs l
    return r :: rs

end

end Verif.Krylov
