import Verif.Crs.Model
import Verif.Util.While

/-! # Model of the assignment of a list of elements to a CRS matrix, src/CrsMatrix.h -/

namespace Verif.Crs

open Verif.Loop

variable {α : Type}

/-- `operator=` of a `VerySparseMatrix`, src/CrsMatrix.h:360-386.  The class is a parameter of the function; what is used of it is the
sizes, the flag and the list of rows, columns and values.  An exception and a failed assertion are `none`. -/
def ofVerySparse [Zero α] (sorted : Bool) (nrow ncol : Nat) (es : List (Nat × Nat × α)) : Option (Crs α) :=
  if !sorted then none
  else do
    let r ← loopN nrow (fun i (s : Crs α × Nat) => do
      let c ← setRow s.1 i s.2
      whileN es.length (fun s => decide (s.2 < es.length) && (es[s.2]?.map fun e => e.1) == some i) (fun (s : Crs α × Nat) => do
        let e ← es[s.2]?
        let c ← setCol s.1 s.2 e.2.1
        let c ← setValues c s.2 e.2.2
        some (c, s.2 + 1)) (c, s.2)) (resize3 ⟨[], [], [], 0, 0⟩ nrow ncol es.length, 0)
    let m ← setRow r.1 nrow r.2
    checkValidity m
    some m

end Verif.Crs
