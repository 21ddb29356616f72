import Verif.Geom.ModelInput

/-!
# Model of the connections of a superblock, src/Geometry/GeometryTerm.h and src/Geometry/Geometry.h

While a lattice is grown, the system is the sites up to `smax` and the environment the sites from `emin` on; the sites
between are left out.
-/

namespace Verif.Geom

open Verif.Dense Verif.Loop

variable {α : Type}

/-- The virtual functions `fringe` and `getSubstituteSite`, src/Geometry/GeometryBase.h:111-113; `none` is a failed assertion. -/
structure Ends where
  fringe : Nat → Nat → Nat → Option Bool
  substitute : Nat → Nat → Nat → Option Nat

/-- Those of a chain, src/Geometry/LongChain.h:160-178. -/
def chainEnds (g : LongChain) : Ends := ⟨fun i s e => some (g.fringe i s e), g.getSubstituteSite⟩

/-- Those of a ladder, src/Geometry/Ladder.h:179-206. -/
def ladderEnds (g : Ladder) : Ends := ⟨fun i s e => some (g.fringe i s e), g.getSubstituteSite⟩

/-- Those of a star, src/Geometry/Star.h:126-135. -/
def starEnds : Ends := ⟨fun i _ e => some (i == e), fun _ _ site => some site⟩

/-- `LadderX::fringe`, src/Geometry/LadderX.h:172-181; the differences wrap. -/
def LadderX.fringe (i smax emin : Nat) : Bool :=
  if smax % 2 = 1 then (decide (i < emin) && decide (i ≥ sub64 smax 1)) || (decide (i > smax) && decide (i ≤ emin + 1))
  else (decide (i < emin) && decide (i ≥ sub64 smax 2)) || (decide (i > smax) && decide (i ≤ emin + 2))

/-- Those of a ladder with diagonals, with `getSubstituteSite`, src/Geometry/LadderX.h:202-205. -/
def ladderxEnds : Ends := ⟨fun i s e => some (LadderX.fringe i s e), fun smax emin site => some ((sub64 (smax + site) emin + 1) % 2 ^ 64)⟩

/-- `LadderBath::fringe` with `fringeInCluster`, src/Geometry/LadderBath.h:171-177 and 268-275; the differences wrap. -/
def LadderBath.fringe (g : LadderBath) (i smax emin : Nat) : Option Bool := do
  let c ← g.getClusterSite i
  let first := (g.clusterSize / 2) * g.bathSitesPerSite
  match c with
  | some _ => some false
  | none => some (g.ladder.fringe (sub64 i first) (sub64 smax first) (sub64 emin first))

/-- `LadderBath::getSubstituteSite`, src/Geometry/LadderBath.h:199-217; `none` is also the exception for a site of the bath. -/
def LadderBath.getSubstituteSite (g : LadderBath) (smax emin site : Nat) : Option Nat := do
  let c ← g.getClusterSite site
  let first := (g.clusterSize / 2) * g.bathSitesPerSite
  match c with
  | some _ => none
  | none => (g.ladder.getSubstituteSite (sub64 smax first) (sub64 emin first) (sub64 site first)).map (· + first)

/-- Those of a ladder with a bath. -/
def bathEnds (g : LadderBath) : Ends := ⟨g.fringe, g.getSubstituteSite⟩

/-- `KTwoNiFFour::fringe`, src/Geometry/KTwoNiFFour.h:199-213 and 328-377; the differences wrap. -/
def KTwo.fringe (i smax emin : Nat) : Bool :=
  match smax % 4 with
  | 0 => i == smax || i == emin
  | 1 => (i == smax || i == sub64 smax 1) || (i == emin || i == emin + 1 || i == emin + 2)
  | 2 => i == sub64 smax 2 || i == emin + 2
  | _ => i == emin || i == smax || i == sub64 smax 1 || i == sub64 smax 2

/-- `KTwoNiFFour::getSubstituteSite`, src/Geometry/KTwoNiFFour.h:224-239 and 333-377. -/
def KTwo.getSubstituteSite (smax emin i : Nat) : Option Nat :=
  match smax % 4 with
  | 0 => some (smax + 3)
  | 1 => if i = emin then some (smax + 3) else if i = emin + 1 then some (smax + 2) else if i = emin + 2 then some (smax + 4) else none
  | 2 => if i = emin + 2 then some (smax + 1) else none
  | _ => if i = emin then some (smax + 1) else none

/-- Those of `KTwoNiFFour`. -/
def ktwoEnds : Ends := ⟨fun i s e => some (KTwo.fringe i s e), KTwo.getSubstituteSite⟩

/-- Those of a honeycomb lattice; `getSubstituteSite` only throws (src/Geometry/Honeycomb.h:171-175). -/
def honeyEnds (g : Honeycomb) : Ends := ⟨g.fringe, fun _ _ _ => none⟩

/-- `bothFringe`, src/Geometry/GeometryTerm.h:330, 355. -/
def bothFringe (f : Ends) (smax emin i1 i2 : Nat) : Option Bool := do
  let a ← f.fringe i1 smax emin
  if a then f.fringe i2 smax emin else some false

/-- `GeometryTerm::operator()(smax, emin, …)`, src/Geometry/GeometryTerm.h:326-347. -/
def superValue (b : Base) (f : Ends) (orbitals : Nat) (cached : Mat α) (smax emin i1 edof1 i2 edof2 : Nat) : Option α := do
  let both ← bothFringe f smax emin i1 i2
  if both then
    if i2 < i1 then do
      let s ← f.substitute smax emin i1
      termValue b orbitals cached i2 edof2 s edof1
    else do
      let s ← f.substitute smax emin i2
      termValue b orbitals cached i1 edof1 s edof2
  else termValue b orbitals cached i1 edof1 i2 edof2

/-- `GeometryTerm::connected(smax, emin, …)`, src/Geometry/GeometryTerm.h:349-361. -/
def superConnected (b : Base) (f : Ends) (smax emin i1 i2 : Nat) : Option Bool :=
  if i1 = i2 then some false
  else do
    let both ← bothFringe f smax emin i1 i2
    if !both then b.connected i1 i2 else some true

/-- `Geometry::operator()(smax, emin, …)`, src/Geometry/Geometry.h:174-180, with the ends of the terms. -/
def Geo.superValue (g : Geo α) (ends : List Ends) (smax emin i1 edof1 i2 edof2 term : Nat) : Option α := do
  let t ← g.terms[term]?
  let b ← t.base
  let f ← ends[term]?
  if smax + 1 = emin then termValue b t.orbitals t.cached i1 edof1 i2 edof2
  else Geom.superValue b f t.orbitals t.cached smax emin i1 edof1 i2 edof2

/-- The loop of `Geometry::connected`, src/Geometry/Geometry.h:187-200; each term with its ends.  A `Super` geometry (no base) is
connected nowhere if nothing is left out (src/Geometry/GeometryTerm.h:363-367), and an assertion fails otherwise. -/
def connectedLoop (smax emin i1 i2 : Nat) : List (Option Base × Ends) → Bool → Option Bool
  | [], acc => some acc
  | (b, f) :: ts, acc => do
    let c ← (if smax + 1 = emin then (match b with | some b => b.connected i1 i2 | none => some false)
      else (match b with | some b => superConnected b f smax emin i1 i2 | none => if i1 = i2 then some false else none))
    connectedLoop smax emin i1 i2 ts (acc || c)

/-- `Geometry::connected`, src/Geometry/Geometry.h:187-200. -/
def geoConnected (ts : List (Option Base × Ends)) (smax emin i1 i2 : Nat) : Option Bool := connectedLoop smax emin i1 i2 ts false

/-- `ConnectionEnum`, of the class of constants that is a parameter of the geometry. -/
inductive Kind
  | systemSystem
  | systemEnviron
  | environSystem
  | environEnviron
  deriving DecidableEq

/-- `connectionKind`, src/Geometry/Geometry.h:158-172. -/
def connectionKind (smax ind jnd : Nat) : Kind :=
  if ind < smax + 1 ∧ jnd ≥ smax + 1 then .systemEnviron
  else if jnd < smax + 1 ∧ ind ≥ smax + 1 then .environSystem
  else if ind < smax + 1 then .systemSystem
  else .environEnviron

end Verif.Geom
