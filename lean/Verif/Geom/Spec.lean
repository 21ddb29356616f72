import Mathlib.Data.Nat.Basic

/-!
# What `HowToConstructANewGeometry.txt` asks of a geometry
-/

namespace Verif.Geom

/-- Connections form a graph on the sites: symmetric, no site connected to itself. -/
structure IsGraph (N : Nat) (conn : Nat → Nat → Prop) : Prop where
  symm : ∀ i j, i < N → j < N → conn i j → conn j i
  irrefl : ∀ i, i < N → ¬ conn i i

/-- Handles of connections are distinct and in range (`none` = failed assertion or UB). -/
structure Injects (N : Nat) (conn : Nat → Nat → Prop) (hdl : Nat → Nat → Option Nat) (size : Nat) : Prop where
  lt : ∀ i j, i < N → j < N → conn i j → ∃ h, hdl i j = some h ∧ h < size
  symm : ∀ i j, i < N → j < N → conn i j → hdl i j = hdl j i
  inj : ∀ i j k l, i < j → j < N → k < l → l < N → conn i j → conn k l → hdl i j = hdl k l → i = k ∧ j = l

/-- Handles enumerate the connections from `0` to `size - 1`. -/
structure Enumerates (N : Nat) (conn : Nat → Nat → Prop) (hdl : Nat → Nat → Option Nat) (size : Nat) : Prop
    extends Injects N conn hdl size where
  surj : ∀ h, h < size → ∃ i j, i < j ∧ j < N ∧ conn i j ∧ hdl i j = some h

/-- Neighbours on a path (`per = false`) or a cycle (`per = true`) of `n` sites. -/
def Adj (n : Nat) (per : Bool) (a b : Nat) : Prop :=
  a ≠ b ∧ (a + 1 = b ∨ b + 1 = a ∨ (per = true ∧ ((a + 1) % n = b ∨ (b + 1) % n = a)))

/-- System fringe relative to `smax`. -/
def SysFringe (N : Nat) (conn : Nat → Nat → Prop) (smax i : Nat) : Prop :=
  i ≤ smax ∧ ∃ j, smax + 1 ≤ j ∧ j < N ∧ conn i j

/-- Environ fringe relative to `emin`. -/
def EnvFringe (N : Nat) (conn : Nat → Nat → Prop) (emin i : Nat) : Prop :=
  emin ≤ i ∧ i < N ∧ ∃ j, j < emin ∧ conn i j

end Verif.Geom
