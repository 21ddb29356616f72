import Verif.Geom.ModelInput
import Verif.Geom.PropsTerm
import Verif.Geom.PropsLadderX
import Verif.Geom.PropsBath
import Verif.Geom.PropsHoneycomb

/-! # C35: the ladder with diagonals, the ladder with a bath and the honeycomb lattice -/

namespace Verif.Geom

open Verif Verif.Dense Verif.Loop

/-- **C35** A ladder with diagonals that is not periodic; if the values are not constant it has two legs. -/
theorem ladderx_good (g : LadderX) (hv : g.Open) (orbs : Nat) (const : Bool) (h2 : const = false → g.ladder.leg = 2) :
    Good (ladderxBase g) g.ladder.linSize orbs const where
  conn := by
    intro i j hi hj
    refine ⟨g.connected i j, rfl, ?_⟩
    simp only [ladderxBase, Option.some.injEq]
    have hg := ladderx_graph g
    have h1 := hg.symm i j hi hj
    have h2 := hg.symm j i hj hi
    rw [Bool.eq_iff_iff]
    exact ⟨h2, h1⟩
  irrefl := by intro i _; simp [ladderxBase, LadderX.connected]
  dir := by
    intro i j _ _ _
    refine ⟨g.calcDir i j, ?_, rfl, ?_⟩
    · simp only [ladderxBase]
      unfold LadderX.calcDir
      simp only []
      split_ifs <;> omega
    · simp only [ladderxBase, Option.some.injEq]
      exact (calcDir_symm g i j).symm
  sign := fun i j _ _ _ => ⟨1, rfl, rfl⟩
  hdl := by
    intro hc i j d hi hj h hdir
    simp only [ladderxBase, Option.some.injEq] at h hdir ⊢
    have hlt : d < 4 := by
      rw [← hdir]
      unfold LadderX.calcDir
      simp only []
      split_ifs <;> omega
    have key : ∀ size, Injects g.ladder.linSize (LadderXDir g d) g.handle size → ∃ n, g.handle i j = some n ∧ g.handle j i = some n ∧ n < size := by
      intro size hin
      obtain ⟨n, hn, hl⟩ := hin.lt i j hi hj ⟨h, hdir⟩
      exact ⟨n, hn, (hin.symm i j hi hj ⟨h, hdir⟩) ▸ hn, hl⟩
    have hsz : ∃ size, g.getVectorSize d = some size ∧ Injects g.ladder.linSize (LadderXDir g d) g.handle size := by
      rcases (show d = 0 ∨ d = 1 ∨ d = 2 ∨ d = 3 by omega) with rfl | rfl | rfl | rfl
      · obtain ⟨size, h1, h2⟩ := (ladderx_enumerates g hv).1
        exact ⟨size, h1, h2.toInjects⟩
      · obtain ⟨size, h1, h2⟩ := (ladderx_enumerates g hv).2
        exact ⟨size, h1, h2.toInjects⟩
      · exact ladderx_diagonals g hv (h2 hc) 2 (.inl rfl)
      · exact ladderx_diagonals g hv (h2 hc) 3 (.inr rfl)
    obtain ⟨size, h1, h2⟩ := hsz
    obtain ⟨n, q1, q2, q3⟩ := key size h2
    exact ⟨n, size, q1, q2, h1, q3⟩
  idx := fun i e hi he => default_idx g.ladder.linSize orbs i e hi he
  inj := fun i e i' e' k _ _ he he' => default_inj orbs i e i' e' k he he'

/-- **C35** A ladder with a bath. -/
theorem bath_good (g : LadderBath) (hv : g.Valid) (orbs : Nat) (const : Bool) : Good (bathBase g) g.linSize orbs const := by
  have hl := ladder_good g.ladder hv.ladder orbs const
  have hdirs : ∀ i j, i < g.linSize → j < g.linSize → g.connected i j = some true →
      (BathDir g 2 i j ∧ g.calcDir j i = some 2) ∨ (g.InCluster i ∧ g.InCluster j ∧ g.ladder.connected (i - g.first) (j - g.first) = true) := by
    intro i j hi hj h
    obtain ⟨b, e, hb⟩ := bath_connected g hv i j hi hj
    rw [h] at e
    cases e
    rcases hb.1 rfl with h1 | ⟨h1, k, h2⟩ | ⟨h1, k, h2⟩
    · exact .inr h1
    · left
      refine ⟨⟨h, ?_⟩, ?_⟩
      · unfold LadderBath.calcDir
        rw [gcs_cluster g i h1, h2]
        rfl
      · unfold LadderBath.calcDir
        rw [gcs_cluster g i h1, h2]
        rfl
    · left
      refine ⟨⟨h, ?_⟩, ?_⟩
      · unfold LadderBath.calcDir
        rw [gcs_cluster g j h1, h2]
        rfl
      · unfold LadderBath.calcDir
        rw [gcs_cluster g j h1, h2]
        rfl
  have hsub : ∀ i, g.InCluster i → i - g.first < g.ladder.linSize := by
    intro i h
    have h1 := h.1
    have h2 := h.2
    have := hv.size
    unfold LadderBath.first at *
    omega
  have hcal : ∀ i j, g.InCluster i → g.InCluster j → g.calcDir i j = g.ladder.calcDir (i - g.first) (j - g.first) := by
    intro i j a b
    unfold LadderBath.calcDir
    rw [gcs_cluster g i a, gcs_cluster g j b]
    rfl
  have hhan : ∀ i j, g.InCluster i → g.InCluster j → g.handle i j = g.ladder.handle (i - g.first) (j - g.first) := by
    intro i j a b
    unfold LadderBath.handle
    rw [gcs_cluster g i a, gcs_cluster g j b]
    rfl
  refine ⟨?_, ?_, ?_, fun i j _ _ _ => ⟨1, rfl, rfl⟩, ?_, fun i e hi he => default_idx g.linSize orbs i e hi he,
    fun i e i' e' k _ _ he he' => default_inj orbs i e i' e' k he he'⟩
  · intro i j hi hj
    obtain ⟨b, e, -⟩ := bath_connected g hv i j hi hj
    obtain ⟨b', e', -⟩ := bath_connected g hv j i hj hi
    refine ⟨b, e, ?_⟩
    have h1 := (bath_graph g hv).symm i j hi hj
    have h2 := (bath_graph g hv).symm j i hj hi
    simp only [e, e', Option.some.injEq] at h1 h2
    change g.connected j i = some b
    rw [e']
    congr 1
    rw [Bool.eq_iff_iff]
    exact ⟨h2, h1⟩
  · intro i hi
    simp [bathBase, LadderBath.connected]
  · intro i j hi hj h
    rcases hdirs i j hi hj h with ⟨h1, h2⟩ | ⟨h1, h2, h3⟩
    · exact ⟨2, by simp [bathBase], h1.2, h2⟩
    · obtain ⟨d, q1, q2, q3⟩ := hl.dir (i - g.first) (j - g.first) (hsub i h1) (hsub j h2) (by rw [← h3]; rfl)
      refine ⟨d, ?_, (hcal i j h1 h2).trans q2, (hcal j i h2 h1).trans q3⟩
      simp only [ladderBase, bathBase] at q1 ⊢
      omega
  · intro hc i j d hi hj h hdir
    rcases hdirs i j hi hj h with ⟨h1, h2⟩ | ⟨h1, h2, h3⟩
    · have hd : d = 2 := by
        have := h1.2
        change g.calcDir i j = some d at hdir
        rw [hdir] at this
        exact Option.some.inj this
      subst hd
      obtain ⟨size, q1, q2⟩ := bath_enumerates g hv
      obtain ⟨n, q3, q4⟩ := q2.lt i j hi hj h1
      exact ⟨n, size, q3, (q2.symm i j hi hj h1).symm.trans q3, q1, q4⟩
    · have hdl : g.ladder.calcDir (i - g.first) (j - g.first) = some d := (hcal i j h1 h2).symm.trans hdir
      obtain ⟨n, size, q1, q2, q3, q4⟩ := hl.hdl hc (i - g.first) (j - g.first) d (hsub i h1) (hsub j h2) (by rw [← h3]; rfl) hdl
      refine ⟨n, size, (hhan i j h1 h2).trans q1, (hhan j i h2 h1).trans q2, ?_, q4⟩
      change g.getVectorSize d = some size
      unfold LadderBath.getVectorSize
      rw [if_neg ?_]
      · exact q3
      · intro hd
        subst hd
        obtain ⟨d', p1, p2, -⟩ := hl.dir (i - g.first) (j - g.first) (hsub i h1) (hsub j h2) (by rw [← h3]; rfl)
        have p2' : g.ladder.calcDir (i - g.first) (j - g.first) = some d' := p2
        rw [hdl] at p2'
        cases p2'
        simp [ladderBase] at p1

theorem three (a b c : Option Bool) (d : Nat) (h : (do
    if ← a then return some 0
    else if ← b then return some 1
    else if ← c then return some 2
    else return none : Option (Option Nat)) = some (some d)) : d < 3 := by
  rcases a with _ | _ | _ <;> rcases b with _ | _ | _ <;> rcases c with _ | _ | _ <;> cases h <;> decide

theorem honey_lt (g : Honeycomb) (i j d : Nat) (h : g.connectedInternal i j = some (some d)) : d < 3 := by
  unfold Honeycomb.connectedInternal at h
  rw [ite_eq_iff'] at h
  by_cases h1 : i = j
  · exact absurd (h.1 h1) (by simp)
  · have h := h.2 h1
    rw [ite_eq_iff'] at h
    by_cases h2 : g.ly = 0
    · exact absurd (h.1 h2) (by simp)
    · exact three _ _ _ d (h.2 h2)

/-- **C35** A honeycomb lattice, with constant values (it has no handles). -/
theorem honey_good (g : Honeycomb) (hly : 0 < g.ly) (orbs : Nat) : Good (honeyBase g) g.linSize orbs true where
  conn := by
    intro i j _ _
    obtain ⟨b, e⟩ := Honeycomb.connected_total g hly i j
    refine ⟨b, e, ?_⟩
    simp only [honeyBase] at e ⊢
    unfold Honeycomb.connected at e ⊢
    rw [← e, Honeycomb.internal_symm]
  irrefl := by intro i _; simp [honeyBase, Honeycomb.connected, Honeycomb.connectedInternal]
  dir := by
    intro i j _ _ h
    simp only [honeyBase] at h ⊢
    unfold Honeycomb.connected at h
    cases hr : g.connectedInternal i j with
    | none => rw [hr] at h; cases h
    | some r =>
      rw [hr] at h
      cases r with
      | none => cases h
      | some d =>
        refine ⟨d, honey_lt g i j d hr, ?_, ?_⟩
        · unfold Honeycomb.calcDir
          rw [hr]
          rfl
        · unfold Honeycomb.calcDir
          rw [Honeycomb.internal_symm, hr]
          rfl
  sign := fun i j _ _ _ => ⟨1, rfl, rfl⟩
  hdl := by intro h; cases h
  idx := fun i e hi he => default_idx g.linSize orbs i e hi he
  inj := fun i e i' e' k _ _ he he' => default_inj orbs i e i' e' k he he'

/-- **C83** Of a Honeycomb neither a number of a bond in its direction nor a number of bonds is given: both throw. -/
theorem honey_throws (g : Honeycomb) (i j d : Nat) : (honeyBase g).handle i j = none ∧ (honeyBase g).getVectorSize d = none :=
  ⟨rfl, rfl⟩

/-- **C83** Neither is one given of a K2NiF4 lattice. -/
theorem ktwo_throws (linSize : Nat) (sc : Int) (i j d : Nat) :
    (ktwoBase linSize sc).handle i j = none ∧ (ktwoBase linSize sc).getVectorSize d = none :=
  ⟨rfl, rfl⟩

end Verif.Geom
