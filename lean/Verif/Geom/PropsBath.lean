import Verif.Geom.PropsLadder
import Mathlib.Tactic.Ring

/-! # C31: ladder with bath sites -/

namespace Verif.Geom

open Verif.Loop

namespace LadderBath

/-- The lattice the constructor is meant for: an even number of cluster sites, all accounted for. -/
structure Valid (g : LadderBath) : Prop where
  even : g.clusterSize % 2 = 0
  pos : 0 < g.clusterSize
  total : g.linSize = (1 + g.bathSitesPerSite) * g.clusterSize
  ladder : g.ladder.Valid
  size : g.ladder.linSize = g.clusterSize

/-- First cluster site. -/
def first (g : LadderBath) : Nat := (g.clusterSize / 2) * g.bathSitesPerSite

/-- Sites of the cluster. -/
def InCluster (g : LadderBath) (i : Nat) : Prop := g.first ≤ i ∧ i < g.first + g.clusterSize

end LadderBath

open LadderBath

/-- The `k`-th bath site of cluster site `c`. -/
def bathSite (g : LadderBath) (c k : Nat) : Nat :=
  if c < g.first + g.clusterSize / 2 then (c - g.first) + k * (g.clusterSize / 2)
  else (c - (g.first + g.clusterSize / 2)) + k * (g.clusterSize / 2) + (g.first + g.clusterSize)

theorem bath_sizes (g : LadderBath) (hv : g.Valid) :
    0 < g.clusterSize / 2 ∧ g.clusterSize = 2 * (g.clusterSize / 2) ∧ g.linSize = 2 * g.first + g.clusterSize ∧
      g.first = g.bathSitesPerSite * (g.clusterSize / 2) := by
  have h1 := hv.even
  have h2 := hv.pos
  have e : g.clusterSize = 2 * (g.clusterSize / 2) := by omega
  refine ⟨by omega, e, ?_, Nat.mul_comm _ _⟩
  rw [hv.total]
  unfold LadderBath.first
  conv_lhs => rw [e]
  conv_rhs => rw [e]
  rw [show 2 * (g.clusterSize / 2) / 2 = g.clusterSize / 2 by omega]
  ring

theorem gcs_cluster (g : LadderBath) (i : Nat) (h : g.InCluster i) : g.getClusterSite i = some none := by
  unfold getClusterSite
  simp only
  exact if_pos h

theorem gcs_out (g : LadderBath) (i : Nat) (h : ¬ g.InCluster i) (h1 : 0 < g.clusterSize / 2) :
    g.getClusterSite i = if i < g.linSize / 2 then
      some (some (i % (g.clusterSize / 2) + g.first, i / (g.clusterSize / 2)))
    else some (some (sub64 i (g.first + g.clusterSize) % (g.clusterSize / 2) +
      (g.first + g.clusterSize - g.clusterSize / 2),
      sub64 i (g.first + g.clusterSize) / (g.clusterSize / 2))) := by
  unfold getClusterSite
  simp only
  unfold InCluster LadderBath.first at *
  rw [if_neg h, if_neg (Nat.pos_iff_ne_zero.1 h1)]

theorem gcs_bath (g : LadderBath) (hv : g.Valid) (i : Nat) (hi : i < g.linSize) (h : ¬ g.InCluster i) :
    ∃ c k, g.getClusterSite i = some (some (c, k)) ∧ g.InCluster c ∧ k < g.bathSitesPerSite ∧ i = bathSite g c k := by
  obtain ⟨h1, h2, h3, h4⟩ := bath_sizes g hv
  rw [gcs_out g i h h1]
  unfold InCluster bathSite at *
  generalize hcs : g.clusterSize / 2 = cs at *
  by_cases hlow : i < g.first
  · have hm := Nat.mod_lt i h1
    have e := Nat.div_add_mod i cs
    refine ⟨_, _, if_pos (by omega), by omega, ?_, ?_⟩
    · rw [Nat.div_lt_iff_lt_mul h1]; omega
    · rw [if_pos (by omega), Nat.mul_comm]; omega
  · rw [if_neg (by omega), sub64_le (by omega)]
    have hm := Nat.mod_lt (i - (g.first + g.clusterSize)) h1
    have e := Nat.div_add_mod (i - (g.first + g.clusterSize)) cs
    refine ⟨_, _, rfl, by omega, ?_, ?_⟩
    · rw [Nat.div_lt_iff_lt_mul h1]; omega
    · rw [if_neg (by omega), Nat.mul_comm]; omega

theorem gcs_bathSite (g : LadderBath) (hv : g.Valid) (c k : Nat) (hc : g.InCluster c)
    (hk : k < g.bathSitesPerSite) :
    bathSite g c k < g.linSize ∧ ¬ g.InCluster (bathSite g c k) ∧
      g.getClusterSite (bathSite g c k) = some (some (c, k)) := by
  obtain ⟨h1, h2, h3, h4⟩ := bath_sizes g hv
  have hb : ¬ g.InCluster (bathSite g c k) ∧ bathSite g c k < g.linSize := by
    unfold InCluster bathSite at *
    generalize hcs : g.clusterSize / 2 = cs at *
    have : (k + 1) * cs ≤ g.bathSitesPerSite * cs := Nat.mul_le_mul_right _ hk
    rw [Nat.add_mul] at this
    split_ifs with h <;> omega
  refine ⟨hb.2, hb.1, ?_⟩
  rw [gcs_out g _ hb.1 h1]
  unfold InCluster bathSite at *
  generalize hcs : g.clusterSize / 2 = cs at *
  have : (k + 1) * cs ≤ g.bathSitesPerSite * cs := Nat.mul_le_mul_right _ hk
  rw [Nat.add_mul] at this
  by_cases hl : c < g.first + cs
  · simp only [if_pos hl]
    rw [if_pos (by omega), Nat.add_mul_mod_self_right, Nat.mod_eq_of_lt (by omega),
      Nat.add_mul_div_right _ _ h1, Nat.div_eq_of_lt (by omega)]
    congr 3 <;> omega
  · simp only [if_neg hl]
    rw [if_neg (by omega), sub64_le (by omega), Nat.add_sub_cancel, Nat.add_mul_mod_self_right,
      Nat.mod_eq_of_lt (by omega), Nat.add_mul_div_right _ _ h1, Nat.div_eq_of_lt (by omega)]
    congr 3 <;> omega

/-- **C31** Every site is a cluster site or the `k`-th bath site of exactly one cluster site, and every
cluster site has exactly `BathSitesPerSite` bath sites. -/
theorem bath_partition (g : LadderBath) (hv : g.Valid) :
    (∀ i, i < g.linSize → (g.InCluster i ∧ g.getClusterSite i = some none) ∨
      (¬ g.InCluster i ∧ ∃ c k, g.getClusterSite i = some (some (c, k)) ∧ g.InCluster c ∧ k < g.bathSitesPerSite)) ∧
    (∀ c k, g.InCluster c → k < g.bathSitesPerSite →
      ∃ i, (i < g.linSize ∧ g.getClusterSite i = some (some (c, k))) ∧
        ∀ j, j < g.linSize → g.getClusterSite j = some (some (c, k)) → j = i) := by
  constructor
  · intro i hi
    by_cases h : g.InCluster i
    · exact Or.inl ⟨h, gcs_cluster g i h⟩
    · obtain ⟨c, k, h1, h2, h3, -⟩ := gcs_bath g hv i hi h
      exact Or.inr ⟨h, c, k, h1, h2, h3⟩
  · intro c k hc hk
    obtain ⟨h1, h2, h3⟩ := gcs_bathSite g hv c k hc hk
    refine ⟨bathSite g c k, ⟨h1, h3⟩, ?_⟩
    intro j hj h
    have hnj : ¬ g.InCluster j := by
      intro hin
      rw [gcs_cluster g j hin] at h
      simp at h
    obtain ⟨c', k', e1, -, -, e4⟩ := gcs_bath g hv j hj hnj
    rw [h] at e1
    simp only [Option.some.injEq, Prod.mk.injEq] at e1
    obtain ⟨rfl, rfl⟩ := e1
    exact e4

theorem first_le (g : LadderBath) (i : Nat) (h : g.InCluster i) : g.first ≤ i := h.1

/-- **C31** Who is connected to whom: cluster sites as in the ladder, a bath site to its cluster site
only. -/
theorem bath_connected (g : LadderBath) (hv : g.Valid) (i j : Nat) (hi : i < g.linSize) (hj : j < g.linSize) :
    ∃ b, g.connected i j = some b ∧ (b = true ↔
      (g.InCluster i ∧ g.InCluster j ∧ g.ladder.connected (i - g.first) (j - g.first) = true) ∨
      (g.InCluster i ∧ ∃ k, g.getClusterSite j = some (some (i, k))) ∨
      (g.InCluster j ∧ ∃ k, g.getClusterSite i = some (some (j, k)))) := by
  by_cases hij : i = j
  · subst hij
    refine ⟨false, by simp [LadderBath.connected], ?_⟩
    simp only [Bool.false_eq_true, false_iff]
    rintro (⟨-, -, h⟩ | ⟨h1, k, h⟩ | ⟨h1, k, h⟩)
    · simp [Ladder.connected] at h
    · rw [gcs_cluster g i h1] at h; simp at h
    · rw [gcs_cluster g i h1] at h; simp at h
  · unfold LadderBath.connected
    rw [if_neg hij]
    by_cases h1 : g.InCluster i <;> by_cases h2 : g.InCluster j
    · rw [gcs_cluster g i h1, gcs_cluster g j h2]
      simp only [bind, Option.bind_some]
      refine ⟨_, rfl, ?_⟩
      simp [h1, h2, LadderBath.first]
    · obtain ⟨c, k, e1, e2, e3, e4⟩ := gcs_bath g hv j hj h2
      rw [gcs_cluster g i h1, e1]
      simp only [bind, Option.bind_some]
      refine ⟨_, rfl, ?_⟩
      simp [h1, h2]
    · obtain ⟨c, k, e1, e2, e3, e4⟩ := gcs_bath g hv i hi h1
      rw [gcs_cluster g j h2, e1]
      simp only [bind, Option.bind_some]
      refine ⟨_, rfl, ?_⟩
      simp [h1, h2]
    · obtain ⟨c, k, e1, e2, e3, e4⟩ := gcs_bath g hv j hj h2
      obtain ⟨c', k', e1', e2', e3', e4'⟩ := gcs_bath g hv i hi h1
      rw [e1, e1']
      simp only [bind, Option.bind_some]
      refine ⟨_, rfl, ?_⟩
      simp [h1, h2]

/-- **C31** The lattice is a graph. -/
theorem bath_graph (g : LadderBath) (hv : g.Valid) : IsGraph g.linSize (fun i j => g.connected i j = some true) where
  symm := by
    intro i j hi hj h
    obtain ⟨b, h1, h2⟩ := bath_connected g hv i j hi hj
    obtain ⟨b', h1', h2'⟩ := bath_connected g hv j i hj hi
    rw [h1] at h
    rw [h1']
    simp only [Option.some.injEq] at h ⊢
    rw [h2'] ; rw [h2] at h
    rcases h with ⟨a, b, c⟩ | h | h
    · exact Or.inl ⟨b, a, by rwa [ladder_conn_symm]⟩
    · exact Or.inr (Or.inr h)
    · exact Or.inr (Or.inl h)
  irrefl := by intro i _; simp [LadderBath.connected]

/-- Connections of one direction (0 and 1 in the cluster, 2 to the bath). -/
def BathDir (g : LadderBath) (d i j : Nat) : Prop := g.connected i j = some true ∧ g.calcDir i j = some d

theorem bathDir_iff (g : LadderBath) (hv : g.Valid) (i j : Nat) (hi : i < g.linSize) (hj : j < g.linSize) :
    BathDir g 2 i j ↔ (∃ k, k < g.bathSitesPerSite ∧ g.InCluster i ∧ j = bathSite g i k) ∨
      (∃ k, k < g.bathSitesPerSite ∧ g.InCluster j ∧ i = bathSite g j k) := by
  obtain ⟨b, h1, h2⟩ := bath_connected g hv i j hi hj
  have back : ∀ a c k, a < g.linSize → g.InCluster c → g.getClusterSite a = some (some (c, k)) →
      k < g.bathSitesPerSite ∧ a = bathSite g c k := by
    intro a c k ha hc h
    have hna : ¬ g.InCluster a := by intro hin; rw [gcs_cluster g a hin] at h; simp at h
    obtain ⟨c', k', e1, e2, e3, e4⟩ := gcs_bath g hv a ha hna
    rw [h] at e1
    simp only [Option.some.injEq, Prod.mk.injEq] at e1
    obtain ⟨rfl, rfl⟩ := e1
    exact ⟨e3, e4⟩
  unfold BathDir
  rw [h1, Option.some.injEq]
  constructor
  · rintro ⟨hb, hd⟩
    rcases h2.1 hb with ⟨a, b, c⟩ | ⟨a, k, hk⟩ | ⟨a, k, hk⟩
    · exfalso
      unfold LadderBath.calcDir at hd
      rw [gcs_cluster g i a, gcs_cluster g j b] at hd
      simp only [bind, Option.bind_some, Ladder.calcDir] at hd
      split_ifs at hd <;> simp at hd
    · obtain ⟨x, y⟩ := back j i k hj a hk
      exact Or.inl ⟨k, x, a, y⟩
    · obtain ⟨x, y⟩ := back i j k hi a hk
      exact Or.inr ⟨k, x, a, y⟩
  · rintro (⟨k, hk, hin, rfl⟩ | ⟨k, hk, hin, rfl⟩)
    · obtain ⟨x, y, z⟩ := gcs_bathSite g hv i k hin hk
      refine ⟨h2.2 (Or.inr (Or.inl ⟨hin, k, z⟩)), ?_⟩
      unfold LadderBath.calcDir
      rw [gcs_cluster g i hin, z]; rfl
    · obtain ⟨x, y, z⟩ := gcs_bathSite g hv j k hin hk
      refine ⟨h2.2 (Or.inr (Or.inr ⟨hin, k, z⟩)), ?_⟩
      unfold LadderBath.calcDir
      rw [gcs_cluster g j hin, z]; rfl

theorem handle_bath (g : LadderBath) (hv : g.Valid) (c k : Nat) (hc : g.InCluster c) (hk : k < g.bathSitesPerSite) :
    g.handle c (bathSite g c k) = some ((c - g.first) * g.bathSitesPerSite + k) ∧
    g.handle (bathSite g c k) c = some ((c - g.first) * g.bathSitesPerSite + k) := by
  obtain ⟨x, y, z⟩ := gcs_bathSite g hv c k hc hk
  unfold LadderBath.handle
  rw [gcs_cluster g c hc, z]
  exact ⟨rfl, rfl⟩

/-- **C31** Handles of the bath direction enumerate the bath connections. -/
theorem bath_enumerates (g : LadderBath) (hv : g.Valid) : ∃ size, g.getVectorSize 2 = some size ∧
    Enumerates g.linSize (BathDir g 2) g.handle size := by
  obtain ⟨s1, s2, s3, s4⟩ := bath_sizes g hv
  have hlt : ∀ c k, g.InCluster c → k < g.bathSitesPerSite →
      (c - g.first) * g.bathSitesPerSite + k < g.bathSitesPerSite * g.clusterSize := by
    intro c k hc hk
    have : (c - g.first + 1) * g.bathSitesPerSite ≤ g.clusterSize * g.bathSitesPerSite :=
      Nat.mul_le_mul_right _ (by have := hc.1; have := hc.2; omega)
    rw [Nat.add_mul, Nat.mul_comm g.clusterSize] at this
    omega
  have hinj : ∀ c k c' k', g.InCluster c → k < g.bathSitesPerSite → g.InCluster c' → k' < g.bathSitesPerSite →
      (c - g.first) * g.bathSitesPerSite + k = (c' - g.first) * g.bathSitesPerSite + k' → c = c' ∧ k = k' := by
    intro c k c' k' hc hk hc' hk' h
    have hb : 0 < g.bathSitesPerSite := by omega
    have h1 := congrArg (· / g.bathSitesPerSite) h
    have h2 := congrArg (· % g.bathSitesPerSite) h
    rw [Nat.add_comm, Nat.add_mul_div_right _ _ hb, Nat.div_eq_of_lt hk, Nat.add_comm _ k',
      Nat.add_mul_div_right _ _ hb, Nat.div_eq_of_lt hk'] at h1
    rw [Nat.add_comm, Nat.add_mul_mod_self_right, Nat.mod_eq_of_lt hk, Nat.add_comm _ k',
      Nat.add_mul_mod_self_right, Nat.mod_eq_of_lt hk'] at h2
    have := hc.1
    have := hc'.1
    omega
  refine ⟨_, rfl, ⟨⟨?_, ?_, ?_⟩, ?_⟩⟩
  · intro i j hi hj h
    rcases (bathDir_iff g hv i j hi hj).1 h with ⟨k, hk, hin, rfl⟩ | ⟨k, hk, hin, rfl⟩
    · exact ⟨_, (handle_bath g hv i k hin hk).1, hlt i k hin hk⟩
    · exact ⟨_, (handle_bath g hv j k hin hk).2, hlt j k hin hk⟩
  · intro i j hi hj h
    rcases (bathDir_iff g hv i j hi hj).1 h with ⟨k, hk, hin, rfl⟩ | ⟨k, hk, hin, rfl⟩
    · rw [(handle_bath g hv i k hin hk).1, (handle_bath g hv i k hin hk).2]
    · rw [(handle_bath g hv j k hin hk).1, (handle_bath g hv j k hin hk).2]
  · intro i j k l hij hj hkl hl h1 h2 heq
    have cl : ∀ c k, g.InCluster c → k < g.bathSitesPerSite → ¬ g.InCluster (bathSite g c k) :=
      fun c k hc hk => (gcs_bathSite g hv c k hc hk).2.1
    rcases (bathDir_iff g hv i j (by omega) hj).1 h1 with ⟨m, hm, hin, rfl⟩ | ⟨m, hm, hin, rfl⟩ <;>
    rcases (bathDir_iff g hv k l (by omega) hl).1 h2 with ⟨m', hm', hin', rfl⟩ | ⟨m', hm', hin', rfl⟩
    · rw [(handle_bath g hv _ m hin hm).1, (handle_bath g hv _ m' hin' hm').1, Option.some.injEq] at heq
      obtain ⟨rfl, rfl⟩ := hinj _ _ _ _ hin hm hin' hm' heq
      exact ⟨rfl, rfl⟩
    · rw [(handle_bath g hv _ m hin hm).1, (handle_bath g hv _ m' hin' hm').2, Option.some.injEq] at heq
      obtain ⟨rfl, rfl⟩ := hinj _ _ _ _ hin hm hin' hm' heq
      omega
    · rw [(handle_bath g hv _ m hin hm).2, (handle_bath g hv _ m' hin' hm').1, Option.some.injEq] at heq
      obtain ⟨rfl, rfl⟩ := hinj _ _ _ _ hin hm hin' hm' heq
      omega
    · rw [(handle_bath g hv _ m hin hm).2, (handle_bath g hv _ m' hin' hm').2, Option.some.injEq] at heq
      obtain ⟨rfl, rfl⟩ := hinj _ _ _ _ hin hm hin' hm' heq
      exact ⟨rfl, rfl⟩
  · intro h hh
    have hb : 0 < g.bathSitesPerSite := by
      by_contra h0
      rw [show g.bathSitesPerSite = 0 by omega, Nat.zero_mul] at hh
      omega
    have hk := Nat.mod_lt h hb
    have hq : h / g.bathSitesPerSite < g.clusterSize := by
      rw [Nat.div_lt_iff_lt_mul hb, Nat.mul_comm]; exact hh
    have hin : g.InCluster (g.first + h / g.bathSitesPerSite) :=
      ⟨Nat.le_add_right _ _, Nat.add_lt_add_left hq _⟩
    have hval : (g.first + h / g.bathSitesPerSite - g.first) * g.bathSitesPerSite + h % g.bathSitesPerSite = h := by
      rw [Nat.add_sub_cancel_left, Nat.mul_comm]; exact Nat.div_add_mod h _
    obtain ⟨x, y, z⟩ := gcs_bathSite g hv _ _ hin hk
    have hcl : g.first + h / g.bathSitesPerSite < g.linSize := by have := hin.2; omega
    rcases Nat.lt_trichotomy (g.first + h / g.bathSitesPerSite)
      (bathSite g (g.first + h / g.bathSitesPerSite) (h % g.bathSitesPerSite)) with hc | hc | hc
    · refine ⟨_, _, hc, x, (bathDir_iff g hv _ _ hcl x).2 (Or.inl ⟨_, hk, hin, rfl⟩), ?_⟩
      rw [(handle_bath g hv _ _ hin hk).1, hval]
    · rw [← hc] at y; exact absurd hin y
    · refine ⟨_, _, hc, hcl, (bathDir_iff g hv _ _ x hcl).2 (Or.inr ⟨_, hk, hin, rfl⟩), ?_⟩
      rw [(handle_bath g hv _ _ hin hk).2, hval]

theorem bathDir_cluster (g : LadderBath) (hv : g.Valid) (d : Nat) (hd : d ≠ 2) (i j : Nat) (hi : i < g.linSize)
    (hj : j < g.linSize) : BathDir g d i j ↔
      (g.InCluster i ∧ g.InCluster j ∧ LadderDir g.ladder d (i - g.first) (j - g.first)) := by
  obtain ⟨b, h1, h2⟩ := bath_connected g hv i j hi hj
  unfold BathDir LadderDir
  rw [h1, Option.some.injEq]
  have dirC : g.InCluster i → g.InCluster j → g.calcDir i j = g.ladder.calcDir (i - g.first) (j - g.first) := by
    intro a b
    unfold LadderBath.calcDir
    rw [gcs_cluster g i a, gcs_cluster g j b]; rfl
  constructor
  · rintro ⟨hb, hc⟩
    rcases h2.1 hb with ⟨a, b, c⟩ | ⟨a, k, hk⟩ | ⟨a, k, hk⟩
    · rw [dirC a b] at hc
      exact ⟨a, b, c, hc⟩
    · exfalso
      unfold LadderBath.calcDir at hc
      rw [gcs_cluster g i a, hk] at hc
      simp only [bind, Option.bind_some, Option.some.injEq] at hc
      exact hd hc.symm
    · exfalso
      unfold LadderBath.calcDir at hc
      rw [gcs_cluster g j a, hk] at hc
      simp only [bind, Option.bind_some, Option.some.injEq] at hc
      exact hd hc.symm
  · rintro ⟨a, b, c, e⟩
    exact ⟨h2.2 (Or.inl ⟨a, b, c⟩), by rw [dirC a b]; exact e⟩

/-- **C31** In the cluster, handles enumerate the connections of a direction whenever those of the
ladder do. -/
theorem bath_cluster_enumerates (g : LadderBath) (hv : g.Valid) (d size : Nat) (hd : d ≠ 2)
    (he : Enumerates g.ladder.linSize (LadderDir g.ladder d) g.ladder.handle size) :
    Enumerates g.linSize (BathDir g d) g.handle size := by
  obtain ⟨s1, s2, s3, s4⟩ := bath_sizes g hv
  have hsz := hv.size
  have hh : ∀ i j, g.InCluster i → g.InCluster j → g.handle i j = g.ladder.handle (i - g.first) (j - g.first) := by
    intro i j a b
    unfold LadderBath.handle
    rw [gcs_cluster g i a, gcs_cluster g j b]; rfl
  have hl : ∀ i, g.InCluster i → i - g.first < g.ladder.linSize := by
    intro i h; have := h.1; have := h.2; omega
  refine ⟨⟨?_, ?_, ?_⟩, ?_⟩
  · intro i j hi hj h
    obtain ⟨a, b, c⟩ := (bathDir_cluster g hv d hd i j hi hj).1 h
    rw [hh i j a b]
    exact he.lt _ _ (hl i a) (hl j b) c
  · intro i j hi hj h
    obtain ⟨a, b, c⟩ := (bathDir_cluster g hv d hd i j hi hj).1 h
    rw [hh i j a b, hh j i b a]
    exact he.symm _ _ (hl i a) (hl j b) c
  · intro i j k l hij hj hkl hl' h1 h2 heq
    obtain ⟨a, b, c⟩ := (bathDir_cluster g hv d hd i j (by omega) hj).1 h1
    obtain ⟨a', b', c'⟩ := (bathDir_cluster g hv d hd k l (by omega) hl').1 h2
    rw [hh i j a b, hh k l a' b'] at heq
    have := he.inj _ _ _ _ (show i - g.first < j - g.first by have := a.1; omega) (hl j b)
      (show k - g.first < l - g.first by have := a'.1; omega) (hl l b') c c' heq
    have := a.1; have := b.1; have := a'.1; have := b'.1
    omega
  · intro h hlt
    obtain ⟨i, j, hij, hj, hc, hv'⟩ := he.surj h hlt
    rw [hsz] at hj
    have ai : g.InCluster (i + g.first) := ⟨by omega, by omega⟩
    have aj : g.InCluster (j + g.first) := ⟨by omega, by omega⟩
    refine ⟨i + g.first, j + g.first, by omega, by omega, ?_, ?_⟩
    · refine (bathDir_cluster g hv d hd _ _ (by omega) (by omega)).2 ⟨ai, aj, ?_⟩
      rw [Nat.add_sub_cancel, Nat.add_sub_cancel]; exact hc
    · rw [hh _ _ ai aj, Nat.add_sub_cancel, Nat.add_sub_cancel]; exact hv'

/-- **C31** The constructor gives a valid lattice when the cluster size is even and the sites are all
accounted for. -/
theorem bath_ctor_valid (linSize b leg : Nat) (px py : Option Int) (junk : Bool) (g : LadderBath)
    (h : LadderBath.ctor linSize b leg px py junk = some (some g)) (hd : linSize % (1 + b) = 0)
    (he : linSize / (1 + b) % 2 = 0) (hp : 0 < linSize) : g.Valid := by
  unfold LadderBath.ctor at h
  simp only [bind] at h
  cases hl : Ladder.ctor (linSize / (1 + b)) leg px py junk with
  | none => rw [hl] at h; simp at h
  | some l =>
    rw [hl] at h
    simp only [Option.bind_some, Option.some.injEq] at h
    cases l with
    | none => simp at h
    | some l =>
      simp only [Option.map_some, Option.some.injEq] at h
      subst h
      have hpos : 0 < linSize / (1 + b) := Nat.div_pos (Nat.le_of_dvd hp (Nat.dvd_of_mod_eq_zero hd)) (by omega)
      obtain ⟨v, e, -⟩ := ladder_ctor_valid _ _ _ _ _ _ hl hpos
      exact ⟨he, hpos, (Nat.mul_div_cancel' (Nat.dvd_of_mod_eq_zero hd)).symm, v, e⟩

/-- **C31, violated part** With an odd number of cluster sites a bath connection gets a handle outside the
table, and one cluster site has no bath. -/
theorem bath_odd_fails : ∃ g, LadderBath.ctor 6 1 3 none (some 0) false = some (some g) ∧
    g.getVectorSize 2 = some 3 ∧ g.connected 3 5 = some true ∧ g.handle 3 5 = some 3 ∧
    ∀ i, i < 6 → g.getClusterSite i ≠ some (some (2, 0)) := by
  refine ⟨⟨6, 1, 3, ⟨3, 3, false, false⟩⟩, rfl, by decide, by decide, by decide, by decide⟩

/-- **C31, violated part** With one cluster site the remainder by zero is undefined. -/
theorem bath_single_fails : ∃ g, LadderBath.ctor 3 2 1 none (some 0) false = some (some g) ∧
    g.connected 0 1 = none := ⟨⟨3, 2, 1, ⟨1, 1, false, false⟩⟩, rfl, by decide⟩

example : (LadderBath.ctor 12 2 2 none none false) = some (some ⟨12, 2, 4, ⟨4, 2, false, false⟩⟩) := by rfl

/-- Four sites in two rows, each with two sites of bath. -/
def bath12 : LadderBath := ⟨12, 2, 4, ⟨4, 2, false, false⟩⟩

theorem bath12_valid : bath12.Valid := bath_ctor_valid 12 2 2 none none false bath12 rfl (by decide) (by decide) (by decide)

example := bath_connected bath12 bath12_valid 0 4 (by decide) (by decide)
example := bath_enumerates bath12 bath12_valid
example := bath_graph bath12 bath12_valid
example := bath_partition bath12 bath12_valid
example : ∃ size, Enumerates bath12.linSize (BathDir bath12 0) bath12.handle size := by
  obtain ⟨size, _, h⟩ := ladder_x_enumerates bath12.ladder bath12_valid.ladder (.inl rfl)
  exact ⟨size, bath_cluster_enumerates bath12 bath12_valid 0 size (by decide) h⟩

end Verif.Geom
