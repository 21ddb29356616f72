import Verif.Geom.Model
import Verif.Geom.Spec
import Mathlib.Tactic.Linarith
import Mathlib.Data.Nat.ModEq

/-! # C28, C30, C34 (chain), C67 (chain) -/

namespace Verif.Geom

open Verif.Loop

theorem wrapLoop_spec (c l : Nat) (hl : 0 < l) : wrapLoop c l = some (c % l) := by
  obtain ⟨r, h1, ⟨h2, h2'⟩, h3⟩ := while_inv (fun x => x % l = c % l ∧ True) (fun x => x)
    (fun c => decide (c ≥ l)) (fun c => some (c - l)) c c ⟨rfl, trivial⟩ le_rfl (by
      rintro s ⟨h, -⟩ hc
      simp only [decide_eq_true_eq] at hc
      refine ⟨_, rfl, ⟨?_, trivial⟩, by omega⟩
      rw [← h, ← Nat.mod_eq_sub_mod hc])
  unfold wrapLoop
  rw [h1, ← h2, Nat.mod_eq_of_lt]
  simpa using h3

/-! ## LongChain -/

/-- **C28** In an open chain sites are connected when they are `distance` apart; in a periodic one
also across the boundary. -/
theorem chain_connected (g : LongChain) (hd : 0 < g.distance) (hL : g.distance < g.linSize) (i j : Nat)
    (hi : i < g.linSize) (hj : j < g.linSize) :
    g.connected i j = true ↔ (i + g.distance = j ∨ j + g.distance = i ∨
      (g.isPeriodic = true ∧ ((i + g.distance) % g.linSize = j ∨ (j + g.distance) % g.linSize = i))) := by
  have m1 : ∀ a, a < g.linSize → (a + g.distance) % g.linSize =
      if a + g.distance < g.linSize then a + g.distance else a + g.distance - g.linSize := by
    intro a ha
    split_ifs with h
    · exact Nat.mod_eq_of_lt h
    · rw [Nat.mod_eq_sub_mod (by omega), Nat.mod_eq_of_lt (by omega)]
  rw [m1 i hi, m1 j hj]
  unfold LongChain.connected
  rw [sub64_le hL.le]
  by_cases hij : i = j
  · subst hij
    simp only [if_true, Bool.false_eq_true, false_iff]
    rintro (h | h | ⟨-, h | h⟩)
    · omega
    · omega
    · split_ifs at h <;> omega
    · split_ifs at h <;> omega
  · rw [if_neg hij]
    cases g.isPeriodic
    · simp only [Bool.not_false, if_true, beq_iff_eq, Bool.false_eq_true, false_and, or_false]
      split_ifs <;> omega
    · simp only [Bool.not_true, Bool.false_eq_true, if_false, Bool.or_eq_true, beq_iff_eq, true_and]
      split_ifs <;> omega

/-- **C28** The chain is a graph. -/
theorem chain_graph (g : LongChain) (hd : 0 < g.distance) (hL : g.distance < g.linSize) :
    IsGraph g.linSize (fun i j => g.connected i j = true) where
  symm := by
    intro i j hi hj h
    rw [chain_connected g hd hL i j hi hj] at h
    rw [chain_connected g hd hL j i hj hi]
    tauto
  irrefl := by intro i _; simp [LongChain.connected]

/-- **C28** Open boundaries: handles enumerate the connections. -/
theorem chain_enumerates (g : LongChain) (hd : 0 < g.distance) (hL : g.distance < g.linSize)
    (hp : g.isPeriodic = false) : ∃ size, g.getVectorSize 0 = some size ∧
      Enumerates g.linSize (fun i j => g.connected i j = true) (fun i j => some (g.handle i j)) size := by
  have hc : ∀ i j, i < g.linSize → j < g.linSize → g.connected i j = true →
      (i + g.distance = j ∨ j + g.distance = i) := by
    intro i j hi hj h
    rw [chain_connected g hd hL i j hi hj, hp] at h
    simpa using h
  refine ⟨_, rfl, ⟨⟨?_, ?_, ?_⟩, ?_⟩⟩
  · intro i j hi hj h
    have := hc i j hi hj h
    refine ⟨_, rfl, ?_⟩
    rw [sub64_le hL.le, hp]
    unfold LongChain.handle
    split_ifs <;> omega
  · intro i j hi hj h
    have := hc i j hi hj h
    simp only [LongChain.handle]
    split_ifs <;> first | rfl | (congr 1; omega)
  · intro i j k l h1 h2 h3 h4 h5 h6 h7
    have e1 := hc i j (by omega) h2 h5
    have e2 := hc k l (by omega) h4 h6
    simp only [LongChain.handle, if_pos h1, if_pos h3, Option.some.injEq] at h7
    omega
  · intro h hh
    rw [sub64_le hL.le, hp] at hh
    simp only [Bool.false_eq_true, if_false, Nat.add_zero] at hh
    refine ⟨h, h + g.distance, by omega, by omega, ?_, ?_⟩
    · rw [chain_connected g hd hL _ _ (by omega) (by omega)]; simp
    · simp only [LongChain.handle]
      rw [if_pos (by omega)]

/-- **C28, violated part** Periodic boundaries: for every length the two bonds that meet at site 0
have the same handle, so the connector of one overwrites that of the other. -/
theorem chain_periodic_fails (g : LongChain) (hd : 0 < g.distance) (hL : g.distance < g.linSize)
    (hp : g.isPeriodic = true) (hne : 2 * g.distance ≠ g.linSize) :
    g.connected 0 g.distance = true ∧ g.connected 0 (g.linSize - g.distance) = true ∧
      g.distance ≠ g.linSize - g.distance ∧ g.handle 0 g.distance = g.handle 0 (g.linSize - g.distance) := by
  refine ⟨?_, ?_, by omega, ?_⟩
  · rw [chain_connected g hd hL _ _ (by omega) hL]; simp
  · rw [chain_connected g hd hL _ _ (by omega) (by omega), hp]
    right; right
    refine ⟨rfl, Or.inr ?_⟩
    rw [show g.linSize - g.distance + g.distance = g.linSize by omega, Nat.mod_self]
  · unfold LongChain.handle
    rw [if_pos hd, if_pos (by omega)]

/-- **C28, violated part** The constructor accepts a distance that is not smaller than the length
(it builds an exception without throwing it); the number of connections then wraps around. -/
theorem chain_ctor_fails : (LongChain.ctor 4 none (some 6)).getVectorSize 0 = some 18446744073709551614 := by
  simp [LongChain.ctor, LongChain.getVectorSize, sub64]

/-- **C67** Chain fringe sites are the documented ones (open boundaries). -/
theorem chain_fringe (g : LongChain) (hd : 0 < g.distance) (hL : g.distance < g.linSize)
    (hp : g.isPeriodic = false) (i smax emin : Nat) (h1 : smax < emin) (hi : i < g.linSize) :
    (i ≤ smax → (g.fringe i smax emin = true ↔ SysFringe g.linSize (fun i j => g.connected i j = true) smax i)) ∧
    (emin ≤ i → (g.fringe i smax emin = true ↔ EnvFringe g.linSize (fun i j => g.connected i j = true) emin i)) := by
  have hc : ∀ i j, i < g.linSize → j < g.linSize → (g.connected i j = true ↔
      (i + g.distance = j ∨ j + g.distance = i)) := by
    intro i j hi hj
    rw [chain_connected g hd hL i j hi hj, hp]
    simp
  unfold LongChain.fringe SysFringe EnvFringe
  constructor
  · intro hs
    rw [if_pos hs]
    simp only [Bool.and_eq_true, decide_eq_true_eq]
    constructor
    · rintro ⟨a, b⟩
      exact ⟨hs, i + g.distance, b, a, (hc _ _ hi a).2 (Or.inl rfl)⟩
    · rintro ⟨-, j, a, b, c⟩
      have := (hc _ _ hi b).1 c
      omega
  · intro he
    rw [if_neg (by omega)]
    simp only [Bool.and_eq_true, decide_eq_true_eq]
    constructor
    · rintro ⟨a, b⟩
      exact ⟨he, hi, i - g.distance, b, (hc _ _ hi (by omega)).2 (by omega)⟩
    · rintro ⟨-, -, j, a, b⟩
      have := (hc _ _ hi (by omega)).1 b
      omega

/-- **C67, violated part** With periodic boundaries a system site connected to the environment
across the boundary is not reported. -/
theorem chain_fringe_periodic_fails :
    SysFringe 6 (fun i j => (LongChain.ctor 6 (some 1) none).connected i j = true) 2 0 ∧
      (LongChain.ctor 6 (some 1) none).fringe 0 2 3 = false := by
  refine ⟨⟨by decide, 5, by decide, by decide, by decide⟩, by decide⟩

/-- **C67** The substitute of the first environment site is connected to the last system site. -/
theorem chain_substitute (g : LongChain) (hd : g.distance = 1) (smax emin : Nat) (h1 : smax < emin)
    (h2 : emin < g.linSize) :
    ∃ t, g.getSubstituteSite smax emin emin = some t ∧ t < g.linSize ∧ g.connected smax t = true := by
  refine ⟨smax + 1, ?_, by omega, ?_⟩
  · simp only [LongChain.getSubstituteSite, le_refl, ge_iff_le, if_true, Nat.sub_self, Nat.zero_add]
    rw [if_pos (by omega)]
  · rw [chain_connected g (by omega) (by omega) _ _ (by omega) (by omega), hd]
    simp

/-- **C67** Substitutes of sites of the environment: the environment moved to follow the system; only sites of the
environment that stay in the chain have one. -/
theorem chain_substitute_iff (g : LongChain) (smax emin site t : Nat) :
    g.getSubstituteSite smax emin site = some t ↔ emin ≤ site ∧ t + emin = site + smax + 1 ∧ t < g.linSize := by
  unfold LongChain.getSubstituteSite
  simp only []
  split
  · split
    · simp only [Option.some.injEq]; omega
    · simp only [reduceCtorEq, false_iff]; omega
  · simp only [reduceCtorEq, false_iff]; omega

example : (LongChain.ctor 6 (some 1) none).getSubstituteSite 1 4 5 = some 3 ∧
    (LongChain.ctor 6 (some 1) none).getSubstituteSite 4 4 5 = none := by decide

/-- **C34** Chain translations are addition modulo the length, so they compose additively and are
bijections. -/
theorem chain_translate (g : LongChain) (hL : 0 < g.linSize) (site a : Nat) :
    g.translate site 0 a = some ((site + a) % g.linSize) := by
  simp [LongChain.translate, wrapLoop_spec _ _ hL]

theorem add_mod_eq_iff {L x y a : Nat} (hx : x < L) (hy : y < L) : (x + a) % L = (y + a) % L ↔ x = y := by
  constructor
  · intro h
    have := Nat.ModEq.add_right_cancel (Nat.ModEq.refl a) h
    rwa [Nat.ModEq, Nat.mod_eq_of_lt hx, Nat.mod_eq_of_lt hy] at this
  · rintro rfl; rfl

/-- **C34** Translating twice adds the amounts; different sites stay different; and in a periodic
chain connectivity is preserved. -/
theorem chain_translate_group (g : LongChain) (hd : 0 < g.distance) (hL : g.distance < g.linSize)
    (x y a b : Nat) (hx : x < g.linSize) (hy : y < g.linSize) :
    ∃ tx ty, g.translate x 0 a = some tx ∧ g.translate y 0 a = some ty ∧ tx < g.linSize ∧
      g.translate tx 0 b = g.translate x 0 (a + b) ∧ (tx = ty → x = y) ∧
      (g.isPeriodic = true → g.connected tx ty = g.connected x y) := by
  have hpos : 0 < g.linSize := by omega
  refine ⟨_, _, chain_translate g hpos x a, chain_translate g hpos y a, Nat.mod_lt _ hpos, ?_, ?_, ?_⟩
  · rw [chain_translate g hpos, chain_translate g hpos, Nat.mod_add_mod, Nat.add_assoc]
  · exact (add_mod_eq_iff hx hy).1
  · intro hp
    rw [Bool.eq_iff_iff, chain_connected g hd hL _ _ (Nat.mod_lt _ hpos) (Nat.mod_lt _ hpos),
      chain_connected g hd hL _ _ hx hy, hp]
    have key : ∀ u v, u < g.linSize → v < g.linSize →
        (((u + a) % g.linSize + g.distance) % g.linSize = (v + a) % g.linSize ↔
          (u + g.distance) % g.linSize = v) := by
      intro u v hu hv
      rw [Nat.mod_add_mod, Nat.add_right_comm, ← Nat.mod_add_mod, add_mod_eq_iff (Nat.mod_lt _ hpos) hv]
    have plain : ∀ u v, u < g.linSize → v < g.linSize → u + g.distance = v → (u + g.distance) % g.linSize = v := by
      intro u v hu hv h; rw [h, Nat.mod_eq_of_lt hv]
    have k1 := key x y hx hy
    have k2 := key y x hy hx
    have l1 := Nat.mod_lt (x + a) hpos
    have l2 := Nat.mod_lt (y + a) hpos
    have p1 := plain x y hx hy
    have p2 := plain y x hy hx
    have p3 := plain _ _ l1 l2
    have p4 := plain _ _ l2 l1
    simp only [true_and]
    constructor
    · rintro (h | h | h | h)
      · exact Or.inr (Or.inr (Or.inl (k1.1 (p3 h))))
      · exact Or.inr (Or.inr (Or.inr (k2.1 (p4 h))))
      · exact Or.inr (Or.inr (Or.inl (k1.1 h)))
      · exact Or.inr (Or.inr (Or.inr (k2.1 h)))
    · rintro (h | h | h | h)
      · exact Or.inr (Or.inr (Or.inl (k1.2 (p1 h))))
      · exact Or.inr (Or.inr (Or.inr (k2.2 (p2 h))))
      · exact Or.inr (Or.inr (Or.inl (k1.2 h)))
      · exact Or.inr (Or.inr (Or.inr (k2.2 h)))

/-- **C34** Chain reflection is an involution on the sites and preserves connectivity. -/
theorem chain_reflection (g : LongChain) (hd : 0 < g.distance) (hL : g.distance < g.linSize) (x y : Nat)
    (hx : x < g.linSize) (hy : y < g.linSize) :
    g.findReflection x < g.linSize ∧ g.findReflection (g.findReflection x) = x ∧
      g.connected (g.findReflection x) (g.findReflection y) = g.connected x y := by
  have h : ∀ x, x < g.linSize → g.findReflection x = g.linSize - x - 1 := by
    intro x hx
    unfold LongChain.findReflection
    rw [sub64_le hx.le, sub64_le (by omega)]
  have lt : ∀ x, x < g.linSize → g.findReflection x < g.linSize := by
    intro x hx; rw [h x hx]; omega
  refine ⟨lt x hx, ?_, ?_⟩
  · rw [h _ (lt x hx), h x hx]; omega
  · rw [h x hx, h y hy]
    unfold LongChain.connected
    rw [sub64_le hL.le]
    rw [Bool.eq_iff_iff]
    cases g.isPeriodic <;> split_ifs <;> simp <;> omega

example : 0 < (LongChain.ctor 8 none (some 3)).distance ∧
    (LongChain.ctor 8 none (some 3)).distance < (LongChain.ctor 8 none (some 3)).linSize ∧
    (LongChain.ctor 8 none (some 3)).connected 2 5 = true := by decide

/-! ## Star -/

/-- **C30** Every bond of the star touches the centre, site 1, and every other site is joined to it. -/
theorem star_connected (i j : Nat) : Star.connected i j = true ↔ i ≠ j ∧ (i = 1 ∨ j = 1) := by
  unfold Star.connected
  split_ifs with h <;> simp [h]

/-- **C30** The star is a graph. -/
theorem star_graph (N : Nat) : IsGraph N (fun i j => Star.connected i j = true) where
  symm := by intro i j _ _; simp only [star_connected]; tauto
  irrefl := by intro i _; simp [Star.connected]

/-- **C30** Star handles enumerate the bonds. -/
theorem star_enumerates (N : Nat) (hN : 2 ≤ N) : ∃ size, Star.getVectorSize N 0 = some size ∧
    size = N - 1 ∧
    Enumerates N (fun i j => Star.connected i j = true) (fun i j => some (Star.handle i j)) size := by
  refine ⟨_, rfl, sub64_le (by omega), ⟨⟨?_, ?_, ?_⟩, ?_⟩⟩
  · intro i j hi hj h
    rw [star_connected] at h
    refine ⟨_, rfl, ?_⟩
    rw [sub64_le (by omega)]
    unfold Star.handle
    split_ifs <;> rw [sub64_le (by omega)] <;> omega
  · intro i j hi hj h
    rw [star_connected] at h
    simp only [Star.handle]
    split_ifs <;> first | rfl | omega
  · intro i j k l h1 h2 h3 h4 h5 h6 h7
    rw [star_connected] at h5 h6
    simp only [Star.handle, if_pos h1, if_pos h3, Option.some.injEq] at h7
    rw [sub64_le (by omega), sub64_le (by omega)] at h7
    omega
  · intro h hh
    rw [sub64_le (by omega)] at hh
    by_cases h0 : h = 0
    · subst h0
      exact ⟨0, 1, by omega, by omega, by simp [Star.connected], by simp [Star.handle, sub64]⟩
    · refine ⟨1, h + 1, by omega, by omega, ?_, ?_⟩
      · rw [star_connected]; omega
      · simp only [Star.handle]
        rw [if_pos (by omega), sub64_le (by omega)]; simp

example : Star.connected 1 4 = true ∧ Star.handle 1 4 = 3 ∧ Star.handle 0 1 = 0 := by decide

/-! ## Cases: a closed ring of eight sites with bonds three sites long, and an open chain of six -/

/-- The ring and the open chain. -/
def ring8 : LongChain := ⟨8, true, 3⟩
/-- An open chain of six sites. -/
def chain6 : LongChain := ⟨6, false, 1⟩

example := chain_connected ring8 (by decide) (by decide) 7 2 (by decide) (by decide)
example := chain_graph ring8 (by decide) (by decide)
example := chain_enumerates chain6 (by decide) (by decide) rfl
example := chain_fringe chain6 (by decide) (by decide) rfl 2 2 4 (by decide) (by decide)
example : ring8.handle 0 3 = ring8.handle 0 5 := (chain_periodic_fails ring8 (by decide) (by decide) rfl (by decide)).2.2.2
example := chain_reflection ring8 (by decide) (by decide) 7 2 (by decide) (by decide)
example := chain_substitute chain6 rfl 1 4 (by decide) (by decide)
example : ring8.translate 7 0 2 = some 1 := chain_translate ring8 (by decide) 7 2
example := chain_translate_group ring8 (by decide) (by decide) 7 2 5 6 (by decide) (by decide)
example := star_enumerates 5 (by decide)

end Verif.Geom
