import Verif.Geom.ModelMax
import Verif.Geom.PropsLadder
import Verif.Geom.PropsLongRange
import Mathlib.Data.Finset.Card
import Mathlib.Data.Finset.Prod
import Mathlib.Order.Interval.Finset.Nat
import Mathlib.Tactic.Ring
import Mathlib.Tactic.Linarith
import Mathlib.Algebra.Group.Nat.Even

/-!
# Connections broken by a split

C79.
-/

namespace Verif.Geom

open Verif.Loop

/-- The connections between the sites before `k` and those from `k` on. -/
noncomputable def cut (N : Nat) (conn : Nat → Nat → Prop) (k : Nat) : Finset (Nat × Nat) := by
  classical
  exact (Finset.range N ×ˢ Finset.range N).filter fun p => p.1 < k ∧ k ≤ p.2 ∧ conn p.1 p.2

theorem mem_cut {N : Nat} {conn : Nat → Nat → Prop} {k : Nat} {p : Nat × Nat} :
    p ∈ cut N conn k ↔ p.1 < N ∧ p.2 < N ∧ p.1 < k ∧ k ≤ p.2 ∧ conn p.1 p.2 := by
  unfold cut
  simp [and_assoc]

theorem cut_le {N : Nat} {conn : Nat → Nat → Prop} {k m : Nat} (f : Nat × Nat → Nat)
    (hf : ∀ p ∈ cut N conn k, f p < m) (hi : ∀ p ∈ cut N conn k, ∀ q ∈ cut N conn k, f p = f q → p = q) :
    (cut N conn k).card ≤ m := by
  have := Finset.card_le_card_of_injOn (s := cut N conn k) (t := Finset.range m) f
    (fun p hp => by simpa using hf p hp) (fun p hp q hq h => hi p hp q hq h)
  simpa using this

/-- To show that connections are many: a list of them. -/
theorem le_cut {N : Nat} {conn : Nat → Nat → Prop} {k : Nat} (l : List (Nat × Nat)) (hn : l.Nodup)
    (h : ∀ p ∈ l, p.1 < N ∧ p.2 < N ∧ p.1 < k ∧ k ≤ p.2 ∧ conn p.1 p.2) : l.length ≤ (cut N conn k).card := by
  rw [← List.toFinset_card_of_nodup hn]
  exact Finset.card_le_card fun p hp => mem_cut.2 (h p (by simpa using hp))

/-! ## Chains -/

/-- **C79** A chain of nearest neighbours: no split breaks more than `maxConnections`. -/
theorem chain_cut (g : LongChain) (hd : g.distance = 1) (hp : g.isPeriodic = false) (k : Nat) :
    (cut g.linSize (fun i j => g.connected i j = true) k).card ≤ g.maxConnections := by
  have key : ∀ p ∈ cut g.linSize (fun i j => g.connected i j = true) k, p.2 = p.1 + 1 ∧ p.1 + 1 = k := by
    intro p hp'
    obtain ⟨_, _, h3, h4, h5⟩ := mem_cut.1 hp'
    simp only [LongChain.connected, hd, hp] at h5
    have h0 : ¬ p.1 = p.2 := by omega
    have h1 : p.1 < p.2 := by omega
    have h2 : ¬ p.1 > p.2 := by omega
    simp only [h0, h1, h2, if_true, if_false, Bool.not_false, beq_iff_eq] at h5
    omega
  unfold LongChain.maxConnections
  rw [hp]
  refine cut_le (fun _ => 0) (by simp) ?_
  intro p hp q hq _
  have := key p hp
  have := key q hq
  exact Prod.ext (by omega) (by omega)

/-- **C79** A periodic chain of any range: no split breaks more than `maxConnections`. -/
theorem chain_periodic_cut (g : LongChain) (hd : g.distance ≤ g.linSize) (hp : g.isPeriodic = true) (k : Nat) :
    (cut g.linSize (fun i j => g.connected i j = true) k).card ≤ g.maxConnections := by
  have key : ∀ p ∈ cut g.linSize (fun i j => g.connected i j = true) k, p.1 < p.2 ∧ p.2 < g.linSize ∧
      (p.2 = p.1 + g.distance ∨ p.2 = p.1 + (g.linSize - g.distance)) := by
    intro p hp'
    obtain ⟨_, h2, h3, h4, h5⟩ := mem_cut.1 hp'
    simp only [LongChain.connected, hp, sub64_le hd] at h5
    have e0 : ¬ p.1 = p.2 := by omega
    have e1 : p.1 < p.2 := by omega
    have e2 : ¬ p.1 > p.2 := by omega
    simp only [e0, e1, e2, if_true, if_false, Bool.not_true, Bool.false_eq_true, Bool.or_eq_true, beq_iff_eq] at h5
    omega
  unfold LongChain.maxConnections
  rw [hp, if_pos (by rfl)]
  refine cut_le (fun p => if p.2 = p.1 + g.distance then p.1 else g.linSize - g.distance + p.1) ?_ ?_
  · intro p hp
    have := key p hp
    split <;> omega
  · intro p hp q hq h
    have := key p hp
    have := key q hq
    try simp only at h
    split at h <;> split at h <;> exact Prod.ext (by omega) (by omega)

/-- **C79** An open chain of longer range: a split may break more. -/
theorem chain_cut_fails : (LongChain.mk 4 false 2).maxConnections <
    (cut 4 (fun i j => (LongChain.mk 4 false 2).connected i j = true) 2).card :=
  le_cut [(0, 2), (1, 3)] (by decide) (by decide)

/-! ## Ladders -/

/-- The connections of a ladder, from the smaller site to the larger one. -/
theorem ladder_cases (g : Ladder) (hv : g.Valid) {i j : Nat} (hij : i < j) (hj : j < g.linSize)
    (h : g.connected i j = true) :
    (i / g.leg = j / g.leg ∧ 2 ≤ g.leg ∧
      (j = i + 1 ∨ (g.isPeriodicY = true ∧ i % g.leg = 0 ∧ j = i + (g.leg - 1)))) ∨
    j = i + g.leg ∨
    (g.isPeriodicX = true ∧ i < g.leg ∧ j = i + (g.linSize - g.leg) ∧ 2 * g.leg ≤ g.linSize) := by
  have hL := hv.leg
  have hN : g.linSize / g.leg * g.leg = g.linSize := Nat.div_mul_cancel hv.dvd
  have h1 := Nat.div_add_mod i g.leg
  have h2 := Nat.div_add_mod j g.leg
  have m1 := Nat.mod_lt i hL
  have m2 := Nat.mod_lt j hL
  have hle : i / g.leg ≤ j / g.leg := Nat.div_le_div_right (by omega)
  have hjl : j / g.leg < g.linSize / g.leg := by
    rw [Nat.div_lt_iff_lt_mul hL, hN]; exact hj
  unfold Ladder.connected at h
  rw [if_neg (by omega)] at h
  simp only [] at h
  generalize hci : i / g.leg = ci at *
  generalize hcj : j / g.leg = cj at *
  generalize hri : i % g.leg = ri at *
  generalize hrj : j % g.leg = rj at *
  generalize hlx : g.linSize / g.leg = lx at *
  by_cases hc : ci = cj
  · left
    rw [if_pos hc] at h
    subst hc
    have hr : ri < rj := by omega
    unfold neighbors at h
    have e2 : ¬ ri > rj := by omega
    simp only [hr, e2, if_true, if_false] at h
    refine ⟨rfl, by omega, ?_⟩
    cases hy : g.isPeriodicY with
    | false =>
      rw [hy] at h
      simp only [Bool.not_false, if_true, beq_iff_eq] at h
      omega
    | true =>
      rw [hy] at h
      simp only [Bool.not_true, Bool.false_eq_true, if_false, Bool.or_eq_true, beq_iff_eq] at h
      rcases h with h | h
      · omega
      · right; exact ⟨rfl, by omega, by omega⟩
  · right
    rw [if_neg hc] at h
    split at h
    · rename_i hr
      subst hr
      have hclt : ci < cj := by omega
      unfold neighbors at h
      have e2 : ¬ ci > cj := by omega
      simp only [hclt, e2, if_true, if_false, sub64_le (show 1 ≤ lx by omega)] at h
      have one : cj - ci = 1 → j = i + g.leg := by
        intro h
        have : cj = ci + 1 := by omega
        subst this
        rw [Nat.mul_add] at h2
        omega
      cases hx : g.isPeriodicX with
      | false =>
        rw [hx] at h
        simp only [Bool.not_false, if_true, beq_iff_eq] at h
        exact .inl (one h)
      | true =>
        rw [hx] at h
        simp only [Bool.not_true, Bool.false_eq_true, if_false, Bool.or_eq_true, beq_iff_eq] at h
        rcases h with h | h
        · exact .inl (one h)
        · right
          have c0 : ci = 0 := by omega
          have c1 : cj = lx - 1 := by omega
          have l2 : 2 ≤ lx := by omega
          subst c0
          obtain ⟨m, rfl⟩ : ∃ m, lx = m + 2 := ⟨lx - 2, by omega⟩
          have c1 : cj = m + 1 := by omega
          subst c1
          have e3 : g.leg * (m + 1) = m * g.leg + g.leg := by rw [Nat.mul_comm, Nat.add_mul]; omega
          have e4 : (m + 2) * g.leg = m * g.leg + 2 * g.leg := by rw [Nat.add_mul]
          refine ⟨rfl, by omega, by omega, by omega⟩
    · cases h

/-- In one column. -/
theorem column_unique {L k i j i' j' : Nat} (h : i / L = j / L) (h' : i' / L = j' / L) (h1 : i < k)
    (h2 : k ≤ j) (h3 : i' < k) (h4 : k ≤ j') (e : i % L = 0) (e' : i' % L = 0) : i = i' := by
  have a := Nat.div_le_div_right (c := L) (show i ≤ j' by omega)
  have b := Nat.div_le_div_right (c := L) (show i' ≤ j by omega)
  have c : i / L = i' / L := by omega
  have d1 := Nat.div_add_mod i L
  have d2 := Nat.div_add_mod i' L
  rw [← d1, ← d2, c, e, e']

theorem column_near {L i j : Nat} (hL : 0 < L) (h : i / L = j / L) : j < i + L := by
  have a := Nat.div_add_mod i L
  have b := Nat.div_add_mod j L
  have c := Nat.mod_lt j hL
  rw [h] at a
  omega

/-- **C79** A ladder that is not periodic along its rungs, or is along its legs: no split breaks more than
`maxConnections`. -/
theorem ladder_cut (g : Ladder) (hv : g.Valid) (h : g.isPeriodicX = true ∨ g.isPeriodicY = false) (k : Nat) :
    (cut g.linSize (fun i j => g.connected i j = true) k).card ≤ g.maxConnections := by
  have hL := hv.leg
  have key : ∀ p ∈ cut g.linSize (fun i j => g.connected i j = true) k, p.1 < k ∧ k ≤ p.2 ∧ p.2 < g.linSize ∧ _ :=
    fun p hp => ⟨(mem_cut.1 hp).2.2.1, (mem_cut.1 hp).2.2.2.1, (mem_cut.1 hp).2.1,
      ladder_cases g hv (by have := (mem_cut.1 hp).2.2.1; have := (mem_cut.1 hp).2.2.2.1; omega) (mem_cut.1 hp).2.1
        (mem_cut.1 hp).2.2.2.2⟩
  have hN : g.linSize = g.leg ∨ g.linSize = 2 * g.leg ∨ 3 * g.leg ≤ g.linSize := by
    obtain ⟨m, hm⟩ := hv.dvd
    have := hv.pos
    match m with
    | 0 => simp at hm; omega
    | 1 => simp at hm; exact .inl hm
    | 2 => right; left; omega
    | m + 3 => right; right; rw [hm, Nat.mul_comm]; exact Nat.mul_le_mul_left _ (by omega)
  unfold Ladder.maxConnections
  by_cases hx : g.isPeriodicX = true
  · rw [if_pos hx]
    refine cut_le (fun p => if p.2 = p.1 + g.leg then p.1 + g.leg - k else if p.1 / g.leg = p.2 / g.leg then
      (if p.2 = p.1 + 1 then g.linSize - 1 else g.linSize - 2) else g.leg + p.1) ?_ ?_
    · intro p hp
      obtain ⟨h1, h2, h3, hc⟩ := key p hp
      try simp only
      by_cases hf : p.2 = p.1 + g.leg
      · rw [if_pos hf]; omega
      · rw [if_neg hf]
        by_cases hcol : p.1 / g.leg = p.2 / g.leg
        · rw [if_pos hcol]
          split <;> omega
        · rw [if_neg hcol]
          simp only [hcol, false_and, false_or, hf] at hc
          omega
    · intro p hp q hq e
      obtain ⟨h1, h2, h3, hc⟩ := key p hp
      obtain ⟨h1', h2', h3', hc'⟩ := key q hq
      try simp only at e
      by_cases hf : p.2 = p.1 + g.leg <;> by_cases hf' : q.2 = q.1 + g.leg
      · rw [if_pos hf, if_pos hf'] at e
        exact Prod.ext (by omega) (by omega)
      · exfalso
        rw [if_pos hf, if_neg hf'] at e
        by_cases hcol' : q.1 / g.leg = q.2 / g.leg
        · rw [if_pos hcol'] at e
          split at e <;> omega
        · rw [if_neg hcol'] at e
          omega
      · exfalso
        rw [if_neg hf, if_pos hf'] at e
        by_cases hcol : p.1 / g.leg = p.2 / g.leg
        · rw [if_pos hcol] at e
          split at e <;> omega
        · rw [if_neg hcol] at e
          omega
      · rw [if_neg hf, if_neg hf'] at e
        by_cases hcol : p.1 / g.leg = p.2 / g.leg <;> by_cases hcol' : q.1 / g.leg = q.2 / g.leg
        · rw [if_pos hcol, if_pos hcol'] at e
          have n1 := column_near hL hcol
          have n2 := column_near hL hcol'
          by_cases ho : p.2 = p.1 + 1 <;> by_cases ho' : q.2 = q.1 + 1
          · exact Prod.ext (by omega) (by omega)
          · rw [if_pos ho, if_neg ho'] at e; omega
          · rw [if_neg ho, if_pos ho'] at e; omega
          · have w : p.1 % g.leg = 0 ∧ p.2 = p.1 + (g.leg - 1) := by omega
            have w' : q.1 % g.leg = 0 ∧ q.2 = q.1 + (g.leg - 1) := by omega
            have := column_unique hcol hcol' h1 h2 h1' h2' w.1 w'.1
            exact Prod.ext (by omega) (by omega)
        · exfalso
          rw [if_pos hcol, if_neg hcol'] at e
          simp only [hcol', false_and, false_or, hf'] at hc'
          have n1 := column_near hL hcol
          split at e <;> omega
        · exfalso
          rw [if_neg hcol, if_pos hcol'] at e
          simp only [hcol, false_and, false_or, hf] at hc
          have n2 := column_near hL hcol'
          split at e <;> omega
        · rw [if_neg hcol, if_neg hcol'] at e
          simp only [hcol, hcol', false_and, false_or, hf, hf'] at hc hc'
          exact Prod.ext (by omega) (by omega)
  · rw [if_neg hx]
    have hy : g.isPeriodicY = false := by
      rcases h with h | h
      · exact absurd h hx
      · exact h
    refine cut_le (fun p => if p.2 = p.1 + g.leg then p.1 + g.leg - k else g.leg) ?_ ?_
    · intro p hp
      obtain ⟨h1, h2, h3, hc⟩ := key p hp
      try simp only
      split <;> omega
    · intro p hp q hq e
      obtain ⟨h1, h2, h3, hc⟩ := key p hp
      obtain ⟨h1', h2', h3', hc'⟩ := key q hq
      simp only [hx, hy, Bool.false_eq_true, false_and, or_false] at hc hc'
      try simp only at e
      split at e <;> split at e <;> exact Prod.ext (by omega) (by omega)


/-- **C79** A ladder that is periodic along its rungs only: a split may break one more. -/
theorem ladder_cut_fails : (Ladder.mk 9 3 false true).maxConnections <
    (cut 9 (fun i j => (Ladder.mk 9 3 false true).connected i j = true) 4).card :=
  le_cut [(3, 4), (3, 5), (1, 4), (2, 5), (3, 6)] (by decide) (by decide)

/-- **C79** A ladder with diagonals: a split may break more. -/
theorem ladderx_cut_fails : (LadderX.mk ⟨4, 2, false, false⟩).maxConnections <
    (cut 4 (fun i j => (LadderX.mk ⟨4, 2, false, false⟩).connected i j = true) 2).card :=
  le_cut [(0, 2), (0, 3), (1, 2), (1, 3)] (by decide) (by decide)

/-- **C79** A ladder of four sites, each with three sites of its bath: a split may break more. -/
theorem bath_cut_fails : (LadderBath.mk 16 3 4 ⟨4, 2, false, false⟩).maxConnections <
    (cut 16 (fun i j => (LadderBath.mk 16 3 4 ⟨4, 2, false, false⟩).connected i j = some true) 6).card :=
  le_cut [(0, 6), (1, 7), (2, 6), (3, 7), (4, 6), (5, 7)] (by decide) (by decide)

/-! ## Other geometries -/

/-- **C79** A star: no split breaks more than `maxConnections`. -/
theorem star_cut (N k : Nat) (h0 : 0 < N) :
    (cut N (fun i j => Star.connected i j = true) k).card ≤ Star.maxConnections N := by
  have key : ∀ p ∈ cut N (fun i j => Star.connected i j = true) k, p.1 < p.2 ∧ p.2 < N ∧ (p.1 = 1 ∨ p.2 = 1) := by
    intro p hp
    obtain ⟨_, h2, h3, h4, h5⟩ := mem_cut.1 hp
    simp only [Star.connected] at h5
    rw [if_neg (by omega)] at h5
    simp only [Bool.or_eq_true, beq_iff_eq] at h5
    exact ⟨by omega, h2, h5⟩
  unfold Star.maxConnections
  rw [sub64_le (by omega)]
  refine cut_le (fun p => p.2 - 1) ?_ ?_
  · intro p hp
    have := key p hp
    omega
  · intro p hp q hq e
    have := key p hp
    have := key q hq
    try simp only at e
    exact Prod.ext (by omega) (by omega)

theorem ktwo_near {i j : Nat} (hij : i < j) (h : KTwo.connected i j = some true) : j ≤ i + 3 := by
  have g1 : ∀ a b c : Nat, (a - 2 == b || a - 3 == b) = true → a ≤ b + 3 := by
    intro a b _ h; simp only [Bool.or_eq_true, beq_iff_eq] at h; omega
  have g2 : ∀ a b : Nat, (decide (a ≥ 2) && a - 2 == b) = true → a ≤ b + 3 := by
    intro a b h; simp only [Bool.and_eq_true, beq_iff_eq] at h; omega
  have g3 : ∀ a b : Nat, (a - 1 == b || a - 2 == b || a - 3 == b || a + 1 == b) = true → a ≤ b + 3 ∧ b ≤ a + 3 := by
    intro a b h; simp only [Bool.or_eq_true, beq_iff_eq] at h; omega
  unfold KTwo.connected at h
  rw [if_neg (by omega)] at h
  simp only [] at h
  by_cases c1 : KTwo.findTypeOfSite i = KTwo.Kind.cu ∧ KTwo.findTypeOfSite j = KTwo.Kind.cu
  · rw [if_pos c1] at h; simp at h
  rw [if_neg c1] at h
  by_cases c2 : KTwo.findTypeOfSite i ≠ KTwo.Kind.cu ∧ KTwo.findTypeOfSite j ≠ KTwo.Kind.cu
  · rw [if_pos c2] at h
    by_cases c3 : KTwo.findTypeOfSite i = KTwo.findTypeOfSite j
    · rw [if_pos c3] at h; simp at h
    rw [if_neg c3] at h
    by_cases c4 : KTwo.findTypeOfSite i = KTwo.Kind.ox
    · simp only [c4, if_true, show ¬ i > j by omega, if_false] at h
      by_cases c5 : j - 1 = i
      · omega
      · rw [if_neg c5] at h
        exact g2 _ _ (Option.some.inj h)
    · simp only [c4, if_false, show j > i by omega, if_true] at h
      by_cases c5 : j ≥ 4
      · rw [if_pos c5] at h
        exact g1 _ _ 0 (Option.some.inj h)
      · rw [if_neg c5] at h; simp at h
  · rw [if_neg c2] at h
    by_cases c4 : KTwo.findTypeOfSite i = KTwo.Kind.cu
    · simp only [c4, ne_eq, not_true, if_false] at h
      by_cases c5 : i ≥ 3
      · rw [if_pos c5] at h
        exact (g3 _ _ (Option.some.inj h)).2
      · rw [if_neg c5] at h; simp at h
    · simp only [c4, ne_eq, not_false_eq_true, if_true] at h
      by_cases c5 : j ≥ 3
      · rw [if_pos c5] at h
        exact (g3 _ _ (Option.some.inj h)).1
      · rw [if_neg c5] at h; simp at h

/-- **C79** The planes of K2NiF4: no split breaks more than `maxConnections`. -/
theorem ktwo_cut (N k : Nat) : (cut N (fun i j => KTwo.connected i j = some true) k).card ≤ KTwo.maxConnections := by
  have key : ∀ p ∈ cut N (fun i j => KTwo.connected i j = some true) k, p.1 < k ∧ k ≤ p.2 ∧ p.2 ≤ p.1 + 3 := by
    intro p hp
    obtain ⟨_, h2, h3, h4, h5⟩ := mem_cut.1 hp
    exact ⟨h3, h4, ktwo_near (by omega) h5⟩
  obtain ⟨f, hf⟩ : ∃ f : Nat × Nat → Nat, ∀ p, f p = if p.2 = k + 2 then 5 else if p.2 = k + 1 then 3 + (k - 1 - p.1)
      else k - 1 - p.1 := ⟨_, fun _ => rfl⟩
  have val : ∀ p ∈ cut N (fun i j => KTwo.connected i j = some true) k, (p.2 = k + 2 ∧ f p = 5) ∨
      (p.2 = k + 1 ∧ f p = 3 + (k - 1 - p.1)) ∨ (p.2 = k ∧ f p = k - 1 - p.1) := by
    intro p hp
    have := key p hp
    rw [hf]
    split
    · exact .inl ⟨by assumption, rfl⟩
    · split
      · exact .inr (.inl ⟨by assumption, rfl⟩)
      · exact .inr (.inr ⟨by omega, rfl⟩)
  refine cut_le f ?_ ?_
  · intro p hp
    have := key p hp
    have := val p hp
    simp only [KTwo.maxConnections]
    omega
  · intro p hp q hq e
    have := key p hp
    have := key q hq
    have := val p hp
    have := val q hq
    exact Prod.ext (by omega) (by omega)

/-- **C79** Connections of any range, when the input gives no number: no split breaks more than `maxConnections`, and a
split in the middle breaks so many. -/
theorem longrange_cut (g : LongRange) (h0 : g.maxConnections = 0) (k : Nat) :
    (cut g.linSize (fun i j => LongRange.base.connected i j = some true) k).card ≤ g.maxConn ∧
    (cut g.linSize (fun i j => LongRange.base.connected i j = some true) (g.linSize / 2)).card = g.maxConn := by
  have card : ∀ k, k ≤ g.linSize →
      (cut g.linSize (fun i j => LongRange.base.connected i j = some true) k).card = k * (g.linSize - k) := by
    intro k hk
    have : cut g.linSize (fun i j => LongRange.base.connected i j = some true) k =
        Finset.range k ×ˢ Finset.Ico k g.linSize := by
      ext p
      rw [mem_cut]
      simp only [LongRange.base, Finset.mem_product, Finset.mem_range, Finset.mem_Ico]
      constructor
      · rintro ⟨_, h2, h3, h4, _⟩; exact ⟨h3, h4, h2⟩
      · rintro ⟨h3, h4, h2⟩; exact ⟨by omega, h2, h3, h4, trivial⟩
    rw [this, Finset.card_product, Finset.card_range, Nat.card_Ico]
  have hm : g.maxConn = g.linSize * g.linSize / 4 := by unfold LongRange.maxConn; rw [if_pos h0]
  rw [hm]
  constructor
  · by_cases hk : k ≤ g.linSize
    · rw [card k hk]
      obtain ⟨d, hd⟩ : ∃ d, g.linSize = k + d := ⟨g.linSize - k, by omega⟩
      rw [hd, Nat.add_sub_cancel_left, Nat.le_div_iff_mul_le (by omega)]
      rcases Nat.le_total k d with h | h
      · obtain ⟨e, rfl⟩ : ∃ e, d = k + e := ⟨d - k, by omega⟩
        have : (k + (k + e)) * (k + (k + e)) = k * (k + e) * 4 + e * e := by ring
        omega
      · obtain ⟨e, rfl⟩ : ∃ e, k = d + e := ⟨k - d, by omega⟩
        have : (d + e + d) * (d + e + d) = (d + e) * d * 4 + e * e := by ring
        omega
    · have : cut g.linSize (fun i j => LongRange.base.connected i j = some true) k = ∅ := by
        ext p
        rw [mem_cut]
        simp only [Finset.notMem_empty, iff_false]
        rintro ⟨h1, h2, h3, h4, _⟩
        omega
      rw [this]
      simp
  · rw [card _ (by omega)]
    rcases Nat.even_or_odd' g.linSize with ⟨c, hc | hc⟩
    · rw [hc, show 2 * c / 2 = c by omega, show 2 * c - c = c by omega,
        show 2 * c * (2 * c) = c * c * 4 by ring, Nat.mul_div_cancel _ (by omega)]
    · rw [hc, show (2 * c + 1) / 2 = c by omega, show 2 * c + 1 - c = c + 1 by omega,
        show (2 * c + 1) * (2 * c + 1) = 1 + c * (c + 1) * 4 by ring, Nat.add_mul_div_right _ _ (by omega)]
      omega

/-- **C79** For all terms, the number is the largest one. -/
theorem terms_max (terms : List Nat) : (∀ t ∈ terms, t ≤ maxOfTerms terms) ∧
    (maxOfTerms terms ∈ terms ∨ maxOfTerms terms = 0) := by
  have key : ∀ (l : List Nat) (r : Nat), r ≤ l.foldl (fun result t => if t > result then t else result) r ∧
      (∀ t ∈ l, t ≤ l.foldl (fun result t => if t > result then t else result) r) ∧
      (l.foldl (fun result t => if t > result then t else result) r ∈ l ∨
        l.foldl (fun result t => if t > result then t else result) r = r) := by
    intro l
    induction l with
    | nil => intro r; simp
    | cons x l ih =>
      intro r
      obtain ⟨h1, h2, h3⟩ := ih (if x > r then x else r)
      simp only [List.foldl_cons]
      refine ⟨le_trans (by split <;> omega) h1, ?_, ?_⟩
      · intro t ht
        rcases List.mem_cons.1 ht with rfl | ht
        · exact le_trans (by split <;> omega) h1
        · exact h2 t ht
      · rcases h3 with h3 | h3
        · exact .inl (List.mem_cons_of_mem _ h3)
        · rw [h3]
          split
          · exact .inl List.mem_cons_self
          · exact .inr rfl
  obtain ⟨_, h2, h3⟩ := key terms 0
  exact ⟨h2, h3⟩

/-- The hypotheses are met: a ladder of three legs that is periodic in both directions. -/
example : (Ladder.mk 12 3 true true).Valid ∧ (Ladder.mk 12 3 true true).maxConnections = 12 ∧
    8 ≤ (cut 12 (fun i j => (Ladder.mk 12 3 true true).connected i j = true) 4).card := by
  refine ⟨⟨by decide, by decide, by decide, by decide⟩, rfl, ?_⟩
  exact le_cut [(3, 4), (3, 5), (1, 4), (2, 5), (3, 6), (0, 9), (1, 10), (2, 11)] (by decide) (by decide)

example := chain_cut chain6 rfl rfl 3
example := chain_periodic_cut ring8 (by decide) rfl 4
example := ladder_cut ladder12 ladder12_valid (.inl rfl) 6
example := longrange_cut ⟨6, 1, 0, ⟨0, 0, []⟩⟩ rfl 2
example := star_cut 5 2 (by decide)

end Verif.Geom
