import Verif.Geom.Model
import Verif.Geom.Spec
import Mathlib.Tactic.Linarith
import Mathlib.Data.Nat.ModEq

/-! # Facts about the ladder -/

namespace Verif.Geom

open Verif.Loop

/-- What the constructor guarantees. -/
structure Ladder.Valid (g : Ladder) : Prop where
  leg : 0 < g.leg
  dvd : g.leg ∣ g.linSize
  pos : 0 < g.linSize
  two : g.leg = 2 → g.isPeriodicY = false

theorem Ladder.Valid.size {g : Ladder} (h : g.Valid) : g.linSize = g.linSize / g.leg * g.leg :=
  (Nat.div_mul_cancel h.dvd).symm

theorem Ladder.Valid.lx {g : Ladder} (h : g.Valid) : 0 < g.linSize / g.leg :=
  Nat.div_pos (Nat.le_of_dvd h.pos h.dvd) h.leg

theorem Ladder.Valid.leg_le {g : Ladder} (h : g.Valid) : g.leg ≤ g.linSize := Nat.le_of_dvd h.pos h.dvd

theorem Ladder.Valid.col_lt {g : Ladder} (h : g.Valid) {i : Nat} (hi : i < g.linSize) :
    i / g.leg < g.linSize / g.leg :=
  Nat.div_lt_div_of_lt_of_dvd h.dvd hi

theorem adj_symm {n : Nat} {per : Bool} {a b : Nat} (h : Adj n per a b) : Adj n per b a := by
  obtain ⟨h1, h2⟩ := h
  exact ⟨h1.symm, by tauto⟩

theorem succ_mod (n a : Nat) (ha : a < n) : (a + 1) % n = if a + 1 = n then 0 else a + 1 := by
  split_ifs with h
  · rw [h, Nat.mod_self]
  · exact Nat.mod_eq_of_lt (by omega)

theorem neighbors_iff (n a b : Nat) (per : Bool) (ha : a < n) (hb : b < n) (hab : a ≠ b) :
    neighbors a b per (n - 1) = true ↔ Adj n per a b := by
  unfold neighbors Adj
  rw [succ_mod n a ha, succ_mod n b hb]
  cases per
  · simp only [Bool.not_false, if_true, beq_iff_eq, Bool.false_eq_true, false_and, or_false]
    split_ifs <;> omega
  · simp only [Bool.not_true, Bool.false_eq_true, if_false, Bool.or_eq_true, beq_iff_eq, true_and]
    split_ifs <;> omega

theorem site_eq {leg i j : Nat} (h1 : i / leg = j / leg) (h2 : i % leg = j % leg) : i = j := by
  rw [← Nat.div_add_mod i leg, ← Nat.div_add_mod j leg, h1, h2]

theorem ladder_connected_iff (g : Ladder) (hv : g.Valid) (i j : Nat) (hi : i < g.linSize) (hj : j < g.linSize) :
    g.connected i j = true ↔
      (i / g.leg = j / g.leg ∧ Adj g.leg g.isPeriodicY (i % g.leg) (j % g.leg)) ∨
      (i % g.leg = j % g.leg ∧ Adj (g.linSize / g.leg) g.isPeriodicX (i / g.leg) (j / g.leg)) := by
  unfold Ladder.connected
  have hl := hv.lx
  rw [sub64_le (by omega)]
  by_cases hij : i = j
  · subst hij
    simp [Adj]
  · rw [if_neg hij]
    simp only
    by_cases hc : i / g.leg = j / g.leg
    · have hr : i % g.leg ≠ j % g.leg := fun h => hij (site_eq hc h)
      rw [if_pos hc, neighbors_iff _ _ _ _ (Nat.mod_lt _ hv.leg) (Nat.mod_lt _ hv.leg) hr]
      simp [hc, hr]
    · rw [if_neg hc]
      by_cases hr : i % g.leg = j % g.leg
      · rw [if_pos hr, neighbors_iff _ _ _ _ (hv.col_lt hi) (hv.col_lt hj) hc]
        simp [hc, hr]
      · rw [if_neg hr]
        simp [hc, hr]

/-- X bonds with `i < j`, in numbers. -/
theorem ladder_x_iff (g : Ladder) (hv : g.Valid) (i j : Nat) (hij : i < j) (hj : j < g.linSize) :
    (g.connected i j = true ∧ g.calcDir i j = some 0) ↔
      (j = i + g.leg ∨ (g.isPeriodicX = true ∧ i < g.leg ∧ j = i + (g.linSize - g.leg))) := by
  have hleg := hv.leg
  have hci := hv.col_lt (show i < g.linSize by omega)
  have hcj := hv.col_lt hj
  have ei := Nat.div_add_mod i g.leg
  have ej := Nat.div_add_mod j g.leg
  have hri := Nat.mod_lt i hleg
  have hrj := Nat.mod_lt j hleg
  have hL := hv.size
  constructor
  · rintro ⟨h1, h2⟩
    rw [ladder_connected_iff g hv i j (by omega) hj] at h1
    have hne : ¬ i / g.leg = j / g.leg := by
      intro hc
      unfold Ladder.calcDir at h2
      split_ifs at h2 with hx hy
      · simp at h2
      · simp [Ladder.sameColumn, hc] at hy
    rcases h1 with ⟨h, -⟩ | ⟨hr, -, ha⟩
    · exact absurd h hne
    · rw [succ_mod _ _ hci, succ_mod _ _ hcj] at ha
      rcases ha with ha | ha | ⟨hp, ha⟩
      · left
        rw [← ha, Nat.mul_add] at ej
        omega
      · exfalso
        rw [← ha, Nat.mul_add] at ei
        omega
      · rcases ha with ha | ha
        · split_ifs at ha with hw
          · exfalso
            rw [← ha] at ej
            have : i / g.leg = 0 ∨ 0 < i / g.leg := by omega
            rcases this with h0 | h0
            · rw [h0, ha] at hne; exact hne rfl
            · have := Nat.mul_le_mul_left g.leg h0
              omega
          · left
            rw [← ha, Nat.mul_add] at ej
            omega
        · split_ifs at ha with hw
          · right
            refine ⟨hp, ?_, ?_⟩
            · rw [← ha] at ei; omega
            · rw [← ha] at ei
              have : g.linSize = g.leg * (j / g.leg) + g.leg := by
                rw [hL, ← hw, Nat.mul_comm, Nat.mul_add, Nat.mul_one]
              omega
          · exfalso
            rw [← ha, Nat.mul_add] at ei
            omega
  · intro h
    have hdiv : i / g.leg ≠ j / g.leg ∧ i % g.leg = j % g.leg ∧
        Adj (g.linSize / g.leg) g.isPeriodicX (i / g.leg) (j / g.leg) := by
      rcases h with rfl | ⟨hp, h1, rfl⟩
      · rw [Nat.add_div_right _ hleg, Nat.add_mod_right]
        exact ⟨by omega, rfl, by omega, Or.inl rfl⟩
      · have e : g.linSize - g.leg = g.leg * (g.linSize / g.leg - 1) := by
          rw [Nat.mul_sub, Nat.mul_div_cancel' hv.dvd, Nat.mul_one]
        have : 0 < g.linSize / g.leg - 1 := by
          by_contra h0
          rw [e, show g.linSize / g.leg - 1 = 0 by omega, Nat.mul_zero] at hij
          omega
        rw [e, Nat.add_mul_div_left _ _ hleg, Nat.add_mul_mod_self_left, Nat.div_eq_of_lt h1]
        refine ⟨by omega, rfl, by omega, Or.inr (Or.inr ⟨hp, Or.inr ?_⟩)⟩
        rw [succ_mod _ _ (by omega), if_pos (by omega)]
    have hc : g.connected i j = true := by
      rw [ladder_connected_iff g hv i j (by omega) hj]
      exact Or.inr hdiv.2
    refine ⟨hc, ?_⟩
    unfold Ladder.calcDir
    rw [if_pos hc, if_neg]
    simp [Ladder.sameColumn, hdiv.1]

/-- Y bonds with `i < j`, in numbers. -/
theorem ladder_y_iff (g : Ladder) (hv : g.Valid) (i j : Nat) (hij : i < j) (hj : j < g.linSize) :
    (g.connected i j = true ∧ g.calcDir i j = some 1) ↔
      ((j = i + 1 ∧ i % g.leg + 1 < g.leg) ∨ (g.isPeriodicY = true ∧ i % g.leg = 0 ∧ j = i + (g.leg - 1))) := by
  have hleg := hv.leg
  have ei := Nat.div_add_mod i g.leg
  have ej := Nat.div_add_mod j g.leg
  have hri := Nat.mod_lt i hleg
  have hrj := Nat.mod_lt j hleg
  constructor
  · rintro ⟨h1, h2⟩
    rw [ladder_connected_iff g hv i j (by omega) hj] at h1
    have hc : i / g.leg = j / g.leg := by
      unfold Ladder.calcDir at h2
      split_ifs at h2 with hx hy
      · simpa [Ladder.sameColumn] using hy
      · simp at h2
    rcases h1 with ⟨-, h, ha⟩ | ⟨hr, -⟩
    · rw [succ_mod _ _ hri, succ_mod _ _ hrj] at ha
      rw [hc] at ei
      rcases ha with ha | ha | ⟨hp, ha⟩
      · left; omega
      · omega
      · rcases ha with ha | ha <;> split_ifs at ha with hw
        · omega
        · left; omega
        · right; exact ⟨hp, ha.symm, by omega⟩
        · omega
    · exact absurd (site_eq hc hr) (by omega)
  · intro h
    have key : ∀ d, i % g.leg + d < g.leg → (i + d) / g.leg = i / g.leg ∧ (i + d) % g.leg = i % g.leg + d := by
      intro d hd
      have e : i + d = (i % g.leg + d) + g.leg * (i / g.leg) := by omega
      rw [e, Nat.add_mul_div_left _ _ hleg, Nat.add_mul_mod_self_left, Nat.div_eq_of_lt hd, Nat.mod_eq_of_lt hd]
      exact ⟨by omega, rfl⟩
    have hdiv : i / g.leg = j / g.leg ∧ Adj g.leg g.isPeriodicY (i % g.leg) (j % g.leg) := by
      rcases h with ⟨rfl, h⟩ | ⟨hp, h, rfl⟩
      · obtain ⟨k1, k2⟩ := key 1 h
        rw [k1, k2]
        exact ⟨rfl, by omega, Or.inl rfl⟩
      · obtain ⟨k1, k2⟩ := key (g.leg - 1) (by omega)
        rw [k1, k2, h]
        refine ⟨rfl, by omega, Or.inr (Or.inr ⟨hp, Or.inr ?_⟩)⟩
        rw [succ_mod _ _ (by omega), if_pos (by omega)]
    have hc : g.connected i j = true := by
      rw [ladder_connected_iff g hv i j (by omega) hj]
      exact Or.inl hdiv
    refine ⟨hc, ?_⟩
    unfold Ladder.calcDir
    rw [if_pos hc, if_pos]
    simp [Ladder.sameColumn, hdiv.1]

theorem ladder_conn_symm (g : Ladder) (i j : Nat) : g.connected i j = g.connected j i := by
  have hn : ∀ a b p q, neighbors a b p q = neighbors b a p q := by
    intro a b p q
    unfold neighbors
    rcases Nat.lt_trichotomy a b with h | h | h
    · simp [h, Nat.not_lt_of_gt h]
    · subst h; rfl
    · simp [h, Nat.not_lt_of_gt h]
  unfold Ladder.connected
  simp only [eq_comm (a := i) (b := j), eq_comm (a := i / g.leg) (b := j / g.leg),
    eq_comm (a := i % g.leg) (b := j % g.leg), hn (i % g.leg), hn (i / g.leg)]

theorem ladder_dir_symm (g : Ladder) (i j : Nat) : g.calcDir i j = g.calcDir j i := by
  unfold Ladder.calcDir Ladder.sameColumn
  rw [ladder_conn_symm g i j, BEq.comm]

theorem ladder_handle_symm (g : Ladder) (i j : Nat) : g.handle i j = g.handle j i := by
  by_cases h : i = j
  · subst h; rfl
  · unfold Ladder.handle
    rw [ladder_dir_symm g i j]
    have e1 : (if i < j then i else j) = (if j < i then j else i) := by split_ifs <;> omega
    have e2 : (if i < j then j else i) = (if j < i then i else j) := by split_ifs <;> omega
    rw [e1, e2]

end Verif.Geom
