import Verif.Geom.PropsLadder

/-!
# C69: the ladder with diagonals
-/

namespace Verif.Geom

open Verif.Loop

/-- Without periodic conditions. -/
structure LadderX.Open (g : LadderX) : Prop where
  valid : g.ladder.Valid
  x : g.ladder.isPeriodicX = false
  y : g.ladder.isPeriodicY = false

/-- Sites of a row or a column that follow one another. -/
def Next (a b : Nat) : Prop := a + 1 = b ∨ b + 1 = a

theorem neighbors_open (a b n : Nat) : neighbors a b false n = true ↔ Next a b := by
  unfold neighbors Next
  simp only [Bool.not_false, if_true, beq_iff_eq]
  split_ifs <;> omega

theorem adj_open (n a b : Nat) : Adj n false a b ↔ Next a b := by
  unfold Adj Next
  simp only [Bool.false_eq_true, false_and, or_false]
  omega

/-- **C69** On an open ladder two sites are connected just if they are one row apart, or one column apart, or both. -/
theorem ladderx_connected (g : LadderX) (hv : g.Open) (i j : Nat) (hi : i < g.ladder.linSize) (hj : j < g.ladder.linSize) :
    g.connected i j = true ↔
      (i / g.ladder.leg = j / g.ladder.leg ∧ Next (i % g.ladder.leg) (j % g.ladder.leg)) ∨
      (i % g.ladder.leg = j % g.ladder.leg ∧ Next (i / g.ladder.leg) (j / g.ladder.leg)) ∨
      (Next (i % g.ladder.leg) (j % g.ladder.leg) ∧ Next (i / g.ladder.leg) (j / g.ladder.leg)) := by
  have hl := ladder_connected_iff g.ladder hv.valid i j hi hj
  rw [hv.x, hv.y] at hl
  simp only [adj_open] at hl
  unfold LadderX.connected
  by_cases hij : i = j
  · subst hij
    simp [Next]
  · rw [if_neg hij]
    by_cases hc : g.ladder.connected i j = true
    · rw [if_pos hc]
      simp only [true_iff]
      rcases hl.1 hc with h | h
      · exact .inl h
      · exact .inr (.inl h)
    · rw [if_neg hc]
      have hn := fun h => hc (hl.2 h)
      simp only [hv.y]
      by_cases h1 : i / g.ladder.leg = j / g.ladder.leg
      · rw [if_pos h1, neighbors_open]
        constructor
        · intro h; exact .inl ⟨h1, h⟩
        · rintro (h | h | h)
          · exact h.2
          · exact absurd (.inr h) hn
          · exact h.1
      · rw [if_neg h1]
        by_cases h2 : i % g.ladder.leg = j % g.ladder.leg
        · rw [if_pos h2, neighbors_open]
          constructor
          · intro h; exact .inr (.inl ⟨h2, h⟩)
          · rintro (h | h | h)
            · exact absurd h.1 h1
            · exact h.2
            · exact h.2
        · rw [if_neg h2, Bool.and_eq_true, neighbors_open, neighbors_open]
          constructor
          · intro h; exact .inr (.inr h)
          · rintro (h | h | h)
            · exact absurd h.1 h1
            · exact absurd h.1 h2
            · exact h

theorem neighbors_symm (a b : Nat) (p : Bool) (q : Nat) : neighbors a b p q = neighbors b a p q := by
  unfold neighbors
  rcases Nat.lt_trichotomy a b with h | h | h
  · simp [h, Nat.not_lt_of_gt h]
  · simp [h]
  · simp [h, Nat.not_lt_of_gt h]

/-- **C69** The connections form a graph, whatever the boundary conditions. -/
theorem ladderx_graph (g : LadderX) : IsGraph g.ladder.linSize (fun i j => g.connected i j = true) where
  symm := by
    intro i j _ _ h
    unfold LadderX.connected at *
    by_cases hij : i = j
    · simp [hij] at h
    · rw [if_neg hij, ladder_conn_symm] at h
      rw [if_neg (Ne.symm hij)]
      by_cases hc : g.ladder.connected j i = true
      · rw [if_pos hc]
      · rw [if_neg hc] at h ⊢
        simp only at h ⊢
        by_cases h1 : i / g.ladder.leg = j / g.ladder.leg
        · rw [if_pos h1, neighbors_symm] at h
          rw [if_pos h1.symm]; exact h
        · rw [if_neg h1] at h
          rw [if_neg (Ne.symm h1)]
          by_cases h2 : i % g.ladder.leg = j % g.ladder.leg
          · rw [if_pos h2, neighbors_symm] at h
            rw [if_pos h2.symm]; exact h
          · rw [if_neg h2, neighbors_symm, neighbors_symm (i / _)] at h
            rw [if_neg (Ne.symm h2)]; exact h
  irrefl := by intro i _; simp [LadderX.connected]

/-- Connections of one direction: X = 0, Y = 1, X + Y = 2, X - Y = 3. -/
def LadderXDir (g : LadderX) (d i j : Nat) : Prop := g.connected i j = true ∧ g.calcDir i j = d

/-- **C69** The direction tells whether the column and the row change. -/
theorem ladderx_dir (g : LadderX) (i j : Nat) :
    (g.calcDir i j = 1 ↔ i / g.ladder.leg = j / g.ladder.leg) ∧
    (g.calcDir i j = 0 ↔ i / g.ladder.leg ≠ j / g.ladder.leg ∧ i % g.ladder.leg = j % g.ladder.leg) := by
  unfold LadderX.calcDir Ladder.sameColumn Ladder.sameRow
  by_cases h1 : i / g.ladder.leg = j / g.ladder.leg
  · simp [h1]
  · by_cases h2 : i % g.ladder.leg = j % g.ladder.leg
    · simp [h1, h2]
    · simp only [beq_iff_eq, h1, h2, if_false]
      constructor <;> split_ifs <;> simp

theorem dir_x (g : LadderX) (hv : g.Open) (i j : Nat) (hi : i < g.ladder.linSize) (hj : j < g.ladder.linSize) :
    LadderXDir g 0 i j ↔ LadderDir g.ladder 0 i j := by
  have hl := ladder_connected_iff g.ladder hv.valid i j hi hj
  rw [hv.x, hv.y] at hl
  simp only [adj_open] at hl
  unfold LadderXDir LadderDir
  rw [(ladderx_dir g i j).2, ladderx_connected g hv i j hi hj]
  unfold Ladder.calcDir Ladder.sameColumn
  constructor
  · rintro ⟨h, h1, h2⟩
    have hc : g.ladder.connected i j = true := by
      rw [hl]
      rcases h with h | h | h
      · exact .inl h
      · exact .inr h
      · exact .inr ⟨h2, h.2⟩
    refine ⟨hc, ?_⟩
    rw [if_pos hc]
    simp [h1]
  · rintro ⟨h, h1⟩
    rw [if_pos h] at h1
    simp only [beq_iff_eq, Option.some.injEq, ite_eq_right_iff, one_ne_zero, imp_false] at h1
    rcases hl.1 h with h | h
    · exact absurd h.1 h1
    · exact ⟨.inr (.inl h), h1, h.1⟩

theorem dir_y (g : LadderX) (hv : g.Open) (i j : Nat) (hi : i < g.ladder.linSize) (hj : j < g.ladder.linSize) :
    LadderXDir g 1 i j ↔ LadderDir g.ladder 1 i j := by
  have hl := ladder_connected_iff g.ladder hv.valid i j hi hj
  rw [hv.x, hv.y] at hl
  simp only [adj_open] at hl
  unfold LadderXDir LadderDir
  rw [(ladderx_dir g i j).1, ladderx_connected g hv i j hi hj]
  unfold Ladder.calcDir Ladder.sameColumn
  constructor
  · rintro ⟨h, h1⟩
    have hc : g.ladder.connected i j = true := by
      rw [hl]
      rcases h with h | h | h
      · exact .inl h
      · exact .inr h
      · exact .inl ⟨h1, h.1⟩
    refine ⟨hc, ?_⟩
    rw [if_pos hc]
    simp [h1]
  · rintro ⟨h, h1⟩
    rw [if_pos h] at h1
    simp only [beq_iff_eq, Option.some.injEq, ite_eq_left_iff, zero_ne_one, imp_false, not_not] at h1
    rcases hl.1 h with h | h
    · exact ⟨.inl h, h1⟩
    · exact ⟨.inr (.inl h), h1⟩

/-- Handles that agree on the connections enumerate them alike. -/
theorem Enumerates.congr {N size : Nat} {c c' : Nat → Nat → Prop} {h h' : Nat → Nat → Option Nat}
    (hs : ∀ i j, c i j → c j i) (hc : ∀ i j, i < N → j < N → (c' i j ↔ c i j)) (hh : ∀ i j, i < N → j < N → c i j → h' i j = h i j)
    (e : Enumerates N c h size) : Enumerates N c' h' size where
  lt := by
    intro i j hi hj h1
    rw [hh i j hi hj ((hc i j hi hj).1 h1)]
    exact e.lt i j hi hj ((hc i j hi hj).1 h1)
  symm := by
    intro i j hi hj h1
    have h2 := (hc i j hi hj).1 h1
    rw [hh i j hi hj h2, hh j i hj hi (hs i j h2), e.symm i j hi hj h2]
  inj := by
    intro i j k l hij hj hkl hl h1 h2 he
    have h1' := (hc i j (by omega) hj).1 h1
    have h2' := (hc k l (by omega) hl).1 h2
    rw [hh i j (by omega) hj h1', hh k l (by omega) hl h2'] at he
    exact e.inj i j k l hij hj hkl hl h1' h2' he
  surj := by
    intro x hx
    obtain ⟨i, j, h1, h2, h3, h4⟩ := e.surj x hx
    exact ⟨i, j, h1, h2, (hc i j (by omega) h2).2 h3, by rw [hh i j (by omega) h2 h3]; exact h4⟩

theorem calcDir_symm (g : LadderX) (i j : Nat) : g.calcDir i j = g.calcDir j i := by
  unfold LadderX.calcDir Ladder.sameColumn Ladder.sameRow
  rw [BEq.comm (a := i / g.ladder.leg), BEq.comm (a := i % g.ladder.leg)]
  have e : (if i < j then i else j) = (if j < i then j else i) := by split_ifs <;> omega
  rw [e]

theorem handle_symm (g : LadderX) (i j : Nat) : g.handle j i = g.handle i j := by
  have e : (if j < i then j else i) = (if i < j then i else j) := by split_ifs <;> omega
  unfold LadderX.handle
  rw [calcDir_symm g j i, e]

/-- **C69** On an open ladder of any number of legs, handles along a row or a column enumerate the connections. -/
theorem ladderx_enumerates (g : LadderX) (hv : g.Open) :
    (∃ size, g.getVectorSize 0 = some size ∧ Enumerates g.ladder.linSize (LadderXDir g 0) g.handle size) ∧
    (∃ size, g.getVectorSize 1 = some size ∧ Enumerates g.ladder.linSize (LadderXDir g 1) g.handle size) := by
  obtain ⟨s0, h0, e0⟩ := ladder_x_enumerates g.ladder hv.valid (.inl hv.x)
  obtain ⟨s1, h1, e1⟩ := ladder_y_enumerates g.ladder hv.valid (.inl hv.y)
  refine ⟨⟨s0, h0, e0.congr (fun i j => dir_symm _ _ _ _) (dir_x g hv) ?_⟩, ⟨s1, h1, e1.congr (fun i j => dir_symm _ _ _ _) (dir_y g hv) ?_⟩⟩
  · have key : ∀ i j, i < j → j < g.ladder.linSize → LadderDir g.ladder 0 i j → g.handle i j = g.ladder.handle i j := by
      intro i j hij hj h
      rw [ladder_handle_x g.ladder hv.valid i j hij hj h]
      have hd := ((dir_x g hv i j (by omega) hj).2 h).2
      unfold LadderX.handle
      simp only [hd, if_pos hij, hv.x]
      simp
    intro i j hi hj h
    rcases Nat.lt_trichotomy i j with hl | hl | hl
    · exact key i j hl hj h
    · subst hl; simp [LadderDir, Ladder.connected] at h
    · rw [ladder_handle_symm, ← key j i hl hi (dir_symm _ _ _ _ h)]
      exact handle_symm g j i
  · have key : ∀ i j, i < j → j < g.ladder.linSize → LadderDir g.ladder 1 i j → g.handle i j = g.ladder.handle i j := by
      intro i j hij hj h
      rw [ladder_handle_y g.ladder hv.valid i j hij hj h]
      have hd := ((dir_y g hv i j (by omega) hj).2 h).2
      unfold LadderX.handle
      simp only [hd, if_pos hij, hv.y]
      simp
    intro i j hi hj h
    rcases Nat.lt_trichotomy i j with hl | hl | hl
    · exact key i j hl hj h
    · subst hl; simp [LadderDir, Ladder.connected] at h
    · rw [ladder_handle_symm, ← key j i hl hi (dir_symm _ _ _ _ h)]
      exact handle_symm g j i

/-- The diagonals of a ladder of two legs. -/
theorem diag_iff (g : LadderX) (hv : g.Open) (h2 : g.ladder.leg = 2) (i j : Nat) (hij : i < j) (hj : j < g.ladder.linSize) :
    (LadderXDir g 2 i j ↔ i % 2 = 1 ∧ j = i + 1) ∧ (LadderXDir g 3 i j ↔ i % 2 = 0 ∧ j = i + 3) := by
  unfold LadderXDir
  rw [ladderx_connected g hv i j (by omega) hj]
  unfold LadderX.calcDir Ladder.sameColumn Ladder.sameRow Next
  rw [h2]
  simp only [if_pos hij, beq_iff_eq]
  constructor
  · split_ifs
    all_goals constructor
    all_goals intro h
    all_goals first | omega | exact h.2.elim
  · split_ifs
    all_goals constructor
    all_goals intro h
    all_goals first | omega | exact h.2.elim

/-- **C69** On an open ladder of two legs the handles of the diagonals are distinct and in range. -/
theorem ladderx_diagonals (g : LadderX) (hv : g.Open) (h2 : g.ladder.leg = 2) (d : Nat) (hd : d = 2 ∨ d = 3) :
    ∃ size, g.getVectorSize d = some size ∧ Injects g.ladder.linSize (LadderXDir g d) g.handle size := by
  have hle := hv.valid.leg_le
  rw [h2] at hle
  refine ⟨g.ladder.linSize - 2, ?_, ?_⟩
  · unfold LadderX.getVectorSize
    rw [if_pos (by omega), h2, sub64_le hle]
  have hh : ∀ i j, i < j → j < g.ladder.linSize → LadderXDir g d i j → g.handle i j = some (i / 2) := by
    intro i j hij hj h
    have := diag_iff g hv h2 i j hij hj
    unfold LadderX.handle
    rw [h.2, h2]
    rcases hd with rfl | rfl
    · simp only [if_pos hij]
      have := this.1.1 h
      rw [sub64_le (by omega)]
      congr 1; omega
    · simp only [if_pos hij]
  have hlt : ∀ i j, i < j → j < g.ladder.linSize → LadderXDir g d i j → i / 2 < g.ladder.linSize - 2 := by
    intro i j hij hj h
    obtain ⟨k, hk⟩ := hv.valid.dvd
    rw [h2] at hk
    have := diag_iff g hv h2 i j hij hj
    rcases hd with rfl | rfl
    · have := this.1.1 h; omega
    · have := this.2.1 h; omega
  have hsym : ∀ i j, i < g.ladder.linSize → j < g.ladder.linSize → LadderXDir g d i j → LadderXDir g d j i := by
    intro i j hi hj h
    exact ⟨(ladderx_graph g).symm i j hi hj h.1, by rw [← h.2]; exact calcDir_symm g j i⟩
  refine ⟨?_, fun i j _ _ _ => handle_symm g j i, ?_⟩
  · intro i j hi hj h
    rcases Nat.lt_trichotomy i j with hl | hl | hl
    · exact ⟨_, hh i j hl hj h, hlt i j hl hj h⟩
    · subst hl; exact absurd h.1 ((ladderx_graph g).irrefl i hi)
    · have := hsym i j hi hj h
      rw [← handle_symm g i j]
      exact ⟨_, hh j i hl hi this, hlt j i hl hi this⟩
  · intro i j k l hij hj hkl hl h1 h3 he
    rw [hh i j hij hj h1, hh k l hkl hl h3] at he
    have e := Option.some.inj he
    have d1 := diag_iff g hv h2 i j hij hj
    have d2 := diag_iff g hv h2 k l hkl hl
    rcases hd with rfl | rfl
    · have := d1.1.1 h1; have := d2.1.1 h3; omega
    · have := d1.2.1 h1; have := d2.2.1 h3; omega

/-- But they take up only half of the values that the input must have, for every ladder of more than one column. -/
theorem ladderx_half_fails (g : LadderX) (hv : g.Open) (h2 : g.ladder.leg = 2) (hc : 4 ≤ g.ladder.linSize) (d : Nat) (hd : d = 2 ∨ d = 3) :
    ∃ size h, g.getVectorSize d = some size ∧ h < size ∧
      ∀ i j, i < j → j < g.ladder.linSize → LadderXDir g d i j → g.handle i j ≠ some h := by
  have hle := hv.valid.leg_le
  rw [h2] at hle
  refine ⟨g.ladder.linSize - 2, g.ladder.linSize - 3, ?_, by omega, ?_⟩
  · unfold LadderX.getVectorSize
    rw [if_pos (by omega), h2, sub64_le hle]
  · intro i j hij hj h he
    obtain ⟨k, hk⟩ := hv.valid.dvd
    rw [h2] at hk
    have := diag_iff g hv h2 i j hij hj
    unfold LadderX.handle at he
    rw [h.2, h2] at he
    rcases hd with rfl | rfl
    · have := this.1.1 h
      simp only [if_pos hij, Option.some.injEq] at he
      rw [sub64_le (by omega)] at he
      omega
    · have := this.2.1 h
      simp only [if_pos hij, Option.some.injEq] at he
      omega

/-- With three legs two diagonals of one direction share a handle. -/
theorem ladderx_three_legs_fails :
    let g : LadderX := ⟨⟨6, 3, false, false⟩⟩
    g.Open ∧ LadderXDir g 2 1 3 ∧ LadderXDir g 2 1 5 ∧ g.handle 1 3 = g.handle 1 5 := by
  refine ⟨⟨⟨by decide, by decide, by decide, by decide⟩, rfl, rfl⟩, ⟨by decide, by decide⟩, ⟨by decide, by decide⟩, by decide⟩

/-- And with periodic columns two bonds along a row do. -/
theorem ladderx_periodic_fails :
    let g : LadderX := ⟨⟨8, 2, true, false⟩⟩
    LadderXDir g 0 0 2 ∧ LadderXDir g 0 0 6 ∧ g.handle 0 2 = g.handle 0 6 :=
  ⟨⟨by decide, by decide⟩, ⟨by decide, by decide⟩, by decide⟩

/-! ## Examples -/

example : (⟨⟨8, 2, false, false⟩⟩ : LadderX).Open := ⟨⟨by decide, by decide, by decide, by decide⟩, rfl, rfl⟩
example : LadderXDir ⟨⟨8, 2, false, false⟩⟩ 2 1 2 := ⟨by decide, by decide⟩
example : LadderXDir ⟨⟨8, 2, false, false⟩⟩ 3 0 3 := ⟨by decide, by decide⟩

end Verif.Geom
