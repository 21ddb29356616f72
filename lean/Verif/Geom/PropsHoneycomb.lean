import Verif.Geom.ModelHoneycomb
import Verif.Geom.LemmasLadder

/-!
# C68: the honeycomb lattice

Site `i` is in column `i / ly` and row `i % ly`.
-/

namespace Verif.Geom

open Verif.Loop

namespace Honeycomb

/-- The bonds of the lattice as coded, for sites `i < j`: X = 0, Y = 1, Z = 2.  In a column the bonds repeat Y Z X Z; an X bond also
joins row `4k` to row `4k + 1` of the next column. -/
inductive Bond (g : Honeycomb) : Nat → Nat → Nat → Prop
  | xCol (i : Nat) (h : i % g.ly + 1 < g.ly) (hm : i % g.ly % 4 = 2) : Bond g i (i + 1) 0
  | xNext (i : Nat) (h : i % g.ly + 1 < g.ly) (hm : i % g.ly % 4 = 0) : Bond g i (i + g.ly + 1) 0
  | yCol (i : Nat) (h : i % g.ly + 1 < g.ly) (hm : i % g.ly % 4 = 0) : Bond g i (i + 1) 1
  | zCol (i : Nat) (h : i % g.ly + 1 < g.ly) (hm : i % g.ly % 2 = 1) : Bond g i (i + 1) 2
  | zWrap (i : Nat) (hp : g.periodicY = true) (h0 : i % g.ly = 0) (hl : 1 < g.ly) : Bond g i (i + (g.ly - 1)) 2

/-- Rows come in fours if they are joined at the ends. -/
structure Valid (g : Honeycomb) : Prop where
  ly : 0 < g.ly
  four : g.periodicY = true → 4 ∣ g.ly

theorem is4n (y : Nat) : is4nPlus2 y = true ↔ y % 4 = 2 := by
  unfold is4nPlus2
  split_ifs with h
  · simp; omega
  · simp only [beq_iff_eq]; omega

/-- The coordinates of a site and of a later one. -/
theorem coords (ly i j : Nat) (hly : 0 < ly) (hij : i < j) :
    i / ly < j / ly ∨ (i / ly = j / ly ∧ i % ly < j % ly) := by
  have h := Nat.div_le_div_right (c := ly) (Nat.le_of_lt hij)
  rcases Nat.lt_or_ge (i / ly) (j / ly) with h1 | h1
  · exact .inl h1
  · have e : i / ly = j / ly := by omega
    refine .inr ⟨e, ?_⟩
    have ei := Nat.div_add_mod i ly
    have ej := Nat.div_add_mod j ly
    rw [e] at ei
    omega

/-- **C68** The test for a bond always ends without a failed assertion. -/
theorem connected_total (g : Honeycomb) (hly : 0 < g.ly) (i j : Nat) : ∃ b, g.connected i j = some b := by
  unfold connected connectedInternal
  by_cases hij : i = j
  · exact ⟨false, by simp [hij]⟩
  · rw [if_neg hij, if_neg (by omega)]
    have hc : ∀ i j, i < j → ∃ r : Option Nat, (do
        if ← g.isDirectionX (i / g.ly) (i % g.ly) (j / g.ly) (j % g.ly) then return some 0
        else if ← g.isDirectionY (i / g.ly) (i % g.ly) (j / g.ly) (j % g.ly) then return some 1
        else if ← g.isDirectionZ (i / g.ly) (i % g.ly) (j / g.ly) (j % g.ly) then return some 2
        else return none : Option (Option Nat)) = some r := by
      intro i j h
      rcases coords g.ly i j hly h with h1 | ⟨h1, h2⟩
      · have ne : i / g.ly ≠ j / g.ly := by omega
        have ex : ∃ b, g.isDirectionX (i / g.ly) (i % g.ly) (j / g.ly) (j % g.ly) = some b := by
          unfold isDirectionX; rw [if_neg ne]; split_ifs
          all_goals exact ⟨_, rfl⟩
        have ey : ∃ b, g.isDirectionY (i / g.ly) (i % g.ly) (j / g.ly) (j % g.ly) = some b := by
          unfold isDirectionY; rw [if_neg ne]; split_ifs
          all_goals exact ⟨_, rfl⟩
        obtain ⟨bx, ex⟩ := ex
        obtain ⟨b, ey⟩ := ey
        have ez : g.isDirectionZ (i / g.ly) (i % g.ly) (j / g.ly) (j % g.ly) = some false := by
          unfold isDirectionZ; rw [if_pos ne]
        rw [ex, ey, ez]
        cases bx <;> cases b <;> exact ⟨_, rfl⟩
      · have ex : ∃ b, g.isDirectionX (i / g.ly) (i % g.ly) (j / g.ly) (j % g.ly) = some b := by
          unfold isDirectionX isDirectionXsameCol; rw [if_pos h1, if_pos h2]; exact ⟨_, rfl⟩
        have ey : ∃ b, g.isDirectionY (i / g.ly) (i % g.ly) (j / g.ly) (j % g.ly) = some b := by
          unfold isDirectionY isDirectionYsameCol; rw [if_pos h1, if_pos h2]; exact ⟨_, rfl⟩
        have ez : ∃ b, g.isDirectionZ (i / g.ly) (i % g.ly) (j / g.ly) (j % g.ly) = some b := by
          unfold isDirectionZ; rw [if_neg (by simpa using h1), if_pos h2]; exact ⟨_, rfl⟩
        obtain ⟨bx, ex⟩ := ex
        obtain ⟨b, ey⟩ := ey
        obtain ⟨bz, ez⟩ := ez
        rw [ex, ey, ez]
        cases bx <;> cases b <;> cases bz <;> exact ⟨_, rfl⟩
    rcases Nat.lt_or_ge i j with h | h
    · simp only [if_pos h]
      obtain ⟨r, e⟩ := hc i j h
      rw [e]
      exact ⟨_, rfl⟩
    · have hn : ¬ i < j := by omega
      simp only [if_neg hn]
      obtain ⟨r, e⟩ := hc j i (by omega)
      rw [e]
      exact ⟨_, rfl⟩

theorem internal_symm (g : Honeycomb) (i j : Nat) : g.connectedInternal i j = g.connectedInternal j i := by
  by_cases h : i = j
  · rw [h]
  · unfold connectedInternal
    rw [if_neg h, if_neg (Ne.symm h)]
    rcases Nat.lt_or_ge i j with h1 | h1
    · have h2 : ¬ j < i := by omega
      simp only [if_pos h1, if_neg h2]
    · have h2 : j < i := by omega
      have h3 : ¬ i < j := by omega
      simp only [if_pos h2, if_neg h3]

/-- **C68** The connections form a graph, whatever the boundary conditions. -/
theorem honeycomb_graph (g : Honeycomb) : IsGraph g.linSize (fun i j => g.connected i j = some true) where
  symm := by intro i j _ _ h; unfold connected at *; rwa [internal_symm]
  irrefl := by intro i _; simp [connected, connectedInternal]

/-- **C68** And both ends of a bond give it the same direction. -/
theorem honeycomb_dir_symm (g : Honeycomb) (i j : Nat) : g.calcDir i j = g.calcDir j i := by
  unfold calcDir; rw [internal_symm]

theorem bond_lt {g : Honeycomb} (hv : g.Valid) {i j d : Nat} (h : Bond g i j d) : i < j := by
  have := hv.ly
  cases h <;> omega

theorem bond_coords {g : Honeycomb} (hv : g.Valid) (i j d : Nat) :
    Bond g i j d ↔
      (d = 0 ∧ ((i / g.ly = j / g.ly ∧ j % g.ly = i % g.ly + 1 ∧ i % g.ly % 4 = 2) ∨
        (j / g.ly = i / g.ly + 1 ∧ j % g.ly = i % g.ly + 1 ∧ i % g.ly % 4 = 0))) ∨
      (d = 1 ∧ i / g.ly = j / g.ly ∧ j % g.ly = i % g.ly + 1 ∧ i % g.ly % 4 = 0) ∨
      (d = 2 ∧ i / g.ly = j / g.ly ∧ ((j % g.ly = i % g.ly + 1 ∧ i % g.ly % 2 = 1) ∨
        (g.periodicY = true ∧ i % g.ly = 0 ∧ j % g.ly = g.ly - 1 ∧ 1 < g.ly))) := by
  have hly := hv.ly
  have step : ∀ i k r, r < g.ly → (i / g.ly + k) * g.ly + r = (i / g.ly + k) * g.ly + r →
      ((i / g.ly + k) * g.ly + r) / g.ly = i / g.ly + k ∧ ((i / g.ly + k) * g.ly + r) % g.ly = r := by
    intro i k r hr _
    rw [Nat.mul_comm, Nat.mul_add_div hly, Nat.div_eq_of_lt hr, Nat.mul_add_mod, Nat.mod_eq_of_lt hr]
    exact ⟨rfl, rfl⟩
  have ei := Nat.div_add_mod' i g.ly
  have ej := Nat.div_add_mod' j g.ly
  constructor
  · intro h
    cases h with
    | xCol h hm =>
      obtain ⟨e1, e2⟩ := step i 0 (i % g.ly + 1) h rfl
      have e : (i / g.ly + 0) * g.ly + (i % g.ly + 1) = i + 1 := by rw [Nat.add_zero]; omega
      rw [e] at e1 e2
      exact .inl ⟨rfl, .inl ⟨e1.symm, e2, hm⟩⟩
    | xNext h hm =>
      obtain ⟨e1, e2⟩ := step i 1 (i % g.ly + 1) h rfl
      have e : (i / g.ly + 1) * g.ly + (i % g.ly + 1) = i + g.ly + 1 := by rw [Nat.add_mul]; omega
      rw [e] at e1 e2
      exact .inl ⟨rfl, .inr ⟨e1, e2, hm⟩⟩
    | yCol h hm =>
      obtain ⟨e1, e2⟩ := step i 0 (i % g.ly + 1) h rfl
      have e : (i / g.ly + 0) * g.ly + (i % g.ly + 1) = i + 1 := by rw [Nat.add_zero]; omega
      rw [e] at e1 e2
      exact .inr (.inl ⟨rfl, e1.symm, e2, hm⟩)
    | zCol h hm =>
      obtain ⟨e1, e2⟩ := step i 0 (i % g.ly + 1) h rfl
      have e : (i / g.ly + 0) * g.ly + (i % g.ly + 1) = i + 1 := by rw [Nat.add_zero]; omega
      rw [e] at e1 e2
      exact .inr (.inr ⟨rfl, e1.symm, .inl ⟨e2, hm⟩⟩)
    | zWrap hp h0 hl =>
      obtain ⟨e1, e2⟩ := step i 0 (g.ly - 1) (by omega) rfl
      have e : (i / g.ly + 0) * g.ly + (g.ly - 1) = i + (g.ly - 1) := by rw [Nat.add_zero]; omega
      rw [e] at e1 e2
      exact .inr (.inr ⟨rfl, e1.symm, .inr ⟨hp, h0, e2, hl⟩⟩)
  · have hj := Nat.mod_lt j hly
    rintro (⟨rfl, ⟨h1, h2, h3⟩ | ⟨h1, h2, h3⟩⟩ | ⟨rfl, h1, h2, h3⟩ | ⟨rfl, h1, ⟨h2, h3⟩ | ⟨hp, h0, h2, hl⟩⟩)
    · have : j = i + 1 := by rw [h1] at ei; omega
      rw [this]; exact .xCol i (by omega) h3
    · have : j = i + g.ly + 1 := by rw [h1, Nat.add_mul] at ej; omega
      rw [this]; exact .xNext i (by omega) h3
    · have : j = i + 1 := by rw [h1] at ei; omega
      rw [this]; exact .yCol i (by omega) h3
    · have : j = i + 1 := by rw [h1] at ei; omega
      rw [this]; exact .zCol i (by omega) h3
    · have : j = i + (g.ly - 1) := by rw [h1] at ei; omega
      rw [this]; exact .zWrap i hp h0 hl

/-- **C68** Without the periodic condition on columns, the bonds and their directions are those of the lattice. -/
theorem honeycomb_bonds (g : Honeycomb) (hv : g.Valid) (hx : g.periodicX = false) (hs : g.linSize < 2 ^ 64) (i j d : Nat) (hij : i < j)
    (hj : j < g.linSize) : g.calcDir i j = some d ↔ Bond g i j d := by
  have hly := hv.ly
  rw [bond_coords hv]
  unfold calcDir connectedInternal
  rw [if_neg (by omega), if_neg (by omega)]
  simp only [if_pos hij]
  have hyi := Nat.mod_lt i hly
  have hyj := Nat.mod_lt j hly
  have hyi' := Nat.mod_le i g.ly
  have hyj' := Nat.mod_le j g.ly
  have hs' : g.linSize < 18446744073709551616 := by simpa using hs
  have hc := coords g.ly i j hly hij
  generalize hx1 : i / g.ly = x1 at *
  generalize hy1 : i % g.ly = y1 at *
  generalize hx2 : j / g.ly = x2 at *
  generalize hy2 : j % g.ly = y2 at *
  rcases hc with h1 | ⟨h1, h2⟩
  · have ne : x1 ≠ x2 := by omega
    have hsub : sub64 y2 y1 = 1 ↔ y2 = y1 + 1 := by
      unfold sub64
      norm_num
      split_ifs <;> omega
    unfold isDirectionX isDirectionY isDirectionZ
    rw [if_neg ne, if_neg ne, if_pos ne]
    by_cases hd : sub64 y2 y1 = 1
    · have hd' := hsub.1 hd
      simp only [hd, ne_eq, not_true_eq_false, if_false, if_pos h1, hx, Bool.not_false, if_true]
      by_cases hb : x2 - x1 = 1 ∧ y1 % 4 = 0 ∧ y1 < y2
      · simp only [if_pos hb]
        simp only [bind, Option.bind_some, pure, if_true, Option.some.injEq]
        constructor
        · intro h; exact .inl ⟨h.symm, .inr ⟨by omega, hd', hb.2.1⟩⟩
        · intro h; omega
      · simp only [if_neg hb]
        have hb2 : ¬ (x2 - x1 = 1 ∧ y1 % 3 = 0 ∧ y2 < y1) := by omega
        simp only [if_neg hb2]
        simp only [bind, Option.bind_some, pure, Bool.false_eq_true, if_false]
        constructor
        · intro h; cases h
        · intro h; exfalso; omega
    · have hd' : ¬ y2 = y1 + 1 := fun h => hd (hsub.2 h)
      simp only [hd, ne_eq, not_false_eq_true, if_true]
      simp only [bind, Option.bind_some, pure, Bool.false_eq_true, if_false]
      constructor
      · intro h; cases h
      · intro h; exfalso; omega
  · unfold isDirectionX isDirectionY isDirectionZ isDirectionXsameCol isDirectionYsameCol
    have hf : ∀ y, g.periodicY = true → y % 4 ≠ 3 → y ≠ g.ly - 1 := by
      intro y hp hm he
      obtain ⟨k, hk⟩ := hv.four hp
      omega
    rw [if_pos h1, if_pos h1, if_pos h2, if_pos h2, if_neg (by simpa using h1), if_pos h2]
    have ex : (if y2 - y1 = 1 ∧ is4nPlus2 y1 = true then true else g.periodicY && decide (y2 - y1 + 1 = g.ly) && is4nPlus2 y2) =
        decide (y2 = y1 + 1 ∧ y1 % 4 = 2) := by
      simp only [is4n]
      by_cases hc : y2 - y1 = 1 ∧ y1 % 4 = 2
      · rw [if_pos hc]; simp; omega
      · rw [if_neg hc]
        have : ¬ (y2 = y1 + 1 ∧ y1 % 4 = 2) := by omega
        rw [decide_eq_false this]
        by_contra hn
        simp only [Bool.not_eq_false, Bool.and_eq_true, decide_eq_true_eq, is4n] at hn
        exact hf y2 hn.1.1 (by omega) (by omega)
    have ey : (if y2 - y1 = 1 ∧ y1 % 4 = 0 then true else g.periodicY && decide (y2 - y1 + 1 = g.ly) && (y2 % 4 == 0)) =
        decide (y2 = y1 + 1 ∧ y1 % 4 = 0) := by
      by_cases hc : y2 - y1 = 1 ∧ y1 % 4 = 0
      · rw [if_pos hc]; simp; omega
      · rw [if_neg hc]
        have : ¬ (y2 = y1 + 1 ∧ y1 % 4 = 0) := by omega
        rw [decide_eq_false this]
        by_contra hn
        simp only [Bool.not_eq_false, Bool.and_eq_true, decide_eq_true_eq, beq_iff_eq] at hn
        exact hf y2 hn.1.1 (by omega) (by omega)
    have ez : (if y2 - y1 = 1 ∧ y1 % 2 = 1 then true else if (!g.periodicY) = true then false else decide (y2 - y1 + 1 = g.ly)) =
        decide ((y2 = y1 + 1 ∧ y1 % 2 = 1) ∨ (g.periodicY = true ∧ y1 = 0 ∧ y2 = g.ly - 1 ∧ 1 < g.ly)) := by
      by_cases hc : y2 - y1 = 1 ∧ y1 % 2 = 1
      · rw [if_pos hc]; symm; rw [decide_eq_true_eq]; left; omega
      · rw [if_neg hc]
        by_cases hp : g.periodicY = true
        · simp only [hp, Bool.not_true, Bool.false_eq_true, if_false, true_and]
          by_cases he : y2 - y1 + 1 = g.ly
          · rw [decide_eq_true he]; symm; rw [decide_eq_true_eq]; omega
          · rw [decide_eq_false he]; symm; rw [decide_eq_false_iff_not]; omega
        · simp only [hp, Bool.not_eq_true]
          simp only [Bool.not_eq_true] at hp
          simp only [hp, Bool.not_false, if_true, Bool.false_eq_true, false_and, or_false]
          symm; rw [decide_eq_false_iff_not]; omega
    simp only [ex, ey, ez]
    simp only [bind, Option.bind_some, pure, decide_eq_true_eq]
    have hx2' : ¬ x2 = x1 + 1 := by omega
    by_cases c0 : y2 = y1 + 1 ∧ y1 % 4 = 2
    · rw [if_pos c0]
      simp only [Option.bind_some, Option.some.injEq]
      constructor
      · intro h; exact .inl ⟨h.symm, .inl ⟨h1, c0⟩⟩
      · rintro (h | h | ⟨_, _, h | h⟩)
        · exact h.1.symm
        · omega
        · omega
        · omega
    · rw [if_neg c0]
      by_cases c1 : y2 = y1 + 1 ∧ y1 % 4 = 0
      · rw [if_pos c1]
        simp only [Option.bind_some, Option.some.injEq]
        constructor
        · intro h; exact .inr (.inl ⟨h.symm, h1, c1⟩)
        · rintro (⟨_, h | h⟩ | h | ⟨_, _, h | h⟩)
          · omega
          · omega
          · exact h.1.symm
          · omega
          · obtain ⟨hp, h0, hl, hll⟩ := h
            obtain ⟨k, hk⟩ := hv.four hp
            omega
      · rw [if_neg c1]
        by_cases c2 : (y2 = y1 + 1 ∧ y1 % 2 = 1) ∨ (g.periodicY = true ∧ y1 = 0 ∧ y2 = g.ly - 1 ∧ 1 < g.ly)
        · rw [if_pos c2]
          simp only [Option.bind_some, Option.some.injEq]
          constructor
          · intro h; exact .inr (.inr ⟨h.symm, h1, c2⟩)
          · rintro (⟨_, h | h⟩ | h | ⟨h, _⟩)
            · omega
            · omega
            · omega
            · exact h.symm
        · rw [if_neg c2]
          simp only [Option.bind_some]
          constructor
          · intro h; cases h
          · rintro (⟨_, h | h⟩ | h | ⟨h, _, h'⟩)
            · omega
            · omega
            · omega
            · exact absurd h' c2

/-- **C68** So no site has two bonds in one direction, and every site has at most three neighbours. -/
theorem honeycomb_one (g : Honeycomb) (hv : g.Valid) (hx : g.periodicX = false) (hs : g.linSize < 2 ^ 64) (i j k d : Nat) (hi : i < g.linSize)
    (hj : j < g.linSize) (hk : k < g.linSize) (h1 : g.calcDir i j = some d) (h2 : g.calcDir i k = some d) : j = k := by
  have hly := hv.ly
  have key : ∀ i j, i < g.linSize → j < g.linSize → g.calcDir i j = some d → Bond g i j d ∨ Bond g j i d := by
    intro i j hi hj h
    rcases Nat.lt_trichotomy i j with hl | hl | hl
    · exact .inl ((honeycomb_bonds g hv hx hs i j d hl hj).1 h)
    · subst hl; simp [calcDir, connectedInternal] at h
    · rw [honeycomb_dir_symm] at h
      exact .inr ((honeycomb_bonds g hv hx hs j i d hl hi).1 h)
  have eq : ∀ a b : Nat, a / g.ly = b / g.ly → a % g.ly = b % g.ly → a = b := fun a b => site_eq
  have hyi := Nat.mod_lt i hly
  have hyj := Nat.mod_lt j hly
  have hyk := Nat.mod_lt k hly
  have hf : g.periodicY = true → g.ly % 4 = 0 := fun hp => Nat.mod_eq_zero_of_dvd (hv.four hp)
  have k1 := key i j hi hj h1
  have k2 := key i k hi hk h2
  simp only [bond_coords hv] at k1 k2
  clear key h1 h2
  have : j / g.ly = k / g.ly ∧ j % g.ly = k % g.ly := by
    generalize i / g.ly = xi at *
    generalize i % g.ly = yi at *
    generalize j / g.ly = xj at *
    generalize j % g.ly = yj at *
    generalize k / g.ly = xk at *
    generalize k % g.ly = yk at *
    rcases k1 with (⟨e, h | h⟩ | ⟨e, h⟩ | ⟨e, h, h' | h'⟩) | (⟨e, h | h⟩ | ⟨e, h⟩ | ⟨e, h, h' | h'⟩) <;>
      rcases k2 with (⟨e2, h2 | h2⟩ | ⟨e2, h2⟩ | ⟨e2, h2, h2' | h2'⟩) | (⟨e2, h2 | h2⟩ | ⟨e2, h2⟩ | ⟨e2, h2, h2' | h2'⟩) <;>
      first
        | omega
        | (have := hf h'.1; omega)
        | (have := hf h2'.1; omega)
  exact eq j k this.1 this.2

/-- In a honeycomb each site away from the boundary has bonds in all three directions.  Here half of them have no Y bond: the test
for the bond from row `4k + 3` to row `4k + 2` of the next column asks that the row should both increase and decrease. -/
theorem honeycomb_no_y_fails (g : Honeycomb) (hv : g.Valid) (hx : g.periodicX = false) (hs : g.linSize < 2 ^ 64) (i j : Nat)
    (hi : i < g.linSize) (hj : j < g.linSize) (hr : 2 ≤ i % g.ly % 4) : g.calcDir i j ≠ some 1 := by
  intro h
  rcases Nat.lt_trichotomy i j with hl | hl | hl
  · have := (honeycomb_bonds g hv hx hs i j 1 hl hj).1 h
    rw [bond_coords hv] at this
    omega
  · subst hl; simp [calcDir, connectedInternal] at h
  · rw [honeycomb_dir_symm] at h
    have := (honeycomb_bonds g hv hx hs j i 1 hl hi).1 h
    rw [bond_coords hv] at this
    omega

/-- With the periodic condition on columns, some sites have two Y bonds, and the X bonds across the boundary are missing. -/
theorem honeycomb_periodic_fails :
    let g : Honeycomb := ⟨36, 12, true, true⟩
    g.calcDir 8 9 = some 1 ∧ g.calcDir 8 33 = some 1 ∧ g.connected 24 1 = some false := by decide +kernel

/-! ## Fringe -/

theorem neighbor_spec (g : Honeycomb) (hly : 0 < g.ly) (ind : Nat) : ∀ k i, ∃ b, g.isThereAneighbor ind k i = some b ∧
    (b = true ↔ ∃ j, i ≤ j ∧ j < i + k ∧ g.connected ind j = some true) := by
  intro k
  induction k with
  | zero => intro i; exact ⟨false, rfl, by simp; intro j h1 h2; omega⟩
  | succ k ih =>
    intro i
    obtain ⟨c, hc⟩ := connected_total g hly ind i
    unfold isThereAneighbor
    rw [hc]
    cases c with
    | true => exact ⟨true, rfl, by simp only [true_iff]; exact ⟨i, by omega, by omega, hc⟩⟩
    | false =>
      obtain ⟨b, e, hb⟩ := ih (i + 1)
      refine ⟨b, by simpa [bind] using e, ?_⟩
      rw [hb]
      constructor
      · rintro ⟨j, h1, h2, h3⟩; exact ⟨j, by omega, by omega, h3⟩
      · rintro ⟨j, h1, h2, h3⟩
        by_cases hji : j = i
        · subst hji; rw [hc] at h3; simp at h3
        · exact ⟨j, by omega, by omega, h3⟩

/-- **C68** A site of the system is in the fringe just if it has a neighbour in the environment. -/
theorem fringe_system (g : Honeycomb) (hly : 0 < g.ly) (i smax emin : Nat) (hi : i ≤ smax) :
    g.fringe i smax emin = some true ↔ ∃ j, emin ≤ j ∧ j < g.linSize ∧ g.connected i j = some true := by
  unfold fringe
  rw [if_pos hi]
  obtain ⟨b, e, hb⟩ := neighbor_spec g hly i (g.linSize - emin) emin
  rw [e]
  simp only [Option.some.injEq]
  rw [hb]
  constructor
  · rintro ⟨j, h1, h2, h3⟩; exact ⟨j, h1, by omega, h3⟩
  · rintro ⟨j, h1, h2, h3⟩; exact ⟨j, h1, by omega, h3⟩

/-- **C68** One of the environment is in it just if it has a neighbour among the sites before the last of the system. -/
theorem fringe_environ (g : Honeycomb) (hly : 0 < g.ly) (i smax emin : Nat) (hi : smax < i) (he : emin ≤ i) :
    g.fringe i smax emin = some true ↔ ∃ j, j < smax ∧ g.connected i j = some true := by
  unfold fringe
  rw [if_neg (by omega), if_pos he]
  obtain ⟨b, e, hb⟩ := neighbor_spec g hly i smax 0
  rw [e]
  simp only [Option.some.injEq]
  rw [hb]
  constructor
  · rintro ⟨j, _, h2, h3⟩; exact ⟨j, by omega, h3⟩
  · rintro ⟨j, h2, h3⟩; exact ⟨j, by omega, by omega, h3⟩

/-- The last site of the system is left out: site 4 touches it and is not in the fringe. -/
theorem fringe_last_fails :
    let g : Honeycomb := ⟨8, 8, false, false⟩
    EnvFringe 8 (fun i j => g.connected i j = some true) 4 4 ∧ g.fringe 4 3 4 = some false :=
  ⟨⟨by omega, by omega, 3, by omega, by decide +kernel⟩, by decide +kernel⟩

/-- **C68** The constructor: without the number of sites of a leg, or without `IsPeriodicY`, it throws; without `IsPeriodicX` the lattice is open
along x; a number above zero stands for periodic. -/
theorem honeycomb_ctor (linSize ly : Nat) (y x : Int) (a : Option Nat) (b c : Option Int) :
    ctor linSize none b c = none ∧ ctor linSize a none c = none ∧
    ctor linSize (some ly) (some y) none = some ⟨linSize, ly, decide (0 < y), false⟩ ∧
    ctor linSize (some ly) (some y) (some x) = some ⟨linSize, ly, decide (0 < y), decide (0 < x)⟩ := by
  refine ⟨rfl, ?_, rfl, rfl⟩
  cases a <;> rfl

/-! ## Examples -/

example : ctor 24 (some 8) (some 1) none = some ⟨24, 8, true, false⟩ := rfl
example : Valid ⟨24, 8, true, false⟩ := ⟨by decide, fun _ => ⟨2, rfl⟩⟩
example : (⟨24, 8, true, false⟩ : Honeycomb).calcDir 0 9 = some 0 := by decide +kernel
example : (⟨24, 8, true, false⟩ : Honeycomb).calcDir 0 7 = some 2 := by decide +kernel
example : (⟨24, 8, true, false⟩ : Honeycomb).fringe 0 7 8 = some true := by decide +kernel

end Honeycomb

end Verif.Geom
