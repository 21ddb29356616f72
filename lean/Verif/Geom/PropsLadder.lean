import Verif.Geom.LemmasLadder
import Verif.Geom.PropsChain

/-! # C29, C34 (ladder), C67 (ladder) -/

namespace Verif.Geom

open Verif.Loop

/-- A ladder the constructor returns satisfies what the theorems below assume. -/
theorem ladder_ctor_valid (linSize leg : Nat) (px py : Option Int) (junk : Bool) (g : Ladder)
    (h : Ladder.ctor linSize leg px py junk = some (some g)) (hpos : 0 < linSize) :
    g.Valid ∧ g.linSize = linSize ∧ g.leg = leg := by
  unfold Ladder.ctor at h
  simp only at h
  split at h
  · simp at h
  · split_ifs at h with h1 h2 h3
    · simp at h
    · simp only [Option.some.injEq] at h
      subst h
      exact ⟨⟨by simp; omega, Nat.dvd_of_mod_eq_zero (by simpa using h2), hpos, fun _ => rfl⟩, rfl, rfl⟩
    · simp only [Option.some.injEq] at h
      subst h
      exact ⟨⟨by simp; omega, Nat.dvd_of_mod_eq_zero (by simpa using h2), hpos, fun e => absurd e h3⟩, rfl, rfl⟩

/-- **C29** Site `r + c*leg` is row `r` of column `c`: two sites are connected when they are
neighbours in the same column or in the same row. -/
theorem ladder_connected (g : Ladder) (hv : g.Valid) (c r c' r' : Nat) (hc : c < g.linSize / g.leg)
    (hr : r < g.leg) (hc' : c' < g.linSize / g.leg) (hr' : r' < g.leg) :
    g.connected (r + c * g.leg) (r' + c' * g.leg) = true ↔
      (c = c' ∧ Adj g.leg g.isPeriodicY r r') ∨ (r = r' ∧ Adj (g.linSize / g.leg) g.isPeriodicX c c') := by
  have lt : ∀ c r, c < g.linSize / g.leg → r < g.leg → r + c * g.leg < g.linSize := by
    intro c r hc hr
    have := hv.size
    have : (c + 1) * g.leg ≤ g.linSize / g.leg * g.leg := Nat.mul_le_mul_right _ hc
    rw [Nat.add_mul] at this
    omega
  have d : ∀ c r, r < g.leg → (r + c * g.leg) / g.leg = c ∧ (r + c * g.leg) % g.leg = r := by
    intro c r hr
    rw [Nat.add_mul_div_right _ _ hv.leg, Nat.add_mul_mod_self_right, Nat.div_eq_of_lt hr, Nat.mod_eq_of_lt hr]
    exact ⟨by omega, rfl⟩
  rw [ladder_connected_iff g hv _ _ (lt c r hc hr) (lt c' r' hc' hr'), (d c r hr).1, (d c r hr).2,
    (d c' r' hr').1, (d c' r' hr').2]

/-- **C29** The ladder is a graph. -/
theorem ladder_graph (g : Ladder) : IsGraph g.linSize (fun i j => g.connected i j = true) where
  symm := by intro i j _ _ h; rwa [ladder_conn_symm]
  irrefl := by intro i _; simp [Ladder.connected]

/-- Connections of one direction. -/
def LadderDir (g : Ladder) (d : Nat) (i j : Nat) : Prop := g.connected i j = true ∧ g.calcDir i j = some d

/-- **C29** Every connection has exactly one of the two directions. -/
theorem ladder_dirs (g : Ladder) (i j : Nat) (h : g.connected i j = true) :
    (LadderDir g 0 i j ∧ ¬ LadderDir g 1 i j) ∨ (LadderDir g 1 i j ∧ ¬ LadderDir g 0 i j) := by
  unfold LadderDir Ladder.calcDir
  simp only [h, if_true, true_and, Option.some.injEq]
  split_ifs <;> simp

theorem ladder_handle_x (g : Ladder) (hv : g.Valid) (i j : Nat) (hij : i < j) (hj : j < g.linSize)
    (h : LadderDir g 0 i j) : g.handle i j = some (if g.isPeriodicX = true ∧ i < g.leg ∧
      j = i + (g.linSize - g.leg) then j else i) := by
  unfold Ladder.handle
  rw [h.2]
  have := hv.leg_le
  simp only [bind, Option.bind_some, if_true, if_pos hij]
  rw [sub64_le (by omega), show i + g.linSize - g.leg = i + (g.linSize - g.leg) by omega]
  cases g.isPeriodicX
  · simp
  · simp only [Bool.not_true, Bool.false_eq_true, if_false, true_and]
    split_ifs <;> rfl

theorem ladder_handle_y (g : Ladder) (hv : g.Valid) (i j : Nat) (hij : i < j) (hj : j < g.linSize)
    (h : LadderDir g 1 i j) : g.handle i j = some (if g.isPeriodicY = true then
      (if i % g.leg = 0 ∧ j = i + (g.leg - 1) then j else i) else i - i / g.leg) := by
  unfold Ladder.handle
  rw [h.2]
  have := hv.leg
  simp only [bind, Option.bind_some, if_pos hij, one_ne_zero, if_false, if_true]
  rw [sub64_le (Nat.div_le_self _ _), show i + g.leg - 1 = i + (g.leg - 1) by omega]
  cases g.isPeriodicY
  · simp
  · simp only [Bool.not_true, Bool.false_eq_true, if_false, if_true]
    split_ifs <;> rfl

theorem dir_symm (g : Ladder) (d i j : Nat) (h : LadderDir g d i j) : LadderDir g d j i := by
  unfold LadderDir at *
  rwa [ladder_conn_symm, ladder_dir_symm]

/-- To check handles it is enough to look at pairs with `i < j`. -/
theorem injects_of_lt (g : Ladder) (d size : Nat) (hlt : ∀ i j, i < j → j < g.linSize → LadderDir g d i j →
      ∃ h, g.handle i j = some h ∧ h < size)
    (hinj : ∀ i j k l, i < j → j < g.linSize → k < l → l < g.linSize → LadderDir g d i j → LadderDir g d k l →
      g.handle i j = g.handle k l → i = k ∧ j = l) : Injects g.linSize (LadderDir g d) g.handle size where
  lt := by
    intro i j hi hj h
    rcases Nat.lt_trichotomy i j with hij | hij | hij
    · exact hlt i j hij hj h
    · subst hij
      have := h.1
      simp [Ladder.connected] at this
    · rw [ladder_handle_symm]
      exact hlt j i hij hi (dir_symm g d i j h)
  symm := fun i j _ _ _ => ladder_handle_symm g i j
  inj := hinj

/-- **C29** X handles are distinct and in range, for every ladder. -/
theorem ladder_x_injects (g : Ladder) (hv : g.Valid) : ∃ size, g.getVectorSize 0 = some size ∧
    Injects g.linSize (LadderDir g 0) g.handle size := by
  have hle := hv.leg_le
  have hleg := hv.leg
  refine ⟨_, rfl, injects_of_lt g 0 _ ?_ ?_⟩
  · intro i j hij hj h
    refine ⟨_, ladder_handle_x g hv i j hij hj h, ?_⟩
    have := (ladder_x_iff g hv i j hij hj).1 h
    rw [sub64_le hle]
    split_ifs with h1 h2 h2
    · omega
    · exact absurd h1.1 (by simpa using h2)
    · omega
    · simp only [Bool.not_eq_true] at h2
      rw [h2] at this
      simp at this
      omega
  · intro i j k l hij hj hkl hl h1 h2 heq
    rw [ladder_handle_x g hv i j hij hj h1, ladder_handle_x g hv k l hkl hl h2, Option.some.injEq] at heq
    have e1 := (ladder_x_iff g hv i j hij hj).1 h1
    have e2 := (ladder_x_iff g hv k l hkl hl).1 h2
    split_ifs at heq with a b b
    · omega
    · rcases e2 with e2 | e2
      · omega
      · exact absurd e2 b
    · rcases e1 with e1 | e1
      · omega
      · exact absurd e1 a
    · rcases e1 with e1 | e1
      · rcases e2 with e2 | e2
        · omega
        · exact absurd e2 b
      · exact absurd e1 a

/-- **C29** X handles enumerate the X connections, when the boundary is open or there are at least
three columns. -/
theorem ladder_x_enumerates (g : Ladder) (hv : g.Valid) (hp : g.isPeriodicX = false ∨ 3 ≤ g.linSize / g.leg) :
    ∃ size, g.getVectorSize 0 = some size ∧ Enumerates g.linSize (LadderDir g 0) g.handle size := by
  obtain ⟨size, h1, h2⟩ := ladder_x_injects g hv
  refine ⟨size, h1, ⟨h2, ?_⟩⟩
  have hle := hv.leg_le
  have hleg := hv.leg
  have hs : size = if g.isPeriodicX then g.linSize else g.linSize - g.leg := by
    simp only [Ladder.getVectorSize, if_true, Option.some.injEq] at h1
    rw [← h1, sub64_le hle]
  intro h hh
  by_cases hlt : h < g.linSize - g.leg
  · have hd := (ladder_x_iff g hv h (h + g.leg) (by omega) (by omega)).2 (Or.inl rfl)
    refine ⟨h, h + g.leg, by omega, by omega, hd, ?_⟩
    rw [ladder_handle_x g hv _ _ (by omega) (by omega) hd, if_neg]
    rintro ⟨hpx, _, h4⟩
    rcases hp with hp | hp
    · rw [hp] at hpx; simp at hpx
    · have := hv.size
      have : 3 * g.leg ≤ g.linSize / g.leg * g.leg := Nat.mul_le_mul_right _ hp
      omega
  · have hpx : g.isPeriodicX = true := by
      by_contra hx
      simp only [Bool.not_eq_true] at hx
      rw [hs, hx] at hh
      simp at hh
      omega
    rw [hs, hpx] at hh
    simp only [if_true] at hh
    have h3 : 3 ≤ g.linSize / g.leg := by
      rcases hp with hp | hp
      · rw [hp] at hpx; simp at hpx
      · exact hp
    have e3 : 3 * g.leg ≤ g.linSize / g.leg * g.leg := Nat.mul_le_mul_right _ h3
    rw [← hv.size] at e3
    have hd := (ladder_x_iff g hv (h - (g.linSize - g.leg)) h (by omega) hh).2
      (Or.inr ⟨hpx, by omega, by omega⟩)
    refine ⟨_, h, by omega, hh, hd, ?_⟩
    rw [ladder_handle_x g hv _ _ (by omega) (by omega) hd, if_pos ⟨hpx, by omega, by omega⟩]

/-- **C29, violated part** A periodic ladder with two columns reports twice as many X connections
as it has: handle 0 belongs to none. -/
theorem ladder_x_two_columns_fails :
    Ladder.ctor 4 2 (some 1) none false = some (some ⟨4, 2, true, false⟩) ∧
    (⟨4, 2, true, false⟩ : Ladder).getVectorSize 0 = some 4 ∧
    ∀ i j, i < 4 → j < 4 → LadderDir ⟨4, 2, true, false⟩ 0 i j →
      (⟨4, 2, true, false⟩ : Ladder).handle i j ≠ some 0 := by
  refine ⟨by decide, by decide, ?_⟩
  have : ∀ i j : Fin 4, (⟨4, 2, true, false⟩ : Ladder).handle i j ≠ some 0 ∨
    (⟨4, 2, true, false⟩ : Ladder).calcDir i j ≠ some 0 := by decide +kernel
  intro i j hi hj h
  rcases this ⟨i, hi⟩ ⟨j, hj⟩ with h' | h'
  · exact h'
  · exact absurd h.2 h'

theorem yhandle (leg i : Nat) (hl : 1 < leg) (h : i % leg + 1 < leg) :
    (i - i / leg) / (leg - 1) = i / leg ∧ (i - i / leg) % (leg - 1) = i % leg := by
  have ei := Nat.div_add_mod i leg
  have e : i - i / leg = i % leg + (leg - 1) * (i / leg) := by
    have : leg * (i / leg) = (leg - 1) * (i / leg) + i / leg := by
      rw [← Nat.succ_mul]; congr 1; omega
    omega
  rw [e, Nat.add_mul_div_left _ _ (by omega), Nat.add_mul_mod_self_left, Nat.div_eq_of_lt (by omega),
    Nat.mod_eq_of_lt (by omega)]
  exact ⟨by omega, rfl⟩

/-- **C29** Y handles are distinct and in range, for every ladder. -/
theorem ladder_y_injects (g : Ladder) (hv : g.Valid) : ∃ size, g.getVectorSize 1 = some size ∧
    Injects g.linSize (LadderDir g 1) g.handle size := by
  have hleg := hv.leg
  refine ⟨_, rfl, injects_of_lt g 1 _ ?_ ?_⟩
  · intro i j hij hj h
    refine ⟨_, ladder_handle_y g hv i j hij hj h, ?_⟩
    have e := (ladder_y_iff g hv i j hij hj).1 h
    split_ifs with h1 h2
    · exact hj
    · omega
    · simp only [Bool.not_eq_true] at h1
      rw [h1] at e
      simp at e
      have hr : i % g.leg + 1 < g.leg := e.2
      obtain ⟨y1, y2⟩ := yhandle g.leg i (by omega) hr
      have hc := hv.col_lt (show i < g.linSize by omega)
      have e1 := Nat.div_add_mod (i - i / g.leg) (g.leg - 1)
      rw [y1, y2] at e1
      have : (g.leg - 1) * (i / g.leg + 1) ≤ (g.leg - 1) * (g.linSize / g.leg) := Nat.mul_le_mul_left _ hc
      have e3 : (g.leg - 1) * (g.linSize / g.leg) = g.linSize - g.linSize / g.leg := by
        rw [Nat.sub_mul, Nat.one_mul, Nat.mul_div_cancel' hv.dvd]
      rw [Nat.mul_add] at this
      omega
  · intro i j k l hij hj hkl hl h1 h2 heq
    rw [ladder_handle_y g hv i j hij hj h1, ladder_handle_y g hv k l hkl hl h2, Option.some.injEq] at heq
    have e1 := (ladder_y_iff g hv i j hij hj).1 h1
    have e2 := (ladder_y_iff g hv k l hkl hl).1 h2
    cases hp : g.isPeriodicY
    · rw [hp] at heq e1 e2
      simp only [Bool.false_eq_true, if_false, false_and, or_false] at heq e1 e2
      obtain ⟨a1, a2⟩ := yhandle g.leg i (by omega) e1.2
      obtain ⟨b1, b2⟩ := yhandle g.leg k (by omega) e2.2
      have : i = k := site_eq (leg := g.leg) (by rw [← a1, ← b1, heq]) (by rw [← a2, ← b2, heq])
      omega
    · rw [hp] at heq e1 e2
      simp only [if_true, true_and] at heq e1 e2
      have hmod : ∀ a, a % g.leg = 0 → 1 < g.leg → (a + (g.leg - 1)) % g.leg = g.leg - 1 := by
        intro a ha hl
        rw [Nat.add_mod, ha, Nat.zero_add, Nat.mod_mod, Nat.mod_eq_of_lt (by omega)]
      split_ifs at heq with a b b
      · omega
      · rcases e2 with e2 | e2
        · have := hmod i a.1 (by omega)
          rw [← a.2, heq] at this
          omega
        · exact absurd e2 b
      · rcases e1 with e1 | e1
        · have := hmod k b.1 (by omega)
          rw [← b.2, ← heq] at this
          omega
        · exact absurd e1 a
      · rcases e1 with e1 | e1
        · rcases e2 with e2 | e2
          · omega
          · exact absurd e2 b
        · exact absurd e1 a

/-- **C29** Y handles enumerate the Y connections, when the boundary is open or there are at least
three legs (the constructor turns off periodicity for two). -/
theorem ladder_y_enumerates (g : Ladder) (hv : g.Valid) (hp : g.isPeriodicY = false ∨ 3 ≤ g.leg) :
    ∃ size, g.getVectorSize 1 = some size ∧ Enumerates g.linSize (LadderDir g 1) g.handle size := by
  obtain ⟨size, h1, h2⟩ := ladder_y_injects g hv
  refine ⟨size, h1, ⟨h2, ?_⟩⟩
  have hleg := hv.leg
  have hs : size = if g.isPeriodicY then g.linSize else g.linSize - g.linSize / g.leg := by
    simp only [Ladder.getVectorSize, one_ne_zero, if_false, if_true, Option.some.injEq] at h1
    exact h1.symm
  intro h hh
  cases hpy : g.isPeriodicY
  · rw [hs, hpy] at hh
    simp only [Bool.false_eq_true, if_false] at hh
    have e3 : (g.leg - 1) * (g.linSize / g.leg) = g.linSize - g.linSize / g.leg := by
      rw [Nat.sub_mul, Nat.one_mul, Nat.mul_div_cancel' hv.dvd]
    have hl1 : 0 < g.leg - 1 := by
      by_contra h0
      rw [show g.leg - 1 = 0 by omega, Nat.zero_mul] at e3
      omega
    have hq : h / (g.leg - 1) < g.linSize / g.leg := by
      rw [Nat.div_lt_iff_lt_mul hl1, Nat.mul_comm, e3]; exact hh
    have hm := Nat.mod_lt h hl1
    have eh := Nat.div_add_mod h (g.leg - 1)
    have ei : h + h / (g.leg - 1) = h % (g.leg - 1) + g.leg * (h / (g.leg - 1)) := by
      have : g.leg * (h / (g.leg - 1)) = (g.leg - 1) * (h / (g.leg - 1)) + h / (g.leg - 1) := by
        rw [← Nat.succ_mul]; congr 1; omega
      omega
    have hdiv : (h + h / (g.leg - 1)) / g.leg = h / (g.leg - 1) := by
      rw [ei, Nat.add_mul_div_left _ _ hleg, Nat.div_eq_of_lt (by omega)]; omega
    have hmod : (h + h / (g.leg - 1)) % g.leg = h % (g.leg - 1) := by
      rw [ei, Nat.add_mul_mod_self_left, Nat.mod_eq_of_lt (by omega)]
    have hbound : h + h / (g.leg - 1) + 1 < g.linSize := by
      have := Nat.mul_le_mul_left g.leg hq
      rw [Nat.mul_div_cancel' hv.dvd, Nat.succ_eq_add_one, Nat.mul_add] at this
      omega
    have hd := (ladder_y_iff g hv (h + h / (g.leg - 1)) (h + h / (g.leg - 1) + 1) (by omega) hbound).2
      (Or.inl ⟨rfl, by rw [hmod]; omega⟩)
    refine ⟨_, _, by omega, hbound, hd, ?_⟩
    rw [ladder_handle_y g hv _ _ (by omega) hbound hd, hpy]
    simp only [Bool.false_eq_true, if_false]
    rw [hdiv]
    congr 1; omega
  · rw [hs, hpy] at hh
    simp only [if_true] at hh
    have h3 : 3 ≤ g.leg := by
      rcases hp with hp | hp
      · rw [hp] at hpy; simp at hpy
      · exact hp
    have hm := Nat.mod_lt h hleg
    have eh := Nat.div_add_mod h g.leg
    by_cases hr : h % g.leg + 1 < g.leg
    · have hb : h + 1 < g.linSize := by
        have hq := hv.col_lt hh
        have := Nat.mul_le_mul_left g.leg hq
        rw [Nat.mul_div_cancel' hv.dvd, Nat.succ_eq_add_one, Nat.mul_add] at this
        omega
      have hd := (ladder_y_iff g hv h (h + 1) (by omega) hb).2 (Or.inl ⟨rfl, hr⟩)
      refine ⟨h, h + 1, by omega, hb, hd, ?_⟩
      rw [ladder_handle_y g hv _ _ (by omega) hb hd, hpy, if_pos rfl, if_neg (by omega)]
    · have hz : (h - (g.leg - 1)) % g.leg = 0 := by
        have : h - (g.leg - 1) = g.leg * (h / g.leg) := by omega
        rw [this, Nat.mul_mod_right]
      have hd := (ladder_y_iff g hv (h - (g.leg - 1)) h (by omega) hh).2 (Or.inr ⟨hpy, hz, by omega⟩)
      refine ⟨_, h, by omega, hh, hd, ?_⟩
      rw [ladder_handle_y g hv _ _ (by omega) hh hd, hpy, if_pos rfl, if_pos ⟨hz, by omega⟩]

example : (⟨12, 3, true, true⟩ : Ladder).Valid ∧ (⟨12, 3, true, true⟩ : Ladder).handle 9 11 = some 11 :=
  ⟨⟨by decide, by decide, by decide, by decide⟩, by decide⟩

/-! ## Symmetries -/

/-- **C34** Translating along X moves the column modulo the number of columns; along Y the row
modulo the number of legs. -/
theorem ladder_translate (g : Ladder) (hv : g.Valid) (site a : Nat) (hs : site < g.linSize) :
    g.translate site 0 a = some (site % g.leg + (site / g.leg + a) % (g.linSize / g.leg) * g.leg) ∧
    g.translate site 1 a = some ((site % g.leg + a) % g.leg + site / g.leg * g.leg) := by
  have hlt : ∀ c r, c < g.linSize / g.leg → r < g.leg → r + c * g.leg < g.linSize := by
    intro c r hc hr
    have := hv.size
    have : (c + 1) * g.leg ≤ g.linSize / g.leg * g.leg := Nat.mul_le_mul_right _ hc
    rw [Nat.add_mul] at this
    omega
  constructor
  · simp only [Ladder.translate, Nat.zero_lt_two, if_true, wrapLoop_spec _ _ hv.lx, Option.map_some, bind,
      Option.bind_some]
    rw [if_pos (hlt _ _ (Nat.mod_lt _ hv.lx) (Nat.mod_lt _ hv.leg))]
  · simp only [Ladder.translate, Nat.one_lt_two, one_ne_zero, if_true, if_false, wrapLoop_spec _ _ hv.leg,
      Option.map_some, bind, Option.bind_some]
    rw [if_pos (hlt _ _ (hv.col_lt hs) (Nat.mod_lt _ hv.leg))]

theorem adj_translate (n a x y : Nat) (hx : x < n) (hy : y < n) :
    Adj n true ((x + a) % n) ((y + a) % n) ↔ Adj n true x y := by
  have hn : 0 < n := by omega
  have key : ∀ u v, u < n → v < n → (((u + a) % n + 1) % n = (v + a) % n ↔ (u + 1) % n = v) := by
    intro u v hu hv
    rw [Nat.mod_add_mod, Nat.add_right_comm, ← Nat.mod_add_mod, add_mod_eq_iff (Nat.mod_lt _ hn) hv]
  have step : ∀ u v, v < n → u + 1 = v → (u + 1) % n = v := by
    intro u v hv h; rw [h, Nat.mod_eq_of_lt hv]
  have k1 := key x y hx hy
  have k2 := key y x hy hx
  have l1 := Nat.mod_lt (x + a) hn
  have l2 := Nat.mod_lt (y + a) hn
  have s1 := step x y hy
  have s2 := step y x hx
  have s3 := step ((x + a) % n) _ l2
  have s4 := step ((y + a) % n) _ l1
  rw [k1] at s3
  rw [k2] at s4
  unfold Adj
  rw [ne_eq, ne_eq, add_mod_eq_iff hx hy, k1, k2]
  constructor
  · rintro ⟨h, h' | h' | h'⟩
    · exact ⟨h, Or.inr (Or.inr ⟨rfl, Or.inl (s3 h')⟩)⟩
    · exact ⟨h, Or.inr (Or.inr ⟨rfl, Or.inr (s4 h')⟩)⟩
    · exact ⟨h, Or.inr (Or.inr h')⟩
  · rintro ⟨h, h' | h' | h'⟩
    · exact ⟨h, Or.inr (Or.inr ⟨rfl, Or.inl (s1 h')⟩)⟩
    · exact ⟨h, Or.inr (Or.inr ⟨rfl, Or.inr (s2 h')⟩)⟩
    · exact ⟨h, Or.inr (Or.inr h')⟩

/-- **C34** Ladder translations along X: they stay in the lattice, compose additively, keep
different sites different and, with periodic boundaries in X, preserve connectivity. -/
theorem ladder_translate_x (g : Ladder) (hv : g.Valid) (x y a b : Nat) (hx : x < g.linSize) (hy : y < g.linSize) :
    ∃ tx ty, g.translate x 0 a = some tx ∧ g.translate y 0 a = some ty ∧ tx < g.linSize ∧
      g.translate tx 0 b = g.translate x 0 (a + b) ∧ (tx = ty → x = y) ∧
      (g.isPeriodicX = true → g.connected tx ty = g.connected x y) := by
  have hlt : ∀ c r, c < g.linSize / g.leg → r < g.leg → r + c * g.leg < g.linSize := by
    intro c r hc hr
    have := hv.size
    have : (c + 1) * g.leg ≤ g.linSize / g.leg * g.leg := Nat.mul_le_mul_right _ hc
    rw [Nat.add_mul] at this
    omega
  have d : ∀ c r, r < g.leg → (r + c * g.leg) / g.leg = c ∧ (r + c * g.leg) % g.leg = r := by
    intro c r hr
    rw [Nat.add_mul_div_right _ _ hv.leg, Nat.add_mul_mod_self_right, Nat.div_eq_of_lt hr, Nat.mod_eq_of_lt hr]
    exact ⟨by omega, rfl⟩
  have mx := Nat.mod_lt x hv.leg
  have my := Nat.mod_lt y hv.leg
  have cx := Nat.mod_lt (x / g.leg + a) hv.lx
  have cy := Nat.mod_lt (y / g.leg + a) hv.lx
  have tx := hlt _ _ cx mx
  have ty := hlt _ _ cy my
  refine ⟨_, _, (ladder_translate g hv x a hx).1, (ladder_translate g hv y a hy).1, tx, ?_, ?_, ?_⟩
  · rw [(ladder_translate g hv _ b tx).1, (ladder_translate g hv x (a + b) hx).1, (d _ _ mx).1, (d _ _ mx).2,
      Nat.mod_add_mod, Nat.add_assoc]
  · intro h
    have h1 := congrArg (· / g.leg) h
    have h2 := congrArg (· % g.leg) h
    simp only [(d _ _ mx).1, (d _ _ mx).2, (d _ _ my).1, (d _ _ my).2] at h1 h2
    exact site_eq ((add_mod_eq_iff (hv.col_lt hx) (hv.col_lt hy)).1 h1) h2
  · intro hp
    rw [Bool.eq_iff_iff, ladder_connected_iff g hv _ _ tx ty, ladder_connected_iff g hv _ _ hx hy,
      (d _ _ mx).1, (d _ _ mx).2, (d _ _ my).1, (d _ _ my).2, hp,
      adj_translate _ _ _ _ (hv.col_lt hx) (hv.col_lt hy), add_mod_eq_iff (hv.col_lt hx) (hv.col_lt hy)]

/-- **C34** Ladder translations along Y. -/
theorem ladder_translate_y (g : Ladder) (hv : g.Valid) (x y a b : Nat) (hx : x < g.linSize) (hy : y < g.linSize) :
    ∃ tx ty, g.translate x 1 a = some tx ∧ g.translate y 1 a = some ty ∧ tx < g.linSize ∧
      g.translate tx 1 b = g.translate x 1 (a + b) ∧ (tx = ty → x = y) ∧
      (g.isPeriodicY = true → g.connected tx ty = g.connected x y) := by
  have hlt : ∀ c r, c < g.linSize / g.leg → r < g.leg → r + c * g.leg < g.linSize := by
    intro c r hc hr
    have := hv.size
    have : (c + 1) * g.leg ≤ g.linSize / g.leg * g.leg := Nat.mul_le_mul_right _ hc
    rw [Nat.add_mul] at this
    omega
  have d : ∀ c r, r < g.leg → (r + c * g.leg) / g.leg = c ∧ (r + c * g.leg) % g.leg = r := by
    intro c r hr
    rw [Nat.add_mul_div_right _ _ hv.leg, Nat.add_mul_mod_self_right, Nat.div_eq_of_lt hr, Nat.mod_eq_of_lt hr]
    exact ⟨by omega, rfl⟩
  have mx := Nat.mod_lt (x % g.leg + a) hv.leg
  have my := Nat.mod_lt (y % g.leg + a) hv.leg
  have tx := hlt _ _ (hv.col_lt hx) mx
  have ty := hlt _ _ (hv.col_lt hy) my
  have rx := Nat.mod_lt x hv.leg
  have ry := Nat.mod_lt y hv.leg
  refine ⟨_, _, (ladder_translate g hv x a hx).2, (ladder_translate g hv y a hy).2, tx, ?_, ?_, ?_⟩
  · rw [(ladder_translate g hv _ b tx).2, (ladder_translate g hv x (a + b) hx).2, (d _ _ mx).1, (d _ _ mx).2,
      Nat.mod_add_mod, Nat.add_assoc]
  · intro h
    have h1 := congrArg (· / g.leg) h
    have h2 := congrArg (· % g.leg) h
    simp only [(d _ _ mx).1, (d _ _ mx).2, (d _ _ my).1, (d _ _ my).2] at h1 h2
    exact site_eq h1 ((add_mod_eq_iff rx ry).1 h2)
  · intro hp
    rw [Bool.eq_iff_iff, ladder_connected_iff g hv _ _ tx ty, ladder_connected_iff g hv _ _ hx hy,
      (d _ _ mx).1, (d _ _ mx).2, (d _ _ my).1, (d _ _ my).2, hp,
      adj_translate _ _ _ _ rx ry, add_mod_eq_iff rx ry]

theorem refl_lt {n a : Nat} (h : a < n) : n - a - 1 < n := by omega

theorem refl_refl {n a : Nat} (h : a < n) : n - (n - a - 1) - 1 = a := by omega

theorem refl_inj {n a b : Nat} (h : a < n) (h' : b < n) : n - a - 1 = n - b - 1 ↔ a = b := by omega

theorem one_le_sub {n a : Nat} (h : a < n) : 1 ≤ n - a := by omega

theorem adj_reflect (n : Nat) (per : Bool) (x y : Nat) (hx : x < n) (hy : y < n) :
    Adj n per (n - x - 1) (n - y - 1) ↔ Adj n per x y := by
  unfold Adj
  rw [succ_mod _ _ (by omega), succ_mod _ _ (by omega), succ_mod _ _ hx, succ_mod _ _ hy]
  cases per
  · simp only [Bool.false_eq_true, false_and, or_false]; omega
  · simp only [true_and]
    split_ifs <;> omega

/-- **C34** Ladder reflection is an involution of the sites and preserves connectivity. -/
theorem ladder_reflection (g : Ladder) (hv : g.Valid) (x y : Nat) (hx : x < g.linSize) (hy : y < g.linSize) :
    ∃ rx ry, g.findReflection x = some rx ∧ g.findReflection y = some ry ∧ rx < g.linSize ∧
      g.findReflection rx = some x ∧ g.connected rx ry = g.connected x y := by
  have hlt : ∀ c r, c < g.linSize / g.leg → r < g.leg → r + c * g.leg < g.linSize := by
    intro c r hc hr
    have := hv.size
    have : (c + 1) * g.leg ≤ g.linSize / g.leg * g.leg := Nat.mul_le_mul_right _ hc
    rw [Nat.add_mul] at this
    omega
  have d : ∀ c r, r < g.leg → (r + c * g.leg) / g.leg = c ∧ (r + c * g.leg) % g.leg = r := by
    intro c r hr
    rw [Nat.add_mul_div_right _ _ hv.leg, Nat.add_mul_mod_self_right, Nat.div_eq_of_lt hr, Nat.mod_eq_of_lt hr]
    exact ⟨by omega, rfl⟩
  have spec : ∀ s, s < g.linSize → g.findReflection s =
      some (s % g.leg + (g.linSize / g.leg - s / g.leg - 1) * g.leg) := by
    intro s hs
    have := hv.col_lt hs
    unfold Ladder.findReflection
    simp only
    rw [sub64_le this.le, sub64_le (one_le_sub this), if_pos (hlt _ _ (refl_lt this) (Nat.mod_lt _ hv.leg))]
  have mx := Nat.mod_lt x hv.leg
  have my := Nat.mod_lt y hv.leg
  have cx := hv.col_lt hx
  have cy := hv.col_lt hy
  have rx := hlt (g.linSize / g.leg - x / g.leg - 1) _ (refl_lt cx) mx
  have ry := hlt (g.linSize / g.leg - y / g.leg - 1) _ (refl_lt cy) my
  refine ⟨_, _, spec x hx, spec y hy, rx, ?_, ?_⟩
  · rw [spec _ rx, (d _ _ mx).1, (d _ _ mx).2]
    congr 1
    rw [refl_refl cx]
    have := Nat.div_add_mod x g.leg
    rw [Nat.mul_comm] at this
    omega
  · rw [Bool.eq_iff_iff, ladder_connected_iff g hv _ _ rx ry, ladder_connected_iff g hv _ _ hx hy,
      (d _ _ mx).1, (d _ _ mx).2, (d _ _ my).1, (d _ _ my).2, adj_reflect _ _ _ _ cx cy]
    rw [refl_inj cx cy]

/-! ## Fringe -/

/-- **C67** Two-leg ladder, open in X: fringe sites are the documented ones, as long as the system has at
least two sites and the site numbers are below `2^64`. -/
theorem ladder_fringe (g : Ladder) (hv : g.Valid) (h2 : g.leg = 2) (hp : g.isPeriodicX = false)
    (i smax emin : Nat) (hs : 1 ≤ smax) (h1 : smax < emin) (he : emin + 1 < g.linSize) (hi : i < g.linSize)
    (hb : g.linSize < 18446744073709551616) (hs2 : smax + 2 < g.linSize) :
    (i ≤ smax → (g.fringe i smax emin = true ↔ SysFringe g.linSize (fun i j => g.connected i j = true) smax i)) ∧
    (emin ≤ i → (g.fringe i smax emin = true ↔ EnvFringe g.linSize (fun i j => g.connected i j = true) emin i)) := by
  have hc : ∀ i j, i < j → j < g.linSize → (g.connected i j = true ↔ (j = i + 2 ∨ (j = i + 1 ∧ i % 2 = 0))) := by
    intro i j hij hj
    have hx := ladder_x_iff g hv i j hij hj
    have hy := ladder_y_iff g hv i j hij hj
    have hor := ladder_dirs g i j
    unfold LadderDir at hor
    rw [h2, hp] at hx
    rw [h2, hv.two h2] at hy
    simp only [Bool.false_eq_true, false_and, or_false] at hx hy
    constructor
    · intro h
      rcases hor h with ⟨h, -⟩ | ⟨h, -⟩
      · exact Or.inl (hx.1 h)
      · have := hy.1 h; omega
    · rintro (h | ⟨h, h'⟩)
      · exact (hx.2 h).1
      · exact (hy.2 ⟨h, by omega⟩).1
  have hr : (if smax + 1 = emin then g.leg else
      if smax % g.leg ≥ g.leg / 2 then sub64 (2 + 2 * (smax % g.leg)) g.leg else 2 + 2 * (smax % g.leg)) = 2 := by
    rw [h2]
    have : smax % 2 = 0 ∨ smax % 2 = 1 := by omega
    split_ifs
    · rfl
    · rw [sub64_le (by omega)]; omega
    · omega
  unfold Ladder.fringe
  simp only [hr]
  have hlow : (sub64 smax 2 + 1) % 18446744073709551616 = smax - 1 := by
    unfold sub64
    split_ifs with h
    · rw [Nat.mod_eq_of_lt (by omega)]; omega
    · have : smax = 1 := by omega
      subst this; norm_num
  rw [hlow]
  unfold SysFringe EnvFringe
  simp only [Bool.or_eq_true, Bool.and_eq_true, decide_eq_true_eq]
  constructor
  · intro his
    constructor
    · intro h
      have h' : smax - 1 ≤ i := by omega
      refine ⟨his, i + 2, by omega, by omega, (hc _ _ (by omega) (by omega)).2 (Or.inl rfl)⟩
    · rintro ⟨-, j, a, b, c⟩
      have := (hc _ _ (by omega) b).1 c
      omega
  · intro hie
    constructor
    · intro h
      refine ⟨hie, hi, i - 2, by omega, ?_⟩
      rw [ladder_conn_symm]
      exact (hc _ _ (by omega) (by omega)).2 (Or.inl (by omega))
    · rintro ⟨-, -, j, a, b⟩
      rw [ladder_conn_symm] at b
      have := (hc _ _ (by omega) hi).1 b
      omega

/-- **C67, violated part** With a one-site system the bound wraps around and site 0, which is joined to the
environment, is not reported. -/
theorem ladder_fringe_first_site_fails :
    SysFringe 8 (fun i j => (⟨8, 2, false, false⟩ : Ladder).connected i j = true) 0 0 ∧
      (⟨8, 2, false, false⟩ : Ladder).fringe 0 0 7 = false :=
  ⟨⟨by decide, 1, by decide, by decide, by decide⟩, by decide⟩

/-- **C67, violated part** With four legs, sites joined to the environment are missed while the lattice is
being grown. -/
theorem ladder_fringe_four_legs_fails :
    SysFringe 16 (fun i j => (⟨16, 4, false, false⟩ : Ladder).connected i j = true) 4 1 ∧
      (⟨16, 4, false, false⟩ : Ladder).fringe 1 4 11 = false :=
  ⟨⟨by decide, 5, by decide, by decide, by decide⟩, by decide⟩

/-! ## Cases: a ladder of twelve sites with three rows, closed in both directions, and an open one of two rows -/

/-- Twelve sites in three rows. -/
def ladder12 : Ladder := ⟨12, 3, true, true⟩
/-- Eight sites in two rows. -/
def ladder8 : Ladder := ⟨8, 2, false, false⟩

theorem ladder12_valid : ladder12.Valid := ⟨by decide, by decide, by decide, by decide⟩
theorem ladder8_valid : ladder8.Valid := ⟨by decide, by decide, by decide, by decide⟩

example := ladder_connected ladder12 ladder12_valid 0 2 3 2 (by decide) (by decide) (by decide) (by decide)
example := ladder_ctor_valid 12 3 (some 1) (some 1) false ladder12 (by decide) (by decide)
example := ladder_dirs ladder12 9 11 (by decide)
example := ladder_fringe ladder8 ladder8_valid rfl rfl 3 3 6 (by decide) (by decide) (by decide) (by decide) (by decide) (by decide)
example := ladder_reflection ladder12 ladder12_valid 9 11 (by decide) (by decide)
example : ladder12.translate 11 0 1 = some 2 ∧ ladder12.translate 11 1 1 = some 9 := ladder_translate ladder12 ladder12_valid 11 1 (by decide)
example := ladder_translate_x ladder12 ladder12_valid 9 11 3 4 (by decide) (by decide)
example := ladder_translate_y ladder12 ladder12_valid 9 11 1 2 (by decide) (by decide)
example := ladder_x_enumerates ladder12 ladder12_valid (.inr (by decide))
example := ladder_x_injects ladder12 ladder12_valid
example := ladder_y_enumerates ladder12 ladder12_valid (.inr (by decide))
example := ladder_y_injects ladder8 ladder8_valid

end Verif.Geom
