import Verif.Geom.ModelSuper
import Verif.Geom.PropsInput

/-! # Connections of a superblock -/

namespace Verif.Geom

open Verif Verif.Dense Verif.Loop

variable {α : Type} [CommRing α] [StarRing α]

theorem value_off {b : Base} {N orbs : Nat} {const : Bool} (hg : Good b N orbs const) {dirs : List (DirData α)}
    (hd : DataOk b orbs const dirs) (hb : b.index = defaultIndex) {cached : Mat α} (hc : cacheValues b N orbs const dirs = some cached)
    {i j e e' : Nat} (hi : i < N) (hj : j < N) (he : e < orbs) (he' : e' < orbs) (hn : b.connected i j = some false) :
    termValue b orbs cached i e j e' = some 0 := by
  obtain ⟨c, h1, h2⟩ := cache_spec b N orbs const hg dirs hd
  rw [hc] at h1
  cases h1
  obtain ⟨v, h3, h4⟩ := h2 i j e e' (e + i * orbs) (e' + j * orbs) hi hj he he' (by rw [hb, defaultIndex, if_pos he])
    (by rw [hb, defaultIndex, if_pos he'])
  rw [calc_off _ _ _ _ _ _ _ _ hn] at h3
  rw [h4, ← h3]

/-- Both sites of a connection of the closed up lattice are in the fringe, and then the second one moves to its place there;
without a gap the same sites are connected. -/
structure Closes (b : Base) (f : Ends) (N smax emin : Nat) : Prop where
  fringe : ∀ i, i < N → ∃ c, f.fringe i smax emin = some c
  joined : ∀ i j, i ≤ smax → emin ≤ j → j < N → b.connected i (j - (emin - smax - 1)) = some true →
    f.fringe i smax emin = some true ∧ f.fringe j smax emin = some true
  apart : ∀ i j, i ≤ smax → emin ≤ j → j < N → b.connected i j = some true →
    f.fringe i smax emin = some true ∧ f.fringe j smax emin = some true
  place : ∀ i j, i ≤ smax → emin ≤ j → j < N → f.fringe i smax emin = some true → f.fringe j smax emin = some true →
    f.substitute smax emin j = some (j - (emin - smax - 1))

theorem super_closes {b : Base} {f : Ends} {N orbs smax emin : Nat} {const : Bool} (hg : Good b N orbs const) {dirs : List (DirData α)}
    (hd : DataOk b orbs const dirs) (hb : b.index = defaultIndex) {cached : Mat α} (hc : cacheValues b N orbs const dirs = some cached)
    (hcl : Closes b f N smax emin) (hse : smax < emin) {i j e e' : Nat} (hi : i ≤ smax) (hj : emin ≤ j) (hjN : j < N)
    (he : e < orbs) (he' : e' < orbs) :
    superValue b f orbs cached smax emin i e j e' = termValue b orbs cached i e (j - (emin - smax - 1)) e' ∧
    superValue b f orbs cached smax emin j e' i e = superValue b f orbs cached smax emin i e j e' ∧
    (b.connected i (j - (emin - smax - 1)) = some true → superConnected b f smax emin i j = some true ∧
      superConnected b f smax emin j i = some true) := by
  obtain ⟨ci, hci⟩ := hcl.fringe i (by omega)
  obtain ⟨cj, hcj⟩ := hcl.fringe j hjN
  have hij : ¬ j < i := by omega
  have hji : i < j := by omega
  by_cases hb2 : ci = true ∧ cj = true
  · obtain ⟨rfl, rfl⟩ := hb2
    have hsub := hcl.place i j hi hj hjN hci hcj
    refine ⟨?_, ?_, fun _ => ⟨?_, ?_⟩⟩
    · simp only [superValue, bothFringe, hci, hcj, bind, Option.bind, if_true]
      rw [if_neg hij]
      simp only [hsub]
    · simp only [superValue, bothFringe, hci, hcj, bind, Option.bind, if_true]
      rw [if_neg hij, if_pos hji]
    · simp only [superConnected, bothFringe, hci, hcj, bind, Option.bind, if_true]
      rw [if_neg (by omega)]
      rfl
    · simp only [superConnected, bothFringe, hci, hcj, bind, Option.bind, if_true]
      rw [if_neg (by omega)]
      rfl
  · have hbf : bothFringe f smax emin i j = some false := by
      simp only [bothFringe, hci, hcj, bind, Option.bind]
      cases ci <;> cases cj <;> simp_all
    have hbf' : bothFringe f smax emin j i = some false := by
      simp only [bothFringe, hci, hcj, bind, Option.bind]
      cases ci <;> cases cj <;> simp_all
    have hoff : ∀ k, k < N → (b.connected i k = some true → f.fringe i smax emin = some true ∧ f.fringe j smax emin = some true) →
        b.connected i k = some false ∧ b.connected k i = some false := by
      intro k hk h
      obtain ⟨c, h1, h2⟩ := hg.conn i k (by omega) hk
      cases c with
      | false => exact ⟨h1, h2⟩
      | true =>
        obtain ⟨q1, q2⟩ := h h1
        rw [hci] at q1
        rw [hcj] at q2
        cases q1
        cases q2
        exact absurd ⟨rfl, rfl⟩ hb2
    have o1 := hoff j hjN (hcl.apart i j hi hj hjN)
    have o2 := hoff (j - (emin - smax - 1)) (by omega) (hcl.joined i j hi hj hjN)
    have v1 : superValue b f orbs cached smax emin i e j e' = some 0 := by
      simp only [superValue, hbf, bind, Option.bind]
      exact value_off hg hd hb hc (by omega) hjN he he' o1.1
    refine ⟨?_, ?_, fun h => ?_⟩
    · rw [v1, value_off hg hd hb hc (by omega) (by omega) he he' o2.1]
    · rw [v1]
      simp only [superValue, hbf', bind, Option.bind]
      exact value_off hg hd hb hc hjN (by omega) he' he o1.2
    · rw [o2.1] at h
      cases h

theorem chain_closes (g : LongChain) (hd : 0 < g.distance) (hp : g.isPeriodic = false) (smax emin : Nat) (hse : smax < emin) :
    Closes (chainBase g) (chainEnds g) g.linSize smax emin where
  fringe := fun i _ => ⟨_, rfl⟩
  joined := by
    intro i j hi hj hN h
    simp only [chainBase, LongChain.connected, hp, Option.some.injEq] at h
    rw [if_neg (by omega)] at h
    simp only [Bool.not_false, if_true, beq_iff_eq] at h
    rw [if_neg (by omega), if_pos (by omega)] at h
    simp only [chainEnds, LongChain.fringe, Option.some.injEq]
    rw [if_pos hi, if_neg (by omega)]
    simp only [Bool.and_eq_true, decide_eq_true_eq]
    omega
  apart := by
    intro i j hi hj hN h
    simp only [chainBase, LongChain.connected, hp, Option.some.injEq] at h
    rw [if_neg (by omega)] at h
    simp only [Bool.not_false, if_true, beq_iff_eq] at h
    rw [if_neg (by omega), if_pos (by omega)] at h
    simp only [chainEnds, LongChain.fringe, Option.some.injEq]
    rw [if_pos hi, if_neg (by omega)]
    simp only [Bool.and_eq_true, decide_eq_true_eq]
    omega
  place := by
    intro i j hi hj hN _ _
    simp only [chainEnds, LongChain.getSubstituteSite]
    rw [if_pos hj, if_pos (by omega)]
    congr 1
    omega

theorem ladder_conn2 (g : Ladder) (hv : g.Valid) (h2 : g.leg = 2) (hp : g.isPeriodicX = false) (i j : Nat) (hij : i < j)
    (hj : j < g.linSize) : g.connected i j = true ↔ (j = i + 2 ∨ (j = i + 1 ∧ i % 2 = 0)) := by
  have hx := ladder_x_iff g hv i j hij hj
  have hy := ladder_y_iff g hv i j hij hj
  have hor := ladder_dirs g i j
  unfold LadderDir at hor
  rw [h2, hp] at hx
  rw [h2, hv.two h2] at hy
  simp only [Bool.false_eq_true, false_and, or_false] at hx hy
  constructor
  · intro h
    rcases hor h with ⟨h, -⟩ | ⟨h, -⟩
    · exact Or.inl (hx.1 h)
    · have := hy.1 h; omega
  · rintro (h | ⟨h, h'⟩)
    · exact (hx.2 h).1
    · exact (hy.2 ⟨h, by omega⟩).1

theorem ladder_closes (g : Ladder) (hv : g.Valid) (h2 : g.leg = 2) (hp : g.isPeriodicX = false)
    (hb : g.linSize < 18446744073709551616) (smax emin : Nat) (hs : 1 ≤ smax) (hse : smax + 1 < emin) (heven : (emin - smax - 1) % 2 = 0) :
    Closes (ladderBase g) (ladderEnds g) g.linSize smax emin := by
  have hr : (if smax + 1 = emin then g.leg else
      if smax % g.leg ≥ g.leg / 2 then sub64 (2 + 2 * (smax % g.leg)) g.leg else 2 + 2 * (smax % g.leg)) = 2 := by
    rw [h2]
    have : smax % 2 = 0 ∨ smax % 2 = 1 := by omega
    split_ifs
    · rfl
    · rw [sub64_le (by omega)]; omega
    · omega
  have hfr : ∀ i, emin ≤ g.linSize → (g.fringe i smax emin = true ↔ (i < emin ∧ smax - 1 ≤ i) ∨ (smax < i ∧ i ≤ emin + 1)) := by
    intro i hN
    unfold Ladder.fringe
    simp only [hr]
    have hlow : (sub64 smax 2 + 1) % 18446744073709551616 = smax - 1 := by
      unfold sub64
      split_ifs with h
      · rw [Nat.mod_eq_of_lt (by omega)]; omega
      · have : smax = 1 := by omega
        subst this; norm_num
    rw [hlow]
    simp only [Bool.or_eq_true, Bool.and_eq_true, decide_eq_true_eq]
    omega
  refine ⟨fun i _ => ⟨_, rfl⟩, ?_, ?_, ?_⟩
  · intro i j hi hj hN h
    simp only [ladderBase, Option.some.injEq] at h
    rw [ladder_conn2 g hv h2 hp i _ (by omega) (by omega)] at h
    simp only [ladderEnds, Option.some.injEq]
    rw [hfr i (by omega), hfr j (by omega)]
    omega
  · intro i j hi hj hN h
    simp only [ladderBase, Option.some.injEq] at h
    rw [ladder_conn2 g hv h2 hp i _ (by omega) (by omega)] at h
    omega
  · intro i j hi hj hN _ _
    simp only [ladderEnds, Ladder.getSubstituteSite]
    rw [if_neg (by omega), h2, sub64_le (by omega), if_pos (by omega)]
    congr 1
    split_ifs
    · rw [sub64_le (by omega)]; omega
    · rw [sub64_le (by omega)]; omega

/-- **C84** On an open chain of any range, the value between a site of the system and one of the environment is that of the
chain closed up over the sites that are left out, in both orders of the sites, and such sites count as connected. -/
theorem super_chain (g : LongChain) (hd0 : 0 < g.distance) (hL : g.distance < g.linSize) (hp : g.isPeriodic = false) {orbs : Nat} {const : Bool}
    {dirs : List (DirData α)} (hd : DataOk (chainBase g) orbs const dirs) {smax emin : Nat} (hse : smax < emin) :
    ∃ cached, cacheValues (chainBase g) g.linSize orbs const dirs = some cached ∧
      ∀ i j e e', i ≤ smax → emin ≤ j → j < g.linSize → e < orbs → e' < orbs →
        superValue (chainBase g) (chainEnds g) orbs cached smax emin i e j e' =
          termValue (chainBase g) orbs cached i e (j - (emin - smax - 1)) e' ∧
        superValue (chainBase g) (chainEnds g) orbs cached smax emin j e' i e =
          termValue (chainBase g) orbs cached i e (j - (emin - smax - 1)) e' ∧
        (g.connected i (j - (emin - smax - 1)) = true →
          superConnected (chainBase g) (chainEnds g) smax emin i j = some true ∧
          superConnected (chainBase g) (chainEnds g) smax emin j i = some true) := by
  have hg := chain_good g hd0 hL orbs const (.inr (.inl hp))
  obtain ⟨c, hc, -⟩ := cache_spec _ _ _ _ hg dirs hd
  refine ⟨c, hc, ?_⟩
  intro i j e e' hi hj hN he he'
  obtain ⟨h1, h2, h3⟩ := super_closes hg hd rfl hc (chain_closes g hd0 hp smax emin hse) hse hi hj hN he he'
  exact ⟨h1, h2.trans h1, fun h => h3 (by rw [← h]; rfl)⟩

/-- **C84** The same on a ladder of two legs that is not periodic along them, if whole rungs are left out and the system has two
sites or more. -/
theorem super_ladder (g : Ladder) (hv : g.Valid) (h2 : g.leg = 2) (hp : g.isPeriodicX = false) (hb : g.linSize < 2 ^ 64)
    {orbs : Nat} {const : Bool} {dirs : List (DirData α)} (hd : DataOk (ladderBase g) orbs const dirs) {smax emin : Nat}
    (hs : 1 ≤ smax) (hse : smax + 1 < emin) (heven : (emin - smax - 1) % 2 = 0) :
    ∃ cached, cacheValues (ladderBase g) g.linSize orbs const dirs = some cached ∧
      ∀ i j e e', i ≤ smax → emin ≤ j → j < g.linSize → e < orbs → e' < orbs →
        superValue (ladderBase g) (ladderEnds g) orbs cached smax emin i e j e' =
          termValue (ladderBase g) orbs cached i e (j - (emin - smax - 1)) e' ∧
        superValue (ladderBase g) (ladderEnds g) orbs cached smax emin j e' i e =
          termValue (ladderBase g) orbs cached i e (j - (emin - smax - 1)) e' ∧
        (g.connected i (j - (emin - smax - 1)) = true →
          superConnected (ladderBase g) (ladderEnds g) smax emin i j = some true ∧
          superConnected (ladderBase g) (ladderEnds g) smax emin j i = some true) := by
  have hg := ladder_good g hv orbs const
  obtain ⟨c, hc, -⟩ := cache_spec _ _ _ _ hg dirs hd
  refine ⟨c, hc, ?_⟩
  intro i j e e' hi hj hN he he'
  obtain ⟨q1, q2, q3⟩ := super_closes hg hd rfl hc (ladder_closes g hv h2 hp hb smax emin hs hse heven) (by omega) hi hj hN he he'
  exact ⟨q1, q2.trans q1, fun h => q3 (by rw [← h]; rfl)⟩

/-! ## The whole superblock of a chain -/

omit [StarRing α] in
theorem chain_data (N : Nat) (hN : 2 ≤ N) (xs : List α) (hx : xs.length + 1 = N) :
    DataOk (chainBase ⟨N, false, 1⟩) 1 false [⟨xs, []⟩] where
  len := rfl
  nums := by
    intro _ d dd h
    match d, h with
    | 0, h =>
      cases h
      simp only [chainBase, LongChain.getVectorSize, Bool.false_eq_true, if_false, if_true]
      rw [sub64_le (by omega)]
      congr 1
      omega
  mats := by intro h; exact absurd rfl h

theorem chain_value (N : Nat) (hN : 2 ≤ N) (xs : List α) (hx : xs.length + 1 = N) :
    ∃ c, cacheValues (chainBase ⟨N, false, 1⟩) N 1 false [⟨xs, []⟩] = some c ∧
      ∀ i j, i < N → j < N → termValue (chainBase ⟨N, false, 1⟩) 1 c i 0 j 0 =
        if i + 1 = j then xs[i]? else if j + 1 = i then xs[j]? else some 0 := by
  obtain ⟨c, hc, hv⟩ := connectors_number _ N false (chain_good ⟨N, false, 1⟩ Nat.one_pos hN 1 false (.inr (.inl rfl)))
    [⟨xs, []⟩] (chain_data N hN xs hx)
  refine ⟨c, hc, ?_⟩
  intro i j hi hj
  obtain ⟨-, h⟩ := hv i j (0 + i * 1) (0 + j * 1) hi hj (by simp [chainBase, defaultIndex]) (by simp [chainBase, defaultIndex])
  rcases h with ⟨h1, h2⟩ | ⟨h1, d, dd, h, x, q1, q2, q3, q4, q5⟩
  · rw [h2]
    simp only [chainBase, LongChain.connected, Option.some.injEq] at h1
    by_cases hij : i = j
    · rw [if_neg (by omega), if_neg (by omega)]
    · rw [if_neg hij] at h1
      simp only [Bool.not_false, if_true, beq_eq_false_iff_ne] at h1
      split_ifs at h1 ⊢ <;> first | rfl | omega
  · rw [q5]
    simp only [chainBase, Option.some.injEq] at q1
    subst q1
    cases q2
    simp only [chainBase, LongChain.handle, Bool.false_eq_true, if_false, Option.some.injEq] at q3
    simp only [chainBase, LongChain.connected, Option.some.injEq] at h1
    by_cases hij : i = j
    · rw [if_pos hij] at h1
      cases h1
    · rw [if_neg hij] at h1
      simp only [Bool.not_false, if_true, beq_iff_eq] at h1
      by_cases hlt : i < j
      · rw [if_pos hlt] at q3
        rw [if_pos (by split_ifs at h1 <;> omega), q3, ← q4]
      · rw [if_neg hlt] at q3
        rw [if_neg (by omega), if_pos (by split_ifs at h1 <;> omega), q3, ← q4]

/-- The site of the lattice that is the `i`-th one of the superblock. -/
def site (smax emin i : Nat) : Nat := if i ≤ smax then i else i + (emin - smax - 1)

/-- **C84** The superblock of an open chain of nearest neighbours with one orbital is the chain with the sites between left out,
and with the numbers of their connections left out, except that of the last site of the system. -/
theorem super_chain_cut (N : Nat) (xs : List α) (hx : xs.length + 1 = N) {smax emin : Nat} (hse : smax < emin) (he : emin < N) :
    ∃ c c', cacheValues (chainBase ⟨N, false, 1⟩) N 1 false [⟨xs, []⟩] = some c ∧
      cacheValues (chainBase ⟨N - (emin - smax - 1), false, 1⟩) (N - (emin - smax - 1)) 1 false
        [⟨xs.take (smax + 1) ++ xs.drop emin, []⟩] = some c' ∧
      ∀ i j, i < N - (emin - smax - 1) → j < N - (emin - smax - 1) → i ≠ j →
        superValue (chainBase ⟨N, false, 1⟩) (chainEnds ⟨N, false, 1⟩) 1 c smax emin (site smax emin i) 0 (site smax emin j) 0 =
          termValue (chainBase ⟨N - (emin - smax - 1), false, 1⟩) 1 c' i 0 j 0 ∧
        superConnected (chainBase ⟨N, false, 1⟩) (chainEnds ⟨N, false, 1⟩) smax emin (site smax emin i) (site smax emin j) =
          some (decide (i + 1 = j ∨ j + 1 = i)) := by
  have hlen : (xs.take (smax + 1) ++ xs.drop emin).length + 1 = N - (emin - smax - 1) := by
    rw [List.length_append, List.length_take, List.length_drop]
    omega
  obtain ⟨c, hc, hv⟩ := chain_value N (by omega) xs hx
  obtain ⟨c', hc', hv'⟩ := chain_value (N - (emin - smax - 1)) (by omega) _ hlen
  refine ⟨c, c', hc, hc', ?_⟩
  intro i j hi hj hne
  have hlow : ∀ k, k ≤ smax → (xs.take (smax + 1) ++ xs.drop emin)[k]? = xs[k]? := by
    intro k hk
    rw [List.getElem?_append_left (by rw [List.length_take]; omega), List.getElem?_take, if_pos (by omega)]
  have hhigh : ∀ k, smax < k → (xs.take (smax + 1) ++ xs.drop emin)[k]? = xs[k + (emin - smax - 1)]? := by
    intro k hk
    rw [List.getElem?_append_right (by rw [List.length_take]; omega), List.getElem?_drop, List.length_take]
    congr 1
    omega
  have hf : ∀ k, k < N - (emin - smax - 1) → (LongChain.fringe ⟨N, false, 1⟩ (site smax emin k) smax emin = true ↔ k = smax ∨ k = smax + 1) := by
    intro k hk
    unfold LongChain.fringe site
    split_ifs with h1 h2 h2
    · simp only [Bool.and_eq_true, decide_eq_true_eq]; omega
    · simp only [Bool.and_eq_true, decide_eq_true_eq]; omega
    · simp only [Bool.and_eq_true, decide_eq_true_eq]; omega
  have hboth : bothFringe (chainEnds ⟨N, false, 1⟩) smax emin (site smax emin i) (site smax emin j) =
      some (decide ((i = smax ∨ i = smax + 1) ∧ (j = smax ∨ j = smax + 1))) := by
    simp only [bothFringe, chainEnds, bind, Option.bind]
    have hfi := hf i hi
    have hfj := hf j hj
    split_ifs with h
    · congr 1
      rw [Bool.eq_iff_iff, hfj, decide_eq_true_eq]
      have := hfi.1 h
      tauto
    · congr 1
      have : ¬ (i = smax ∨ i = smax + 1) := fun h' => h (hfi.2 h')
      rw [eq_comm, decide_eq_false_iff_not]
      tauto
  have hsne : site smax emin i ≠ site smax emin j := by
    unfold site
    split_ifs <;> omega
  by_cases hb : (i = smax ∨ i = smax + 1) ∧ (j = smax ∨ j = smax + 1)
  · rw [decide_eq_true hb] at hboth
    refine ⟨?_, ?_⟩
    · unfold superValue
      rw [hboth]
      simp only [bind, Option.bind, if_true]
      rw [hv' i j hi hj]
      rcases hb with ⟨h1 | h1, h2 | h2⟩
      · omega
      · subst h1
        subst h2
        have s1 : site i emin i = i := if_pos (le_refl i)
        have s2 : site i emin (i + 1) = emin := by
          unfold site
          rw [if_neg (by omega)]
          omega
        rw [s1, s2, if_neg (by omega)]
        have : (chainEnds ⟨N, false, 1⟩).substitute i emin emin = some (i + 1) := by
          simp only [chainEnds, LongChain.getSubstituteSite, ge_iff_le, le_refl, if_true, Nat.sub_self, Nat.zero_add]
          rw [if_pos (by omega)]
        simp only [this]
        rw [hv i (i + 1) (by omega) (by omega), if_pos rfl, if_pos trivial, hlow i (le_refl i)]
      · subst h1
        subst h2
        have s1 : site j emin j = j := if_pos (le_refl j)
        have s2 : site j emin (j + 1) = emin := by
          unfold site
          rw [if_neg (by omega)]
          omega
        rw [s1, s2, if_pos (by omega)]
        have : (chainEnds ⟨N, false, 1⟩).substitute j emin emin = some (j + 1) := by
          simp only [chainEnds, LongChain.getSubstituteSite, ge_iff_le, le_refl, if_true, Nat.sub_self, Nat.zero_add]
          rw [if_pos (by omega)]
        simp only [this]
        rw [hv j (j + 1) (by omega) (by omega), if_pos rfl, if_neg (by omega), if_pos trivial, hlow j (le_refl j)]
      · omega
    · unfold superConnected
      rw [if_neg hsne, hboth]
      simp only [bind, Option.bind, Bool.not_true, Bool.false_eq_true, if_false]
      congr 1
      rw [eq_comm, decide_eq_true_eq]
      omega
  · rw [decide_eq_false hb] at hboth
    have hcase : (i ≤ smax ∧ j ≤ smax) ∨ (smax < i ∧ smax < j) ∨ ¬ (i + 1 = j ∨ j + 1 = i) := by omega
    refine ⟨?_, ?_⟩
    · unfold superValue
      rw [hboth]
      simp only [bind, Option.bind, Bool.false_eq_true, if_false]
      have hsi : site smax emin i < N := by unfold site; split_ifs <;> omega
      have hsj : site smax emin j < N := by unfold site; split_ifs <;> omega
      rw [hv _ _ hsi hsj, hv' i j hi hj]
      unfold site
      rcases hcase with ⟨h1, h2⟩ | ⟨h1, h2⟩ | h1
      · rw [if_pos h1, if_pos h2, hlow i h1, hlow j h2]
      · rw [if_neg (Nat.not_le.2 h1), if_neg (Nat.not_le.2 h2), hhigh i h1, hhigh j h2]
        split_ifs <;> first | rfl | omega
      · rw [if_neg (show ¬ i + 1 = j by omega), if_neg (show ¬ j + 1 = i by omega)]
        split_ifs <;> first | rfl | omega
    · unfold superConnected
      rw [if_neg hsne, hboth]
      simp only [bind, Option.bind, Bool.not_false, if_true, chainBase, LongChain.connected]
      rw [if_neg hsne]
      congr 1
      rw [Bool.eq_iff_iff, beq_iff_eq, decide_eq_true_eq]
      unfold site
      split_ifs <;> omega

/-- **C84** A star, of which site 1 is the center, is not changed by what is left out. -/
theorem super_star (N orbs : Nat) (cached : Mat α) (smax emin i j e e' : Nat) :
    superValue (starBase N) starEnds orbs cached smax emin i e j e' = termValue (starBase N) orbs cached i e j e' ∧
    superConnected (starBase N) starEnds smax emin i j = some (decide (i ≠ j ∧ (i = 1 ∨ j = 1))) := by
  constructor
  · unfold superValue bothFringe
    simp only [starEnds, bind, Option.bind]
    by_cases h1 : i = emin <;> by_cases h2 : j = emin
    · subst h1
      subst h2
      simp
    · simp [h1, h2]
    · simp [h1]
    · simp [h1]
  · unfold superConnected bothFringe
    simp only [starEnds, bind, Option.bind]
    by_cases h : i = j
    · simp [h]
    · rw [if_neg h]
      by_cases h1 : i = emin
      · have h2 : (j == emin) = false := by
          rw [beq_eq_false_iff_ne]
          omega
        simp only [h1, beq_self_eq_true, if_true, h2, Bool.not_false, starBase, Option.some.injEq]
        rw [Bool.eq_iff_iff, star_connected, decide_eq_true_eq]
      · have h2 : (i == emin) = false := by
          rw [beq_eq_false_iff_ne]
          exact h1
        simp only [h2, Bool.false_eq_true, if_false, Bool.not_false, if_true, starBase, Option.some.injEq]
        rw [Bool.eq_iff_iff, star_connected, decide_eq_true_eq]

/-! ## All terms -/

/-- **C84** Sites are connected if they are in one term or more. -/
theorem connected_terms (smax emin i1 i2 : Nat) (ts : List (Base × Ends)) (conn : Nat → Bool)
    (h : ∀ k b f, ts[k]? = some (b, f) →
      (if smax + 1 = emin then b.connected i1 i2 else superConnected b f smax emin i1 i2) = some (conn k)) :
    ∃ c, geoConnected (ts.map fun t => (some t.1, t.2)) smax emin i1 i2 = some c ∧ (c = true ↔ ∃ k, k < ts.length ∧ conn k = true) := by
  have key : ∀ (ts : List (Base × Ends)) (conn : Nat → Bool) (acc : Bool), (∀ k b f, ts[k]? = some (b, f) →
      (if smax + 1 = emin then b.connected i1 i2 else superConnected b f smax emin i1 i2) = some (conn k)) →
      ∃ c, connectedLoop smax emin i1 i2 (ts.map fun t => (some t.1, t.2)) acc = some c ∧
        (c = true ↔ acc = true ∨ ∃ k, k < ts.length ∧ conn k = true) := by
    intro ts
    induction ts with
    | nil => intro conn acc _; exact ⟨acc, rfl, by simp⟩
    | cons t ts ih =>
      intro conn acc h
      obtain ⟨b, f⟩ := t
      have h0 := h 0 b f rfl
      obtain ⟨c, h1, h2⟩ := ih (fun k => conn (k + 1)) (acc || conn 0) (fun k b f hk => h (k + 1) b f hk)
      refine ⟨c, ?_, ?_⟩
      · simp only [List.map_cons, connectedLoop, h0, bind, Option.bind]
        exact h1
      · rw [h2, Bool.or_eq_true]
        constructor
        · rintro ((h | h) | ⟨k, hk, h⟩)
          · exact .inl h
          · exact .inr ⟨0, by simp, h⟩
          · exact .inr ⟨k + 1, by simpa using hk, h⟩
        · rintro (h | ⟨k, hk, h⟩)
          · exact .inl (.inl h)
          · cases k with
            | zero => exact .inl (.inr h)
            | succ k => exact .inr ⟨k, by simpa using hk, h⟩
  obtain ⟨c, h1, h2⟩ := key ts conn false h
  exact ⟨c, h1, by rw [h2]; simp⟩

/-- **C84** A term of the kind `Super` adds no connection: no site with nothing left out, and otherwise no site with itself; two
different sites may not be asked for then. -/
theorem connected_absent (f : Ends) (ts : List (Option Base × Ends)) (smax emin i1 i2 : Nat) :
    (smax + 1 = emin ∨ i1 = i2 → geoConnected ((none, f) :: ts) smax emin i1 i2 = geoConnected ts smax emin i1 i2) ∧
    (smax + 1 ≠ emin → i1 ≠ i2 → geoConnected ((none, f) :: ts) smax emin i1 i2 = none) := by
  unfold geoConnected
  constructor
  · intro h
    by_cases h1 : smax + 1 = emin
    · simp [connectedLoop, h1]
    · simp [connectedLoop, h1, h.resolve_left h1]
  · intro h1 h2
    simp [connectedLoop, h1, h2]

/-- **C84** The kind of a connection says on which side each site is. -/
theorem kind_spec (smax ind jnd : Nat) :
    (connectionKind smax ind jnd = .systemSystem ↔ ind ≤ smax ∧ jnd ≤ smax) ∧
    (connectionKind smax ind jnd = .systemEnviron ↔ ind ≤ smax ∧ smax < jnd) ∧
    (connectionKind smax ind jnd = .environSystem ↔ smax < ind ∧ jnd ≤ smax) ∧
    (connectionKind smax ind jnd = .environEnviron ↔ smax < ind ∧ smax < jnd) := by
  unfold connectionKind
  split_ifs <;> simp <;> omega

/-! ## Cases -/

/-- Eight sites, of which the sites 3 and 4 are left out. -/
example : ∃ c, cacheValues (chainBase ⟨8, false, 1⟩) 8 1 false [⟨([10, 11, 12, 13, 14, 15, 16] : List Int), []⟩] = some c ∧
    superValue (chainBase ⟨8, false, 1⟩) (chainEnds ⟨8, false, 1⟩) 1 c 2 5 2 0 5 0 = some 12 ∧
    superValue (chainBase ⟨8, false, 1⟩) (chainEnds ⟨8, false, 1⟩) 1 c 2 5 5 0 6 0 = some 15 ∧
    superValue (chainBase ⟨8, false, 1⟩) (chainEnds ⟨8, false, 1⟩) 1 c 2 5 1 0 2 0 = some 11 := by decide +kernel

example : [10, 11, 12, 13, 14, 15, 16].length + 1 = 8 ∧ 2 < 5 ∧ 5 < 8 := by decide

/-- A chain of range two. -/
example : DataOk (chainBase ⟨6, false, 2⟩) 1 true [⟨([7] : List Int), []⟩] where
  len := rfl
  nums := by
    intro _ d dd h
    match d, h with
    | 0, h => cases h; rfl
  mats := by intro h; exact absurd rfl h

/-- A ladder of five rungs. -/
def ladder5 : Ladder := ⟨10, 2, false, false⟩

example : ladder5.Valid ∧ ladder5.leg = 2 ∧ ladder5.isPeriodicX = false ∧ (6 - 3 - 1) % 2 = 0 :=
  ⟨by constructor <;> decide, rfl, rfl, rfl⟩

def ladder5Data : List (DirData Int) := [⟨[1, 2, 3, 4, 5, 6, 7, 8], []⟩, ⟨[11, 12, 13, 14, 15], []⟩]

example : DataOk (ladderBase ladder5) 1 false ladder5Data where
  len := rfl
  nums := by
    intro _ d dd h
    match d, h with
    | 0, h => cases h; rfl
    | 1, h => cases h; rfl
  mats := by intro h; exact absurd rfl h

/-- The last rung of the system is joined to the first one of the environment with the numbers of the system. -/
example : ∃ c, cacheValues (ladderBase ladder5) 10 1 false ladder5Data = some c ∧
    superValue (ladderBase ladder5) (ladderEnds ladder5) 1 c 3 6 2 0 6 0 = some 3 ∧
    superValue (ladderBase ladder5) (ladderEnds ladder5) 1 c 3 6 3 0 7 0 = some 4 ∧
    superValue (ladderBase ladder5) (ladderEnds ladder5) 1 c 3 6 2 0 7 0 = some 0 ∧
    superConnected (ladderBase ladder5) (ladderEnds ladder5) 3 6 2 7 = some true := by decide +kernel

/-- Two terms. -/
example : geoConnected [(some (chainBase ⟨6, false, 1⟩), chainEnds ⟨6, false, 1⟩), (some (starBase 6), starEnds)] 1 4 1 5 = some true ∧
    geoConnected [(some (chainBase ⟨6, false, 1⟩), chainEnds ⟨6, false, 1⟩), (some (starBase 6), starEnds)] 1 4 1 4 = some true ∧
    geoConnected [(some (chainBase ⟨6, false, 1⟩), chainEnds ⟨6, false, 1⟩), (some (starBase 6), starEnds)] 1 4 0 5 = some false := by
  decide +kernel

/-! ## What does not hold -/

/-- Two sites of the same block that are both at its end are taken to be on different sides: the last rung of the system and the
first one of the environment are lost. -/
theorem same_block_fails : ∃ c, cacheValues (ladderBase ladder5) 10 1 false ladder5Data = some c ∧
    termValue (ladderBase ladder5) 1 c 6 0 7 0 = some 14 ∧
    superValue (ladderBase ladder5) (ladderEnds ladder5) 1 c 3 6 6 0 7 0 = some 0 ∧
    termValue (ladderBase ladder5) 1 c 2 0 3 0 = some 12 ∧
    superValue (ladderBase ladder5) (ladderEnds ladder5) 1 c 3 6 2 0 3 0 = some 0 := by decide +kernel

/-- And on a chain of range two the site to put in its place is not found. -/
theorem same_block_chain_fails : ∃ c : Mat Int, cacheValues (chainBase ⟨8, false, 2⟩) 8 1 true [⟨[7], []⟩] = some c ∧
    termValue (chainBase ⟨8, false, 2⟩) 1 c 1 0 2 0 = some 0 ∧
    superValue (chainBase ⟨8, false, 2⟩) (chainEnds ⟨8, false, 2⟩) 1 c 2 5 1 0 2 0 = none := by decide +kernel

/-- Sites at the ends count as connected although no connection of the lattice closed up joins them. -/
theorem connected_ends_fails : superConnected (ladderBase ladder5) (ladderEnds ladder5) 3 6 2 7 = some true ∧
    ladder5.connected 2 (7 - (6 - 3 - 1)) = false := by decide +kernel

/-- **C84** What a geometry gives for a term: if no sites are left out, what it gives without `smax` and `emin`, and otherwise what the
term gives. -/
theorem geo_super (g : Geo α) (ends : List Ends) (smax emin i e j e' k : Nat) (t : Term α) (b : Base) (f : Ends)
    (ht : g.terms[k]? = some t) (hb : t.base = some b) (hf : ends[k]? = some f) :
    (smax + 1 = emin → g.superValue ends smax emin i e j e' k = g.value i e j e' k) ∧
    (smax + 1 ≠ emin → g.superValue ends smax emin i e j e' k = superValue b f t.orbitals t.cached smax emin i e j e') := by
  constructor
  · intro h
    unfold Geo.superValue Geo.value
    simp only [ht, hb, hf, bind, Option.bind]
    rw [if_pos h]
  · intro h
    unfold Geo.superValue
    simp only [ht, hb, hf, bind, Option.bind]
    rw [if_neg h]

end Verif.Geom
