import Verif.Geom.PropsSuper
import Verif.Geom.PropsKTwo
import Verif.Geom.PropsGood

/-! # Connections of a superblock of a ladder with diagonals, of a ladder with a bath, of `KTwoNiFFour` and of a honeycomb -/

namespace Verif.Geom

open Verif Verif.Dense Verif.Loop

variable {α : Type} [CommRing α] [StarRing α]

theorem value_off_index {b : Base} {N orbs : Nat} {const : Bool} (hg : Good b N orbs const) {dirs : List (DirData α)}
    (hd : DataOk b orbs const dirs) {cached : Mat α} (hc : cacheValues b N orbs const dirs = some cached)
    {i j e e' k k' : Nat} (hi : i < N) (hj : j < N) (he : e < orbs) (he' : e' < orbs) (hk : b.index i e orbs = some (some k))
    (hk' : b.index j e' orbs = some (some k')) (hn : b.connected i j = some false) :
    termValue b orbs cached i e j e' = some 0 := by
  obtain ⟨c, h1, h2⟩ := cache_spec b N orbs const hg dirs hd
  rw [hc] at h1
  cases h1
  obtain ⟨v, h3, h4⟩ := h2 i j e e' k k' hi hj he he' hk hk'
  rw [calc_off _ _ _ _ _ _ _ _ hn] at h3
  rw [h4, ← h3]

/-- One pair of sites, the second of which stands for `j'` in the closed up lattice. -/
theorem super_pair {b : Base} {f : Ends} {N orbs smax emin : Nat} {const : Bool} (hg : Good b N orbs const) {dirs : List (DirData α)}
    (hd : DataOk b orbs const dirs) {cached : Mat α} (hc : cacheValues b N orbs const dirs = some cached)
    {i j j' e e' k k' k'' : Nat} {ci cj : Bool} (hij : i < j) (hjN : j < N) (hj' : j' < N) (he : e < orbs) (he' : e' < orbs)
    (hk : b.index i e orbs = some (some k)) (hk' : b.index j e' orbs = some (some k')) (hk'' : b.index j' e' orbs = some (some k''))
    (hci : f.fringe i smax emin = some ci) (hcj : f.fringe j smax emin = some cj)
    (joined : b.connected i j' = some true → ci = true ∧ cj = true) (apart : b.connected i j = some true → ci = true ∧ cj = true)
    (place : ci = true → cj = true → f.substitute smax emin j = some j') :
    superValue b f orbs cached smax emin i e j e' = termValue b orbs cached i e j' e' ∧
    superValue b f orbs cached smax emin j e' i e = termValue b orbs cached i e j' e' ∧
    (b.connected i j' = some true → superConnected b f smax emin i j = some true ∧ superConnected b f smax emin j i = some true) := by
  have hji : ¬ j < i := by omega
  have conn : ci = true ∧ cj = true → superConnected b f smax emin i j = some true ∧ superConnected b f smax emin j i = some true := by
    rintro ⟨rfl, rfl⟩
    constructor
    · simp only [superConnected, bothFringe, hci, hcj, bind, Option.bind, if_true]
      rw [if_neg (by omega)]
      rfl
    · simp only [superConnected, bothFringe, hci, hcj, bind, Option.bind, if_true]
      rw [if_neg (by omega)]
      rfl
  refine ⟨?_, ?_, fun h => conn (joined h)⟩
  all_goals
    by_cases hb2 : ci = true ∧ cj = true
    · have hsub := place hb2.1 hb2.2
      obtain ⟨rfl, rfl⟩ := hb2
      simp only [superValue, bothFringe, hci, hcj, bind, Option.bind, if_true]
      first
      | rw [if_neg hji]; simp only [hsub]
      | rw [if_pos hij]; simp only [hsub]
    · have hbf : bothFringe f smax emin i j = some false := by
        simp only [bothFringe, hci, hcj, bind, Option.bind]
        cases ci <;> cases cj <;> simp_all
      have hbf' : bothFringe f smax emin j i = some false := by
        simp only [bothFringe, hci, hcj, bind, Option.bind]
        cases ci <;> cases cj <;> simp_all
      have o1 : b.connected i j = some false ∧ b.connected j i = some false := by
        obtain ⟨c, h1, h2⟩ := hg.conn i j (by omega) hjN
        cases c with
        | false => exact ⟨h1, h2⟩
        | true => exact absurd (apart h1) hb2
      have o2 : b.connected i j' = some false := by
        obtain ⟨c, h1, -⟩ := hg.conn i j' (by omega) hj'
        cases c with
        | false => exact h1
        | true => exact absurd (joined h1) hb2
      rw [value_off_index hg hd hc (by omega) hj' he he' hk hk'' o2]
      simp only [superValue, hbf, hbf', bind, Option.bind]
      first
      | exact value_off_index hg hd hc (by omega) hjN he he' hk hk' o1.1
      | exact value_off_index hg hd hc hjN (by omega) he' he hk' hk o1.2

/-! ## Ladder with diagonals -/

theorem ladderx_conn2 (g : LadderX) (hv : g.Open) (h2 : g.ladder.leg = 2) (i j : Nat) (hij : i < j) (hj : j < g.ladder.linSize) :
    g.connected i j = true ↔ j / 2 = i / 2 ∨ j / 2 = i / 2 + 1 := by
  rw [ladderx_connected g hv i j (by omega) hj, h2]
  unfold Next
  omega

theorem ladderx_closes (g : LadderX) (hv : g.Open) (h2 : g.ladder.leg = 2) (hN : g.ladder.linSize < 2 ^ 63) (smax emin : Nat) (hs : 1 ≤ smax)
    (hse : smax < emin) : Closes (ladderxBase g) ladderxEnds g.ladder.linSize smax emin := by
  have hlow : ∀ i, i ≤ smax → (LadderX.fringe i smax emin = true ↔ smax ≤ i + (if smax % 2 = 1 then 1 else 2)) := by
    intro i hi
    unfold LadderX.fringe
    split_ifs with h
    · rw [sub64_le (by omega)]
      simp only [Bool.or_eq_true, Bool.and_eq_true, decide_eq_true_eq]
      omega
    · rw [sub64_le (by omega)]
      simp only [Bool.or_eq_true, Bool.and_eq_true, decide_eq_true_eq]
      omega
  have hhigh : ∀ j, emin ≤ j → (LadderX.fringe j smax emin = true ↔ j ≤ emin + (if smax % 2 = 1 then 1 else 2)) := by
    intro i hi
    unfold LadderX.fringe
    split_ifs with h
    · simp only [Bool.or_eq_true, Bool.and_eq_true, decide_eq_true_eq]
      omega
    · simp only [Bool.or_eq_true, Bool.and_eq_true, decide_eq_true_eq]
      omega
  refine ⟨fun i _ => ⟨_, rfl⟩, ?_, ?_, ?_⟩
  · intro i j hi hj hN h
    simp only [ladderxBase, Option.some.injEq] at h
    rw [ladderx_conn2 g hv h2 i _ (by omega) (by omega)] at h
    simp only [ladderxEnds, Option.some.injEq]
    rw [hlow i hi, hhigh j hj]
    split_ifs <;> omega
  · intro i j hi hj hN h
    simp only [ladderxBase, Option.some.injEq] at h
    rw [ladderx_conn2 g hv h2 i _ (by omega) (by omega)] at h
    simp only [ladderxEnds, Option.some.injEq]
    rw [hlow i hi, hhigh j hj]
    split_ifs <;> omega
  · intro i j hi hj hjN _ _
    simp only [ladderxEnds, Option.some.injEq]
    rw [sub64_le (by omega), Nat.mod_eq_of_lt (by omega)]
    omega

/-- **C84** On an open ladder with two legs and diagonals the values between the system and the environment are those of the ladder
closed up over the sites that are left out, for a system of at least two sites. -/
theorem super_ladderx (g : LadderX) (hv : g.Open) (h2 : g.ladder.leg = 2) (hN : g.ladder.linSize < 2 ^ 63) {orbs : Nat} {const : Bool}
    {dirs : List (DirData α)} (hd : DataOk (ladderxBase g) orbs const dirs) {smax emin : Nat} (hs : 1 ≤ smax) (hse : smax < emin) :
    ∃ cached, cacheValues (ladderxBase g) g.ladder.linSize orbs const dirs = some cached ∧
      ∀ i j e e', i ≤ smax → emin ≤ j → j < g.ladder.linSize → e < orbs → e' < orbs →
        superValue (ladderxBase g) ladderxEnds orbs cached smax emin i e j e' =
          termValue (ladderxBase g) orbs cached i e (j - (emin - smax - 1)) e' ∧
        superValue (ladderxBase g) ladderxEnds orbs cached smax emin j e' i e =
          termValue (ladderxBase g) orbs cached i e (j - (emin - smax - 1)) e' ∧
        (g.connected i (j - (emin - smax - 1)) = true →
          superConnected (ladderxBase g) ladderxEnds smax emin i j = some true ∧
          superConnected (ladderxBase g) ladderxEnds smax emin j i = some true) := by
  have hg := ladderx_good g hv orbs const fun _ => h2
  obtain ⟨c, hc, -⟩ := cache_spec _ _ _ _ hg dirs hd
  refine ⟨c, hc, ?_⟩
  intro i j e e' hi hj hjN he he'
  obtain ⟨h1, h2, h3⟩ := super_closes hg hd rfl hc (ladderx_closes g hv h2 hN smax emin hs hse) hse hi hj hjN he he'
  exact ⟨h1, h2.trans h1, fun h => h3 (congrArg some h)⟩

/-- **C84** With a system of one site its connections to the environment are lost: the difference that marks the fringe wraps. -/
theorem ladderx_one_site_fails (g : LadderX) (hv : g.Open) (h2 : g.ladder.leg = 2) (emin : Nat) (he : 4 ≤ emin) (hN : emin < g.ladder.linSize) :
    g.connected 0 (emin - (emin - 0 - 1)) = true ∧ superConnected (ladderxBase g) ladderxEnds 0 emin 0 emin = some false := by
  refine ⟨(ladderx_conn2 g hv h2 _ _ (by omega) (by omega)).2 (.inl (by omega)), ?_⟩
  have hf : LadderX.fringe 0 0 emin = false := by
    unfold LadderX.fringe
    rw [if_neg (by omega)]
    have : sub64 0 2 = 2 ^ 64 - 2 := by decide
    rw [this]
    simp
  have hc : g.connected 0 emin = false := by
    rw [← Bool.not_eq_true, ladderx_conn2 g hv h2 0 emin (by omega) hN]
    omega
  have hb : bothFringe ladderxEnds 0 emin 0 emin = some false := by simp [bothFringe, ladderxEnds, hf]
  unfold superConnected
  rw [if_neg (by omega), hb]
  exact congrArg some hc

/-! ## Ladder with a bath -/

/-- **C84** On a ladder with two legs and a bath, where the system and the environment both end inside of the cluster and an even
number of columns' sites is left out, the values between cluster sites are those of the ladder closed up, and those of the sites of
the bath do not change. -/
theorem super_bath (g : LadderBath) (hv : g.Valid) (h2 : g.ladder.leg = 2) (hp : g.ladder.isPeriodicX = false) (hN : g.linSize < 2 ^ 63)
    {orbs : Nat} {const : Bool} {dirs : List (DirData α)} (hd : DataOk (bathBase g) orbs const dirs) {smax emin : Nat}
    (hs : g.first + 1 ≤ smax) (hse : smax + 1 < emin) (heven : (emin - smax - 1) % 2 = 0) :
    ∃ cached, cacheValues (bathBase g) g.linSize orbs const dirs = some cached ∧
      ∀ i j e e', i ≤ smax → emin ≤ j → j < g.linSize → e < orbs → e' < orbs →
        (g.InCluster i → g.InCluster j →
          superValue (bathBase g) (bathEnds g) orbs cached smax emin i e j e' =
            termValue (bathBase g) orbs cached i e (j - (emin - smax - 1)) e' ∧
          superValue (bathBase g) (bathEnds g) orbs cached smax emin j e' i e =
            termValue (bathBase g) orbs cached i e (j - (emin - smax - 1)) e' ∧
          (g.connected i (j - (emin - smax - 1)) = some true →
            superConnected (bathBase g) (bathEnds g) smax emin i j = some true ∧
            superConnected (bathBase g) (bathEnds g) smax emin j i = some true)) ∧
        (¬ (g.InCluster i ∧ g.InCluster j) →
          superValue (bathBase g) (bathEnds g) orbs cached smax emin i e j e' = termValue (bathBase g) orbs cached i e j e' ∧
          superValue (bathBase g) (bathEnds g) orbs cached smax emin j e' i e = termValue (bathBase g) orbs cached j e' i e ∧
          superConnected (bathBase g) (bathEnds g) smax emin i j = g.connected i j ∧
          superConnected (bathBase g) (bathEnds g) smax emin j i = g.connected j i) := by
  have hg := bath_good g hv orbs const
  obtain ⟨c, hc, -⟩ := cache_spec _ _ _ _ hg dirs hd
  refine ⟨c, hc, ?_⟩
  intro i j e e' hi hj hjN he he'
  have hsz := bath_sizes g hv
  have hls : g.ladder.linSize = g.clusterSize := hv.size
  constructor
  · intro ci cj
    have ci' := ci
    have cj' := cj
    unfold LadderBath.InCluster at ci' cj'
    have hcl := ladder_closes g.ladder hv.ladder h2 hp (by omega) (smax - g.first) (emin - g.first) (by omega) (by omega) (by omega)
    have fr : ∀ k, g.InCluster k → (bathEnds g).fringe k smax emin =
        some (g.ladder.fringe (k - g.first) (smax - g.first) (emin - g.first)) := by
      intro k hk
      have := hk.1
      simp only [bathEnds, LadderBath.fringe, gcs_cluster g k hk, bind, Option.bind]
      change some (g.ladder.fringe (sub64 k g.first) (sub64 smax g.first) (sub64 emin g.first)) = _
      rw [sub64_le (show g.first ≤ k by omega), sub64_le (show g.first ≤ smax by omega), sub64_le (show g.first ≤ emin by omega)]
    have con : ∀ k, g.InCluster k → i ≠ k → g.connected i k = some (g.ladder.connected (i - g.first) (k - g.first)) := by
      intro k hk hik
      unfold LadderBath.connected
      rw [if_neg hik, gcs_cluster g i ci, gcs_cluster g k hk]
      rfl
    have cj2 : g.InCluster (j - (emin - smax - 1)) := by
      unfold LadderBath.InCluster
      omega
    have esh : j - (emin - smax - 1) - g.first = j - g.first - (emin - g.first - (smax - g.first) - 1) := by omega
    refine super_pair hg hd hc (by omega) hjN (by omega) he he' (if_pos he) (if_pos he') (if_pos he') (fr i ci) (fr j cj) ?_ ?_ ?_
    · intro h
      have h' := (con _ cj2 (by omega)).symm.trans h
      rw [esh] at h'
      have := hcl.joined (i - g.first) (j - g.first) (by omega) (by omega) (by omega) h'
      simpa only [ladderEnds, Option.some.injEq] using this
    · intro h
      have h' := (con _ cj (by omega)).symm.trans h
      have := hcl.apart (i - g.first) (j - g.first) (by omega) (by omega) (by omega) h'
      simpa only [ladderEnds, Option.some.injEq] using this
    · intro q1 q2
      have := hcl.place (i - g.first) (j - g.first) (by omega) (by omega) (by omega) (congrArg some q1) (congrArg some q2)
      simp only [bathEnds, LadderBath.getSubstituteSite, gcs_cluster g j cj, bind, Option.bind]
      change Option.map (· + g.first) (g.ladder.getSubstituteSite (sub64 smax g.first) (sub64 emin g.first) (sub64 j g.first)) = _
      rw [sub64_le (show g.first ≤ j by omega), sub64_le (show g.first ≤ smax by omega), sub64_le (show g.first ≤ emin by omega)]
      simp only [ladderEnds] at this
      rw [this, Option.map_some]
      congr 1
      omega
  · intro hn
    have fb : ∀ k, k < g.linSize → ∃ b, g.fringe k smax emin = some b ∧ (b = true → g.InCluster k) := by
      intro k hk
      by_cases h : g.InCluster k
      · refine ⟨g.ladder.fringe (sub64 k g.first) (sub64 smax g.first) (sub64 emin g.first), ?_, fun _ => h⟩
        simp only [LadderBath.fringe, gcs_cluster g k h, bind, Option.bind]
        rfl
      · obtain ⟨c, q, h1, -⟩ := gcs_bath g hv k hk h
        refine ⟨false, ?_, by simp⟩
        simp only [LadderBath.fringe, h1, bind, Option.bind]
    obtain ⟨bi, hbi, hbi'⟩ := fb i (by omega)
    obtain ⟨bj, hbj, hbj'⟩ := fb j hjN
    have hne : ¬ (bi = true ∧ bj = true) := fun h => hn ⟨hbi' h.1, hbj' h.2⟩
    have hbf : bothFringe (bathEnds g) smax emin i j = some false := by
      simp only [bothFringe, bathEnds, hbi, hbj, bind, Option.bind]
      cases bi <;> cases bj <;> first | rfl | exact absurd ⟨rfl, rfl⟩ hne
    have hbf' : bothFringe (bathEnds g) smax emin j i = some false := by
      simp only [bothFringe, bathEnds, hbi, hbj, bind, Option.bind]
      cases bi <;> cases bj <;> first | rfl | exact absurd ⟨rfl, rfl⟩ hne
    refine ⟨by simp only [superValue, hbf, bind, Option.bind]; rfl, by simp only [superValue, hbf', bind, Option.bind]; rfl, ?_, ?_⟩
    · simp only [superConnected, hbf, bind, Option.bind]
      rw [if_neg (by omega)]
      rfl
    · simp only [superConnected, hbf', bind, Option.bind]
      rw [if_neg (by omega)]
      rfl

/-! ## KTwoNiFFour -/

theorem ktwo_index_mod (N : Nat) (i j e : Nat) (hij : j % 4 = i % 4) (hi : i < N) (hj : j < N) {k : Nat}
    (hk : KTwo.index N i e = some (some k)) : ∃ k', KTwo.index N j e = some (some k') := by
  have ht : KTwo.findTypeOfSite j = KTwo.findTypeOfSite i := by
    unfold KTwo.findTypeOfSite
    rw [show (j + 1) % 4 = (i + 1) % 4 by omega]
  unfold KTwo.index at *
  simp only [ht] at *
  by_cases h1 : KTwo.findTypeOfSite i = .cu ∧ e > 0
  · rw [if_pos h1] at hk
    cases hk
  · rw [if_neg h1] at hk ⊢
    by_cases h2 : KTwo.findTypeOfSite i = .cu ∨ e = 0
    · rw [if_pos h2]
      exact ⟨_, rfl⟩
    · rw [if_neg h2, if_pos (by omega)]
      exact ⟨_, rfl⟩

/-- **C84** On `KTwoNiFFour`, where whole cells of four sites are taken out after a copper site, or after the first oxygen of a cell with
its other two oxygens, the values between the system and the environment are those of the lattice without these cells. -/
theorem super_ktwo (N : Nat) (sc : Int) {dirs : List (DirData α)} (hd : DataOk (ktwoBase N sc) 2 true dirs) {smax emin gap : Nat}
    (hse : (smax % 4 = 3 ∧ emin = smax + 1 + gap) ∨ (smax % 4 = 0 ∧ emin = smax + 3 + gap)) (h4 : gap % 4 = 0) :
    ∃ cached, cacheValues (ktwoBase N sc) N 2 true dirs = some cached ∧
      ∀ i j e e', i ≤ smax → emin ≤ j → j < N → e < KTwo.orbitals 2 i → e' < KTwo.orbitals 2 j →
        superValue (ktwoBase N sc) ktwoEnds 2 cached smax emin i e j e' = termValue (ktwoBase N sc) 2 cached i e (j - gap) e' ∧
        superValue (ktwoBase N sc) ktwoEnds 2 cached smax emin j e' i e = termValue (ktwoBase N sc) 2 cached i e (j - gap) e' ∧
        (KTwo.connected i (j - gap) = some true →
          superConnected (ktwoBase N sc) ktwoEnds smax emin i j = some true ∧
          superConnected (ktwoBase N sc) ktwoEnds smax emin j i = some true) := by
  have hg := ktwo_good N sc
  obtain ⟨c, hc, -⟩ := cache_spec _ _ _ _ hg dirs hd
  refine ⟨c, hc, ?_⟩
  intro i j e e' hi hj hjN he he'
  obtain ⟨k, hk, -⟩ := (KTwo.ktwo_index N).1 i e (by omega) he
  obtain ⟨k', hk', -⟩ := (KTwo.ktwo_index N).1 j e' hjN he'
  obtain ⟨k'', hk''⟩ := ktwo_index_mod N j (j - gap) e' (by omega) hjN (by omega) hk'
  have ho : ∀ s, KTwo.orbitals 2 s ≤ 2 := by
    intro s
    unfold KTwo.orbitals
    split_ifs <;> omega
  have hcon : ∀ j', KTwo.connected i j' = some true → (KTwo.CuO i j' ∨ KTwo.CuO j' i ∨ KTwo.OO i j') := by
    intro j' h
    obtain ⟨b, h1, h2⟩ := KTwo.ktwo_connected i j'
    rw [h1] at h
    cases h
    exact h2.1 rfl
  have key : ∀ j', (j' = j - gap ∨ j' = j) → KTwo.connected i j' = some true → KTwo.fringe i smax emin = true ∧ KTwo.fringe j smax emin = true := by
    intro j' hj' h
    have hb := hcon j' h
    rw [KTwo.oo_iff] at hb
    unfold KTwo.CuO KTwo.IsOx KTwo.IsOy at hb
    unfold KTwo.fringe
    rcases hse with ⟨hm, he⟩ | ⟨hm, he⟩
    · rw [hm]
      simp only [Bool.or_eq_true, beq_iff_eq]
      rw [sub64_le (show 1 ≤ smax by omega), sub64_le (show 2 ≤ smax by omega)]
      omega
    · rw [hm]
      simp only [Bool.or_eq_true, beq_iff_eq]
      omega
  refine super_pair (f := ktwoEnds) hg hd hc (by omega) hjN (by omega) (lt_of_lt_of_le he (ho i)) (lt_of_lt_of_le he' (ho j)) hk hk' hk'' rfl rfl
    (key _ (.inl rfl)) (key _ (.inr rfl)) ?_
  intro q1 q2
  simp only [ktwoEnds]
  unfold KTwo.fringe at q1 q2
  unfold KTwo.getSubstituteSite
  rcases hse with ⟨hm, he⟩ | ⟨hm, he⟩
  · rw [hm] at q1 q2 ⊢
    simp only [Bool.or_eq_true, beq_iff_eq] at q1 q2
    rw [sub64_le (show 1 ≤ smax by omega), sub64_le (show 2 ≤ smax by omega)] at q2
    have : j = emin := by omega
    simp only [this, if_true]
    congr 1
    omega
  · rw [hm] at q2 ⊢
    simp only [Bool.or_eq_true, beq_iff_eq] at q2
    simp only [Option.some.injEq]
    omega

/-- **C84** When the system ends after the second oxygen of a cell, connections are lost, in particular the one between the first oxygen
and the third: `emin` stands for a site of the next cell. -/
theorem ktwo_second_oxygen_fails (smax emin : Nat) (hs : smax % 4 = 1) (hse : smax < emin) :
    KTwo.connected (smax - 1) (smax + 1) = some true ∧ bothFringe ktwoEnds smax emin (smax - 1) emin = some true ∧
      ktwoEnds.substitute smax emin emin = some (smax + 3) ∧ KTwo.connected (smax - 1) (smax + 3) = some false := by
  have hconn : ∀ j' b, ((b = true) ↔ (KTwo.CuO (smax - 1) j' ∨ KTwo.CuO j' (smax - 1) ∨ KTwo.OO (smax - 1) j')) → KTwo.connected (smax - 1) j' = some b := by
    intro j' b hb
    obtain ⟨c, h1, h2⟩ := KTwo.ktwo_connected (smax - 1) j'
    rw [h1]
    congr 1
    rw [Bool.eq_iff_iff, h2, hb]
  refine ⟨hconn _ true ?_, ?_, ?_, hconn _ false ?_⟩
  · rw [KTwo.oo_iff]
    unfold KTwo.CuO KTwo.IsOx KTwo.IsOy
    simp only [true_iff]
    omega
  · simp only [bothFringe, ktwoEnds, KTwo.fringe, hs, bind, Option.bind]
    rw [sub64_le (show 1 ≤ smax by omega)]
    simp
  · simp only [ktwoEnds, KTwo.getSubstituteSite, hs, if_true]
  · rw [KTwo.oo_iff]
    unfold KTwo.CuO KTwo.IsOx KTwo.IsOy
    simp only [Bool.false_eq_true, false_iff]
    omega

/-- **C84** When the system ends after the third oxygen of a cell, the connections of the copper site that follows are lost. -/
theorem ktwo_third_oxygen_fails (smax gap : Nat) (hs : smax % 4 = 2) (h4 : gap % 4 = 0) (hg : 0 < gap) :
    KTwo.connected smax (smax + 1 + gap - gap) = some true ∧ superConnected (ktwoBase (smax + 2 + gap) 1) ktwoEnds smax (smax + 1 + gap) smax (smax + 1 + gap) = some false := by
  have hconn : ∀ j' b, ((b = true) ↔ (KTwo.CuO smax j' ∨ KTwo.CuO j' smax ∨ KTwo.OO smax j')) → KTwo.connected smax j' = some b := by
    intro j' b hb
    obtain ⟨c, h1, h2⟩ := KTwo.ktwo_connected smax j'
    rw [h1]
    congr 1
    rw [Bool.eq_iff_iff, h2, hb]
  refine ⟨hconn _ true ?_, ?_⟩
  · rw [KTwo.oo_iff]
    unfold KTwo.CuO KTwo.IsOx KTwo.IsOy
    simp only [true_iff]
    omega
  · have hf : bothFringe ktwoEnds smax (smax + 1 + gap) smax (smax + 1 + gap) = some false := by
      simp only [bothFringe, ktwoEnds, KTwo.fringe, hs, bind, Option.bind]
      rw [sub64_le (show 2 ≤ smax by omega)]
      have e1 : (smax == smax - 2) = false := by rw [beq_eq_false_iff_ne]; omega
      have e2 : (smax == smax + 1 + gap + 2) = false := by rw [beq_eq_false_iff_ne]; omega
      simp [e1, e2]
    unfold superConnected
    rw [if_neg (by omega), hf]
    change KTwo.connected smax (smax + 1 + gap) = some false
    refine hconn _ false ?_
    rw [KTwo.oo_iff]
    unfold KTwo.CuO KTwo.IsOx KTwo.IsOy
    simp only [Bool.false_eq_true, false_iff]
    omega

/-! ## Honeycomb -/

/-- **C84** On a honeycomb there is no value between two sites of the fringe: `getSubstituteSite` throws. -/
theorem honey_fringe_fails (g : Honeycomb) {orbs : Nat} (cached : Mat α) (smax emin i e j e' : Nat) (hi : g.fringe i smax emin = some true)
    (hj : g.fringe j smax emin = some true) : superValue (honeyBase g) (honeyEnds g) orbs cached smax emin i e j e' = none := by
  simp only [superValue, bothFringe, honeyEnds, hi, hj, bind, Option.bind, if_true]
  split_ifs <;> rfl

/-! ## The hypotheses are met -/

/-- A ladder with diagonals and four columns. -/
def ladderx4 : LadderX := ⟨⟨8, 2, false, false⟩⟩

/-- Numbers of its connections. -/
def ladderx4Data : List (DirData Int) := [⟨[1, 2, 3, 4, 5, 6], []⟩, ⟨[11, 12, 13, 14], []⟩, ⟨[21, 22, 23, 24, 25, 26], []⟩, ⟨[31, 32, 33, 34, 35, 36], []⟩]

example : ladderx4.Open := ⟨⟨by decide, by decide, by decide, by decide⟩, rfl, rfl⟩

example : DataOk (ladderxBase ladderx4) 1 false ladderx4Data where
  len := rfl
  nums := by
    intro _ d dd h
    match d, h with
    | 0, h => cases h; rfl
    | 1, h => cases h; rfl
    | 2, h => cases h; rfl
    | 3, h => cases h; rfl
  mats := by intro h; exact absurd rfl h

example : ∃ c, cacheValues (ladderxBase ladderx4) 8 1 false ladderx4Data = some c ∧
    superValue (ladderxBase ladderx4) ladderxEnds 1 c 1 5 1 0 5 0 = some 21 ∧
    superValue (ladderxBase ladderx4) ladderxEnds 1 c 1 5 0 0 6 0 = some 31 ∧
    superValue (ladderxBase ladderx4) ladderxEnds 1 c 1 5 1 0 6 0 = some 2 := by decide +kernel

/-- Two legs and four columns, with one bath site for each site. -/
def bath8 : LadderBath := ⟨16, 1, 8, ⟨8, 2, false, false⟩⟩

/-- Numbers of its connections. -/
def bath8Data : List (DirData Int) := [⟨[1, 2, 3, 4, 5, 6], []⟩, ⟨[11, 12, 13, 14], []⟩, ⟨[21, 22, 23, 24, 25, 26, 27, 28], []⟩]

example : bath8.Valid := ⟨by decide, by decide, by decide, ⟨by decide, by decide, by decide, by decide⟩, rfl⟩

example : DataOk (bathBase bath8) 1 false bath8Data where
  len := rfl
  nums := by
    intro _ d dd h
    match d, h with
    | 0, h => cases h; rfl
    | 1, h => cases h; rfl
    | 2, h => cases h; rfl
  mats := by intro h; exact absurd rfl h

/-- The cluster is sites 4 to 11; the sites 6 to 9 are left out. -/
example : ∃ c, cacheValues (bathBase bath8) 16 1 false bath8Data = some c ∧ bath8.first = 4 ∧
    superValue (bathBase bath8) (bathEnds bath8) 1 c 5 10 4 0 10 0 = some 1 ∧
    superValue (bathBase bath8) (bathEnds bath8) 1 c 5 10 5 0 11 0 = some 2 ∧
    superValue (bathBase bath8) (bathEnds bath8) 1 c 5 10 0 0 4 0 = some 21 := by decide +kernel

/-- Three cells; the second one is left out. -/
example : ∃ c : Mat Int, cacheValues (ktwoBase 12 1) 12 2 true
      [⟨[], [⟨1, 2, [1, 2]⟩]⟩, ⟨[], [⟨1, 2, [3, 4]⟩]⟩, ⟨[], [⟨2, 2, [5, 6, 7, 8]⟩]⟩, ⟨[], [⟨2, 2, [11, 12, 13, 14]⟩]⟩] = some c ∧
    superValue (ktwoBase 12 1) ktwoEnds 2 c 3 8 3 0 8 1 = termValue (ktwoBase 12 1) 2 c 3 0 4 1 ∧
    termValue (ktwoBase 12 1) 2 c 3 0 4 1 ≠ some 0 ∧
    superValue (ktwoBase 12 1) ktwoEnds 2 c 0 7 0 1 7 0 = termValue (ktwoBase 12 1) 2 c 0 1 3 0 ∧
    termValue (ktwoBase 12 1) 2 c 0 1 3 0 ≠ some 0 := by decide +kernel

end Verif.Geom
