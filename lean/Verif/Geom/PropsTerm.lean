import Verif.Geom.ModelTerm
import Verif.Geom.PropsChain
import Verif.Geom.PropsLadder
import Verif.Geom.PropsKTwo
import Verif.Dense.Lemmas
import Mathlib.Algebra.Star.Basic
import Mathlib.NumberTheory.Zsqrtd.GaussianInt

/-!
# Connector values are Hermitian
-/

namespace Verif.Geom

open Verif.Loop Verif.Dense

/-- What the connectors need from a geometry with `N` sites and `orbs` orbitals. -/
structure Good (b : Base) (N orbs : Nat) (const : Bool) : Prop where
  conn : ∀ i j, i < N → j < N → ∃ c, b.connected i j = some c ∧ b.connected j i = some c
  irrefl : ∀ i, i < N → b.connected i i = some false
  dir : ∀ i j, i < N → j < N → b.connected i j = some true →
    ∃ d, d < b.dirs ∧ b.calcDir i j = some d ∧ b.calcDir j i = some d
  sign : ∀ i j, i < N → j < N → b.connected i j = some true →
    ∃ s, b.signChange i j = some s ∧ b.signChange j i = some s
  hdl : const = false → ∀ i j d, i < N → j < N → b.connected i j = some true → b.calcDir i j = some d →
    ∃ h size, b.handle i j = some h ∧ b.handle j i = some h ∧ b.getVectorSize d = some size ∧ h < size
  idx : ∀ i e, i < N → e < orbs →
    ∃ r, b.index i e orbs = some r ∧ ∀ k, r = some k → k < b.matrixRank N orbs
  inj : ∀ i e i' e' k, i < N → i' < N → e < orbs → e' < orbs → b.index i e orbs = some (some k) →
    b.index i' e' orbs = some (some k) → i = i' ∧ e = e'

/-- What the constructor of a direction checks (src/Geometry/GeometryDirection.h:125-160): as many
numbers as bonds (one if the values are constant) for one orbital, square matrices for several. -/
structure DataOk {α : Type} (b : Base) (orbs : Nat) (const : Bool) (dirs : List (DirData α)) : Prop where
  len : dirs.length = b.dirs
  nums : orbs = 1 → ∀ d dd, dirs[d]? = some dd →
    (if const then some 1 else b.getVectorSize d) = some dd.numbers.length
  mats : orbs ≠ 1 → ∀ d dd, dirs[d]? = some dd →
    (∃ n, (if const then some 1 else b.getVectorSize d) = some n ∧ dd.matrices.length = max n 1) ∧
    ∀ m ∈ dd.matrices, Shape m orbs orbs

theorem union_loop {σ ι : Type} (n : Nat) (f : Nat → σ → Option σ) (Inv : (ι → Prop) → σ → Prop)
    (S : Nat → ι → Prop) (D : ι → Prop) (s : σ) (h0 : Inv D s)
    (hs : ∀ i D s, i < n → Inv D s → ∃ s', f i s = some s' ∧ Inv (fun x => D x ∨ S i x) s') :
    ∃ s', loopN n f s = some s' ∧ Inv (fun x => D x ∨ ∃ i, i < n ∧ S i x) s' := by
  refine loopN_inv (fun k s => Inv (fun x => D x ∨ ∃ i, i < k ∧ S i x) s) n f s ?_ ?_
  · simpa using h0
  · intro i s hi h
    obtain ⟨s', h1, h2⟩ := hs i _ s hi h
    refine ⟨s', h1, ?_⟩
    have : (fun x => D x ∨ ∃ j, j < i + 1 ∧ S j x) = fun x => (D x ∨ ∃ j, j < i ∧ S j x) ∨ S i x := by
      funext x
      apply propext
      constructor
      · rintro (h | ⟨j, hj, h⟩)
        · exact Or.inl (Or.inl h)
        · by_cases e : j = i
          · exact Or.inr (e ▸ h)
          · exact Or.inl (Or.inr ⟨j, by omega, h⟩)
      · rintro ((h | ⟨j, hj, h⟩) | h)
        · exact Or.inl h
        · exact Or.inr ⟨j, by omega, h⟩
        · exact Or.inr ⟨i, by omega, h⟩
    rw [this]; exact h2

variable {α : Type} [CommRing α] [StarRing α]

/-- The cache holds `F` on the entries in `D` and zero elsewhere. -/
def CacheInv (R : Nat) (F : Nat → Nat → α) (D : Nat × Nat → Prop) (c : Mat α) : Prop :=
  Shape c R R ∧ ∀ k1 k2, k1 < R → k2 < R →
    (D (k1, k2) → c.get k1 k2 = some (F k1 k2)) ∧ (¬ D (k1, k2) → c.get k1 k2 = some 0)

theorem CacheInv.set {R : Nat} {F : Nat → Nat → α} {D : Nat × Nat → Prop} {c : Mat α}
    (h : CacheInv R F D c) {k1 k2 : Nat} (h1 : k1 < R) (h2 : k2 < R) :
    ∃ c', c.set k1 k2 (F k1 k2) = some c' ∧ CacheInv R F (fun x => D x ∨ x = (k1, k2)) c' := by
  obtain ⟨c', e, hs, hg0, hg⟩ := h.1.set h1 h2 (F k1 k2)
  refine ⟨c', e, hs, ?_⟩
  intro a b ha hb
  have hh := h.2 a b ha hb
  by_cases hab : a = k1 ∧ b = k2
  · obtain ⟨rfl, rfl⟩ := hab
    refine ⟨fun _ => ?_, fun x => absurd (Or.inr rfl) x⟩
    exact hg0
  · have hne : ¬ ((a, b) = (k1, k2)) := by simpa using hab
    have : c'.get a b = c.get a b := hg a b ha hb (by omega)
    rw [this]
    refine ⟨fun x => hh.1 (x.resolve_right hne), fun x => hh.2 (fun y => x (Or.inl y))⟩

/-- The value for two connected sites and several orbitals, spelled out: seen from the larger site it
is the entry of the input matrix of this bond times the sign; seen from the smaller one, its conjugate. -/
theorem calc_matrix (b : Base) (N orbs : Nat) (const : Bool) (hg : Good b N orbs const) (dirs : List (DirData α))
    (hd : DataOk b orbs const dirs) (ho : 1 < orbs) (i j e e' : Nat) (hj : j < i) (hi : i < N)
    (he : e < orbs) (he' : e' < orbs) (hc : b.connected i j = some true) :
    ∃ d dd h m s x, b.calcDir i j = some d ∧ dirs[d]? = some dd ∧
      (if const then some 0 else b.handle i j) = some h ∧ dd.matrices[h]? = some m ∧
      b.signChange i j = some s ∧ m.get e e' = some x ∧
      calcValue b orbs const dirs i e j e' = some (x * ((s : Int) : α)) ∧
      calcValue b orbs const dirs j e' i e = some (star (x * ((s : Int) : α))) := by
  have hjN : j < N := by omega
  obtain ⟨c, hc1, hc2⟩ := hg.conn i j hi hjN
  rw [hc] at hc1; cases hc1
  obtain ⟨d, hdl, hd1, hd2⟩ := hg.dir i j hi hjN hc
  obtain ⟨s, hs1, hs2⟩ := hg.sign i j hi hjN hc
  have hdd : dirs[d]? = some (dirs[d]'(by rw [hd.len]; exact hdl)) := List.getElem?_eq_getElem _
  generalize dirs[d]'(by rw [hd.len]; exact hdl) = dd at hdd
  obtain ⟨⟨n, hn1, hn2⟩, hsh⟩ := hd.mats (by omega) d dd hdd
  have hh : ∃ h, (if const then some 0 else b.handle i j) = some h ∧
      (if const then some 0 else b.handle j i) = some h ∧ h < dd.matrices.length := by
    cases hcst : const
    · obtain ⟨h, size, h1, h2, h3, h4⟩ := hg.hdl hcst i j d hi hjN hc hd1
      refine ⟨h, by simpa using h1, by simpa using h2, ?_⟩
      simp only [hcst, Bool.false_eq_true, if_false, h3, Option.some.injEq] at hn1
      omega
    · exact ⟨0, rfl, rfl, by omega⟩
  obtain ⟨h, h1, h2, h3⟩ := hh
  have hm : dd.matrices[h]? = some dd.matrices[h] := List.getElem?_eq_getElem h3
  have hmS : Shape dd.matrices[h] orbs orbs := hsh _ (List.getElem_mem _)
  generalize dd.matrices[h] = m at hm hmS
  obtain ⟨A, hA⟩ := hmS.exists_rep
  have hx := hA.get he he'
  have hii : ¬ (e + i * orbs < e' + j * orbs) := by
    have : (j + 1) * orbs ≤ i * orbs := Nat.mul_le_mul_right _ hj
    rw [Nat.add_mul, Nat.one_mul] at this
    omega
  have hjj : e' + j * orbs < e + i * orbs := by
    have : (j + 1) * orbs ≤ i * orbs := Nat.mul_le_mul_right _ hj
    rw [Nat.add_mul, Nat.one_mul] at this
    omega
  have hmv : matrixValue b dd h i e j e' = some (A ⟨e, he⟩ ⟨e', he'⟩ * ((s : Int) : α)) := by
    simp only [matrixValue, hm, hmS.nrow, hmS.ncol, bind, Option.bind_some, hs1]
    rw [if_pos ⟨he, he'⟩, hx]
    rfl
  refine ⟨d, dd, h, m, s, _, hd1, hdd, h1, hm, hs1, hx, ?_, ?_⟩
  · simp only [calcValue, hc, hd1, hdd, bind, Option.bind_some, Bool.not_true, Bool.false_eq_true, if_false,
      dirValue, if_neg (not_not.2 ho), if_neg hii, h1, hmv]
  · simp only [calcValue, hc2, hd2, hdd, bind, Option.bind_some, Bool.not_true, Bool.false_eq_true, if_false,
      dirValue, if_neg (not_not.2 ho), if_pos hjj, h1, hmv]

/-- The value for two connected sites and one orbital: the number given for this bond. -/
theorem calc_number (b : Base) (N : Nat) (const : Bool) (hg : Good b N 1 const) (dirs : List (DirData α))
    (hd : DataOk b 1 const dirs) (i j : Nat) (hj : j < N) (hi : i < N)
    (hc : b.connected i j = some true) :
    ∃ d dd h x, b.calcDir i j = some d ∧ dirs[d]? = some dd ∧
      (if const then some 0 else b.handle i j) = some h ∧ dd.numbers[h]? = some x ∧
      calcValue b 1 const dirs i 0 j 0 = some x ∧ calcValue b 1 const dirs j 0 i 0 = some x := by
  obtain ⟨c, hc1, hc2⟩ := hg.conn i j hi hj
  rw [hc] at hc1; cases hc1
  obtain ⟨d, hdl, hd1, hd2⟩ := hg.dir i j hi hj hc
  have hdd : dirs[d]? = some (dirs[d]'(by rw [hd.len]; exact hdl)) := List.getElem?_eq_getElem _
  generalize dirs[d]'(by rw [hd.len]; exact hdl) = dd at hdd
  have hn1 := hd.nums rfl d dd hdd
  have hh : ∃ h, (if const then some 0 else b.handle i j) = some h ∧
      (if const then some 0 else b.handle j i) = some h ∧ h < dd.numbers.length := by
    cases hcst : const
    · obtain ⟨h, size, h1, h2, h3, h4⟩ := hg.hdl hcst i j d hi hj hc hd1
      refine ⟨h, by simpa using h1, by simpa using h2, ?_⟩
      simp only [hcst, Bool.false_eq_true, if_false, h3, Option.some.injEq] at hn1
      omega
    · refine ⟨0, rfl, rfl, ?_⟩
      simp only [hcst, if_true, Option.some.injEq] at hn1
      omega
  obtain ⟨h, h1, h2, h3⟩ := hh
  have hm : dd.numbers[h]? = some dd.numbers[h] := List.getElem?_eq_getElem h3
  refine ⟨d, dd, h, _, hd1, hdd, h1, hm, ?_, ?_⟩
  · simp only [calcValue, hc, hd1, hdd, bind, Option.bind_some, Bool.not_true, Bool.false_eq_true, if_false,
      dirValue, gt_iff_lt, Nat.lt_irrefl, not_false_eq_true, if_true, h1, hm]
  · simp only [calcValue, hc2, hd2, hdd, bind, Option.bind_some, Bool.not_true, Bool.false_eq_true, if_false,
      dirValue, gt_iff_lt, Nat.lt_irrefl, not_false_eq_true, if_true, h2, hm]

theorem calc_off (b : Base) (orbs : Nat) (const : Bool) (dirs : List (DirData α)) (i j e e' : Nat)
    (hc : b.connected i j = some false) : calcValue b orbs const dirs i e j e' = some 0 := by
  simp [calcValue, hc]

/-- Every value asked for while filling the cache exists. -/
theorem calc_exists (b : Base) (N orbs : Nat) (const : Bool) (hg : Good b N orbs const) (dirs : List (DirData α))
    (hd : DataOk b orbs const dirs) (i j e e' : Nat) (hj : j < N) (hi : i < N)
    (he : e < orbs) (he' : e' < orbs) : ∃ v, calcValue b orbs const dirs i e j e' = some v := by
  obtain ⟨c, hc1, hc2⟩ := hg.conn i j hi hj
  cases c
  · exact ⟨0, calc_off _ _ _ _ _ _ _ _ hc1⟩
  · by_cases ho : orbs = 1
    · subst ho
      obtain ⟨d, dd, h, x, _, _, _, _, h5, _⟩ := calc_number b N const hg dirs hd i j hj hi hc1
      have : e = 0 := by omega
      have : e' = 0 := by omega
      subst_vars
      exact ⟨_, h5⟩
    · have hij : i ≠ j := by
        rintro rfl
        rw [hg.irrefl i hi] at hc1; cases hc1
      rcases Nat.lt_or_gt_of_ne hij with hl | hl
      · obtain ⟨_, _, _, _, _, _, _, _, _, _, _, _, _, h⟩ := calc_matrix b N orbs const hg dirs hd (by omega) j i e' e hl hj he' he hc2
        exact ⟨_, h⟩
      · obtain ⟨_, _, _, _, _, _, _, _, _, _, _, _, h, _⟩ := calc_matrix b N orbs const hg dirs hd (by omega) i j e e' hl hi he he' hc1
        exact ⟨_, h⟩

/-- Looking up a connector in the cache gives the value computed for it. -/
theorem cache_spec (b : Base) (N orbs : Nat) (const : Bool) (hg : Good b N orbs const) (dirs : List (DirData α))
    (hd : DataOk b orbs const dirs) :
    ∃ cached, cacheValues b N orbs const dirs = some cached ∧
      ∀ i j e e' k1 k2, i < N → j < N → e < orbs → e' < orbs → b.index i e orbs = some (some k1) →
        b.index j e' orbs = some (some k2) →
        ∃ v, calcValue b orbs const dirs i e j e' = some v ∧ termValue b orbs cached i e j e' = some v := by
  have hF : ∀ k1 k2, ∃ v : α, ∀ i e j e', i < N → j < N → e < orbs → e' < orbs →
      b.index i e orbs = some (some k1) → b.index j e' orbs = some (some k2) →
      calcValue b orbs const dirs i e j e' = some v := by
    intro k1 k2
    by_cases hex : ∃ i e j e', i < N ∧ j < N ∧ e < orbs ∧ e' < orbs ∧
      b.index i e orbs = some (some k1) ∧ b.index j e' orbs = some (some k2)
    · obtain ⟨i, e, j, e', hi, hj, he, he', h1, h2⟩ := hex
      obtain ⟨v, hv⟩ := calc_exists b N orbs const hg dirs hd i j e e' hj hi he he'
      refine ⟨v, ?_⟩
      intro i' e2 j' e2' hi' hj' he2 he2' h1' h2'
      obtain ⟨rfl, rfl⟩ := hg.inj _ _ _ _ _ hi hi' he he2 h1 h1'
      obtain ⟨rfl, rfl⟩ := hg.inj _ _ _ _ _ hj hj' he' he2' h2 h2'
      exact hv
    · refine ⟨0, fun i e j e' hi hj he he' h1 h2 => absurd ⟨i, e, j, e', hi, hj, he, he', h1, h2⟩ hex⟩
  choose F hF using hF
  generalize hR : b.matrixRank N orbs = R
  have hk : ∀ i e k, i < N → e < orbs → b.index i e orbs = some (some k) → k < R := by
    intro i e k hi he h
    obtain ⟨r, h1, h2⟩ := hg.idx i e hi he
    rw [h1, Option.some.injEq] at h
    have := h2 k h
    omega
  have h0 : CacheInv R F (fun _ => False) (Mat.mk0 R R) :=
    ⟨shape_mk0 R R, fun k1 k2 h1 h2 => ⟨fun x => x.elim, fun _ => shape_mk0_get h1 h2⟩⟩
  have main : ∃ cached, cacheValues b N orbs const dirs = some cached ∧
      CacheInv R F (fun x => False ∨ ∃ i, i < N ∧ ∃ j, j < N ∧ (b.connected i j = some true ∧
        ∃ e, e < orbs ∧ ∃ k1, b.index i e orbs = some (some k1) ∧ ∃ e', e' < orbs ∧
          ∃ k2, b.index j e' orbs = some (some k2) ∧ x = (k1, k2))) cached := by
    unfold cacheValues cacheWith
    rw [hR]
    refine union_loop N _ (CacheInv R F) (fun i x => ∃ j, j < N ∧ (b.connected i j = some true ∧
        ∃ e, e < orbs ∧ ∃ k1, b.index i e orbs = some (some k1) ∧ ∃ e', e' < orbs ∧
          ∃ k2, b.index j e' orbs = some (some k2) ∧ x = (k1, k2))) _ _ h0 ?_
    intro i D s hi hinv
    refine union_loop N _ (CacheInv R F) (fun j x => b.connected i j = some true ∧
        ∃ e, e < orbs ∧ ∃ k1, b.index i e orbs = some (some k1) ∧ ∃ e', e' < orbs ∧
          ∃ k2, b.index j e' orbs = some (some k2) ∧ x = (k1, k2)) _ _ hinv ?_
    intro j D s hj hinv
    obtain ⟨c, hc, _⟩ := hg.conn i j hi hj
    cases c
    · refine ⟨s, by simp [hc], ?_⟩
      simpa [hc] using hinv
    · simp only [hc, bind, Option.bind_some, Bool.not_true, Bool.false_eq_true, if_false, true_and]
      refine union_loop orbs _ (CacheInv R F) (fun e x => ∃ k1, b.index i e orbs = some (some k1) ∧ ∃ e', e' < orbs ∧
          ∃ k2, b.index j e' orbs = some (some k2) ∧ x = (k1, k2)) _ _ hinv ?_
      intro e D s he hinv
      obtain ⟨r, hr, _⟩ := hg.idx i e hi he
      cases r with
      | none => exact ⟨s, by simp [hr], by simpa [hr] using hinv⟩
      | some k1 =>
        simp only [hr, Option.bind_some, Option.some.injEq, exists_eq_left']
        refine union_loop orbs _ (CacheInv R F) (fun e' x => ∃ k2, b.index j e' orbs = some (some k2) ∧ x = (k1, k2)) _ _ hinv ?_
        intro e' D s he' hinv
        obtain ⟨r, hr', _⟩ := hg.idx j e' hj he'
        cases r with
        | none => exact ⟨s, by simp [hr'], by simpa [hr'] using hinv⟩
        | some k2 =>
          simp only [hr', Option.bind_some, Option.some.injEq, exists_eq_left']
          rw [hF k1 k2 i e j e' hi hj he he' hr hr']
          exact hinv.set (hk i e k1 hi he hr) (hk j e' k2 hj he' hr')
  obtain ⟨cached, h1, h2⟩ := main
  refine ⟨cached, h1, ?_⟩
  intro i j e e' k1 k2 hi hj he he' hk1 hk2
  have hv := hF k1 k2 i e j e' hi hj he he' hk1 hk2
  refine ⟨_, hv, ?_⟩
  simp only [termValue, hk1, hk2, bind, Option.bind_some]
  have hh := h2.2 k1 k2 (hk i e k1 hi he hk1) (hk j e' k2 hj he' hk2)
  obtain ⟨c, hc, _⟩ := hg.conn i j hi hj
  cases c
  · rw [calc_off _ _ _ _ _ _ _ _ hc] at hv
    rw [← Option.some.inj hv]
    apply hh.2
    rintro (h | ⟨i2, hi2, j2, hj2, hc2, e2, he2, q1, hq1, e2', he2', q2, hq2, heq⟩)
    · exact h
    · simp only [Prod.mk.injEq] at heq
      obtain ⟨rfl, rfl⟩ := heq
      obtain ⟨rfl, rfl⟩ := hg.inj _ _ _ _ _ hi hi2 he he2 hk1 hq1
      obtain ⟨rfl, rfl⟩ := hg.inj _ _ _ _ _ hj hj2 he' he2' hk2 hq2
      rw [hc] at hc2; cases hc2
  · exact hh.1 (Or.inr ⟨i, hi, j, hj, hc, e, he, k1, hk1, e', he', k2, hk2, rfl⟩)

/-- **C35** With several orbitals per site connectors are Hermitian, for every geometry that meets `Good`
and all accepted input: the value for `(i, e, j, e')` is the conjugate of the one for `(j, e', i, e)`. -/
theorem connectors_hermitian (b : Base) (N orbs : Nat) (const : Bool) (hg : Good b N orbs const)
    (dirs : List (DirData α)) (hd : DataOk b orbs const dirs) (ho : 1 < orbs) :
    ∃ cached, cacheValues b N orbs const dirs = some cached ∧
      ∀ i j e e' k1 k2, i < N → j < N → e < orbs → e' < orbs → b.index i e orbs = some (some k1) →
        b.index j e' orbs = some (some k2) →
        ∃ v, termValue b orbs cached i e j e' = some v ∧ termValue b orbs cached j e' i e = some (star v) := by
  obtain ⟨cached, h1, h2⟩ := cache_spec b N orbs const hg dirs hd
  refine ⟨cached, h1, ?_⟩
  intro i j e e' k1 k2 hi hj he he' hk1 hk2
  obtain ⟨v, hv, hv'⟩ := h2 i j e e' k1 k2 hi hj he he' hk1 hk2
  obtain ⟨w, hw, hw'⟩ := h2 j i e' e k2 k1 hj hi he' he hk2 hk1
  refine ⟨v, hv', ?_⟩
  rw [hw']
  obtain ⟨c, hc1, hc2⟩ := hg.conn i j hi hj
  cases c
  · rw [calc_off _ _ _ _ _ _ _ _ hc1] at hv
    rw [calc_off _ _ _ _ _ _ _ _ hc2] at hw
    cases hv; cases hw; simp
  · have hij : i ≠ j := by
      rintro rfl
      rw [hg.irrefl i hi] at hc1; cases hc1
    rcases Nat.lt_or_gt_of_ne hij with hl | hl
    · obtain ⟨_, _, _, _, s, x, _, _, _, _, _, _, g1, g2⟩ := calc_matrix b N orbs const hg dirs hd ho j i e' e hl hj he' he hc2
      rw [g2] at hv; rw [g1] at hw
      cases hv; cases hw; rw [star_star]
    · obtain ⟨_, _, _, _, s, x, _, _, _, _, _, _, g1, g2⟩ := calc_matrix b N orbs const hg dirs hd ho i j e e' hl hi he he' hc1
      rw [g1] at hv; rw [g2] at hw
      cases hv; cases hw; rfl

/-- **C35** What the values are, several orbitals: the input matrix of the bond, read with the larger site
first, times the sign of the bond; zero if the sites are not connected. -/
theorem connectors_matrix (b : Base) (N orbs : Nat) (const : Bool) (hg : Good b N orbs const)
    (dirs : List (DirData α)) (hd : DataOk b orbs const dirs) (ho : 1 < orbs) :
    ∃ cached, cacheValues b N orbs const dirs = some cached ∧
      ∀ i j e e' k1 k2, j ≤ i → i < N → e < orbs → e' < orbs → b.index i e orbs = some (some k1) →
        b.index j e' orbs = some (some k2) →
        (b.connected i j = some false ∧ termValue b orbs cached i e j e' = some 0) ∨
        (b.connected i j = some true ∧ ∃ d dd h m s x, b.calcDir i j = some d ∧ dirs[d]? = some dd ∧
          (if const then some 0 else b.handle i j) = some h ∧ dd.matrices[h]? = some m ∧
          b.signChange i j = some s ∧ m.get e e' = some x ∧
          termValue b orbs cached i e j e' = some (x * ((s : Int) : α))) := by
  obtain ⟨cached, h1, h2⟩ := cache_spec b N orbs const hg dirs hd
  refine ⟨cached, h1, ?_⟩
  intro i j e e' k1 k2 hij hi he he' hk1 hk2
  obtain ⟨v, hv, hv'⟩ := h2 i j e e' k1 k2 hi (by omega) he he' hk1 hk2
  rw [hv']
  obtain ⟨c, hc1, hc2⟩ := hg.conn i j hi (by omega)
  cases c
  · rw [calc_off _ _ _ _ _ _ _ _ hc1] at hv
    exact Or.inl ⟨hc1, hv.symm⟩
  · have hne : i ≠ j := by
      rintro rfl
      rw [hg.irrefl i hi] at hc1; cases hc1
    obtain ⟨d, dd, h, m, s, x, q1, q2, q3, q4, q5, q6, g1, g2⟩ :=
      calc_matrix b N orbs const hg dirs hd ho i j e e' (by omega) hi he he' hc1
    exact Or.inr ⟨hc1, d, dd, h, m, s, x, q1, q2, q3, q4, q5, q6, by rw [← hv, g1]⟩

/-- **C35** One orbital per site: connectors are symmetric and equal to the number given for the bond,
zero if the sites are not connected. -/
theorem connectors_number (b : Base) (N : Nat) (const : Bool) (hg : Good b N 1 const)
    (dirs : List (DirData α)) (hd : DataOk b 1 const dirs) :
    ∃ cached, cacheValues b N 1 const dirs = some cached ∧
      ∀ i j k1 k2, i < N → j < N → b.index i 0 1 = some (some k1) → b.index j 0 1 = some (some k2) →
        termValue b 1 cached i 0 j 0 = termValue b 1 cached j 0 i 0 ∧
        ((b.connected i j = some false ∧ termValue b 1 cached i 0 j 0 = some 0) ∨
        (b.connected i j = some true ∧ ∃ d dd h x, b.calcDir i j = some d ∧ dirs[d]? = some dd ∧
          (if const then some 0 else b.handle i j) = some h ∧ dd.numbers[h]? = some x ∧
          termValue b 1 cached i 0 j 0 = some x)) := by
  obtain ⟨cached, h1, h2⟩ := cache_spec b N 1 const hg dirs hd
  refine ⟨cached, h1, ?_⟩
  intro i j k1 k2 hi hj hk1 hk2
  obtain ⟨v, hv, hv'⟩ := h2 i j 0 0 k1 k2 hi hj (by omega) (by omega) hk1 hk2
  obtain ⟨w, hw, hw'⟩ := h2 j i 0 0 k2 k1 hj hi (by omega) (by omega) hk2 hk1
  rw [hv', hw', ← hv, ← hw]
  obtain ⟨c, hc1, hc2⟩ := hg.conn i j hi hj
  cases c
  · rw [calc_off _ _ _ _ _ _ _ _ hc1, calc_off _ _ _ _ _ _ _ _ hc2]
    exact ⟨rfl, Or.inl ⟨hc1, rfl⟩⟩
  · obtain ⟨d, dd, h, x, q1, q2, q3, q4, g1, g2⟩ := calc_number b N const hg dirs hd i j hj hi hc1
    rw [g1, g2]
    exact ⟨rfl, Or.inr ⟨hc1, d, dd, h, x, q1, q2, q3, q4, rfl⟩⟩

/-- **C35** One orbital per site and real (self-conjugate) numbers: connectors are Hermitian. -/
theorem connectors_number_hermitian (b : Base) (N : Nat) (const : Bool) (hg : Good b N 1 const)
    (dirs : List (DirData α)) (hd : DataOk b 1 const dirs)
    (hreal : ∀ d ∈ dirs, ∀ x ∈ d.numbers, star x = x) :
    ∃ cached, cacheValues b N 1 const dirs = some cached ∧
      ∀ i j k1 k2, i < N → j < N → b.index i 0 1 = some (some k1) → b.index j 0 1 = some (some k2) →
        ∃ v, termValue b 1 cached i 0 j 0 = some v ∧ termValue b 1 cached j 0 i 0 = some (star v) := by
  obtain ⟨cached, h1, h2⟩ := connectors_number b N const hg dirs hd
  refine ⟨cached, h1, ?_⟩
  intro i j k1 k2 hi hj hk1 hk2
  obtain ⟨hs, h | ⟨_, d, dd, h, x, q1, q2, q3, q4, q5⟩⟩ := h2 i j k1 k2 hi hj hk1 hk2
  · exact ⟨0, h.2, by rw [← hs, h.2, star_zero]⟩
  · refine ⟨x, q5, ?_⟩
    rw [← hs, q5, hreal dd (List.mem_of_getElem? q2) x (List.mem_of_getElem? q4)]

/-! ## The geometries meet the conditions -/

theorem default_idx (N orbs i e : Nat) (hi : i < N) (he : e < orbs) :
    ∃ r, defaultIndex i e orbs = some r ∧ ∀ k, r = some k → k < N * orbs := by
  refine ⟨some (e + i * orbs), by simp [defaultIndex, he], ?_⟩
  intro k hk
  cases hk
  rw [Nat.mul_comm N]
  exact idx_lt he hi

theorem default_inj (orbs i e i' e' k : Nat) (he : e < orbs) (he' : e' < orbs)
    (h : defaultIndex i e orbs = some (some k)) (h' : defaultIndex i' e' orbs = some (some k)) :
    i = i' ∧ e = e' := by
  simp only [defaultIndex, he, he', if_true, Option.some.injEq] at h h'
  have := idx_inj he he' (h.trans h'.symm)
  exact ⟨this.2, this.1⟩

/-- **C35** Chains: open ones, periodic ones, and any chain with constant values. -/
theorem chain_good (g : LongChain) (hd : 0 < g.distance) (hL : g.distance < g.linSize) (orbs : Nat) (const : Bool)
    (hc : const = true ∨ g.isPeriodic = false ∨ 2 * g.distance < g.linSize + 2) :
    Good (chainBase g) g.linSize orbs const where
  conn := by
    intro i j hi hj
    refine ⟨g.connected i j, rfl, ?_⟩
    simp only [chainBase, Option.some.injEq]
    rw [Bool.eq_iff_iff]
    exact ⟨(chain_graph g hd hL).symm j i hj hi, (chain_graph g hd hL).symm i j hi hj⟩
  irrefl := by intro i _; simp [chainBase, LongChain.connected]
  dir := fun i j _ _ _ => ⟨0, Nat.one_pos, rfl, rfl⟩
  sign := fun i j _ _ _ => ⟨1, rfl, rfl⟩
  hdl := by
    intro hcst i j d hi hj h hdir
    simp only [chainBase, Option.some.injEq] at h hdir ⊢
    subst hdir
    refine ⟨_, _, rfl, ?_, rfl, ?_⟩
    · unfold LongChain.handle; split_ifs <;> omega
    · have hcc : g.isPeriodic = false ∨ 2 * g.distance < g.linSize + 2 := by
        rcases hc with h | h
        · rw [hcst] at h; cases h
        · exact h
      rw [sub64_le hL.le]
      unfold LongChain.connected at h
      rw [sub64_le hL.le] at h
      unfold LongChain.handle
      by_cases hij : i = j
      · rw [if_pos hij] at h; cases h
      · rw [if_neg hij] at h
        cases hp : g.isPeriodic
        · simp only [hp, Bool.not_false, if_true, beq_iff_eq, Bool.false_eq_true, if_false] at h ⊢
          split_ifs at h ⊢ <;> omega
        · simp only [hp, Bool.not_true, Bool.false_eq_true, if_false, Bool.or_eq_true, beq_iff_eq, if_true] at h ⊢
          rw [hp] at hcc
          simp only [Bool.true_eq_false, false_or] at hcc
          split_ifs at h ⊢ <;> omega
  idx := fun i e hi he => default_idx g.linSize orbs i e hi he
  inj := fun i e i' e' k _ _ he he' => default_inj orbs i e i' e' k he he'

/-- **C35** Ladders, with open or periodic boundaries and any number of legs. -/
theorem ladder_good (g : Ladder) (hv : g.Valid) (orbs : Nat) (const : Bool) :
    Good (ladderBase g) g.linSize orbs const where
  conn := by
    intro i j hi hj
    refine ⟨g.connected i j, rfl, ?_⟩
    simp only [ladderBase, Option.some.injEq]
    rw [ladder_conn_symm]
  irrefl := by intro i _; simp [ladderBase, Ladder.connected]
  dir := by
    intro i j _ _ h
    simp only [ladderBase, Option.some.injEq] at h ⊢
    rcases ladder_dirs g i j h with ⟨h, -⟩ | ⟨h, -⟩
    · exact ⟨0, by omega, h.2, (dir_symm g 0 i j h).2⟩
    · exact ⟨1, by omega, h.2, (dir_symm g 1 i j h).2⟩
  sign := fun i j _ _ _ => ⟨1, rfl, rfl⟩
  hdl := by
    intro _ i j d hi hj h hdir
    simp only [ladderBase, Option.some.injEq] at h hdir ⊢
    rcases ladder_dirs g i j h with ⟨hd, -⟩ | ⟨hd, -⟩
    · rw [hd.2] at hdir; cases hdir
      obtain ⟨size, hs, hin⟩ := ladder_x_injects g hv
      obtain ⟨n, hn, hlt⟩ := hin.lt i j hi hj hd
      exact ⟨n, size, hn, (hin.symm i j hi hj hd) ▸ hn, hs, hlt⟩
    · rw [hd.2] at hdir; cases hdir
      obtain ⟨size, hs, hin⟩ := ladder_y_injects g hv
      obtain ⟨n, hn, hlt⟩ := hin.lt i j hi hj hd
      exact ⟨n, size, hn, (hin.symm i j hi hj hd) ▸ hn, hs, hlt⟩
  idx := fun i e hi he => default_idx g.linSize orbs i e hi he
  inj := fun i e i' e' k _ _ he he' => default_inj orbs i e i' e' k he he'

/-- **C35** `KTwoNiFFour` with its two orbitals and constant values (it has no handles). -/
theorem ktwo_good (N : Nat) (sc : Int) : Good (ktwoBase N sc) N 2 true where
  conn := by
    intro i j hi hj
    obtain ⟨c, h, _⟩ := KTwo.ktwo_connected i j
    obtain ⟨c', h', _⟩ := KTwo.ktwo_connected j i
    refine ⟨c, h, ?_⟩
    change KTwo.connected j i = some c
    rw [h']
    congr 1
    have hg := KTwo.ktwo_graph (max i j + 1)
    have hg1 := hg.symm i j (by omega) (by omega)
    have hg2 := hg.symm j i (by omega) (by omega)
    rw [h, h'] at hg1 hg2
    cases c <;> cases c' <;> simp_all
  irrefl := by intro i _; simp [ktwoBase, KTwo.connected]
  dir := by
    intro i j _ _ h
    obtain ⟨d, h1, h2, h3, _⟩ := KTwo.ktwo_dir i j h
    exact ⟨d, h3, h1, h2⟩
  sign := by
    intro i j _ _ h
    obtain ⟨h1, h2⟩ := KTwo.ktwo_sign sc i j h
    exact ⟨_, h2, h1.symm.trans h2⟩
  hdl := by intro h; cases h
  idx := by
    intro i e hi he
    simp only [ktwoBase]
    by_cases ho : e < KTwo.orbitals 2 i
    · obtain ⟨n, h1, h2⟩ := (KTwo.ktwo_index N).1 i e hi ho
      refine ⟨_, h1, ?_⟩
      intro k hk; cases hk; exact h2
    · unfold KTwo.orbitals at ho
      have hcu : KTwo.findTypeOfSite i = .cu := by
        by_contra hne; rw [if_neg hne] at ho; omega
      rw [if_pos hcu] at ho
      have : e = 1 := by omega
      subst this
      exact ⟨none, (KTwo.ktwo_index N).2.2.2 i hcu, by intro k hk; cases hk⟩
  inj := by
    intro i e i' e' k hi hi' he he' h h'
    simp only [ktwoBase] at h h'
    have : ∀ i e k, e < 2 → KTwo.index N i e = some (some k) → e < KTwo.orbitals 2 i := by
      intro i e k he h
      unfold KTwo.orbitals
      split_ifs with hcu
      · by_contra hne
        have : e = 1 := by omega
        subst this
        rw [(KTwo.ktwo_index N).2.2.2 i hcu] at h; cases h
      · exact he
    exact (KTwo.ktwo_index N).2.1 i e i' e' k hi hi' (this i e k he h) (this i' e' k he' h') h h'

/-- **C35, violated part** One orbital and a complex number: the same number is returned in both
directions, so the connectors of a two-site chain with connector `i` are not Hermitian. -/
theorem connectors_complex_fails :
    ∃ cached, cacheValues (α := GaussianInt) (chainBase ⟨2, false, 1⟩) 2 1 false [⟨[⟨0, 1⟩], []⟩] = some cached ∧
      termValue (chainBase ⟨2, false, 1⟩) 1 cached 0 0 1 0 = some ⟨0, 1⟩ ∧
      termValue (chainBase ⟨2, false, 1⟩) 1 cached 1 0 0 0 = some ⟨0, 1⟩ ∧
      (⟨0, 1⟩ : GaussianInt) ≠ star ⟨0, 1⟩ := by
  refine ⟨⟨2, 2, [0, ⟨0, 1⟩, ⟨0, 1⟩, 0]⟩, by rfl, by rfl, by rfl, ?_⟩
  decide

/-- The conditions are met, and the values are as expected, by a chain of three sites with two orbitals
and two different complex matrices. -/
example : let m1 : Mat GaussianInt := ⟨2, 2, [⟨1, 1⟩, ⟨0, 2⟩, ⟨3, 0⟩, ⟨0, 4⟩]⟩
    let m2 : Mat GaussianInt := ⟨2, 2, [⟨5, 0⟩, ⟨0, 0⟩, ⟨0, 7⟩, ⟨8, 0⟩]⟩
    DataOk (chainBase ⟨3, false, 1⟩) 2 false [⟨[], [m1, m2]⟩] ∧
    ∃ c, cacheValues (chainBase ⟨3, false, 1⟩) 3 2 false [⟨[], [m1, m2]⟩] = some c ∧
      termValue (chainBase ⟨3, false, 1⟩) 2 c 2 0 1 1 = some ⟨0, 7⟩ ∧
      termValue (chainBase ⟨3, false, 1⟩) 2 c 1 1 2 0 = some ⟨0, -7⟩ ∧
      termValue (chainBase ⟨3, false, 1⟩) 2 c 2 0 0 0 = some 0 := by
  refine ⟨⟨rfl, (by intro h; cases h), ?_⟩, ⟨6, 6, _⟩, by rfl, by rfl, by rfl, by rfl⟩
  intro _ d dd h
  match d, h with
  | 0, h =>
    cases h
    refine ⟨⟨2, by simp [chainBase, LongChain.getVectorSize, sub64], rfl⟩, ?_⟩
    intro m hm
    simp only [List.mem_cons, List.not_mem_nil, or_false] at hm
    rcases hm with rfl | rfl <;> exact ⟨rfl, rfl, rfl⟩

/-! ## Cases -/

/-- A chain of three sites with two orbitals. -/
example : ∃ cached, cacheValues (chainBase ⟨3, false, 1⟩) 3 2 false [⟨[], [⟨2, 2, [⟨1, 1⟩, ⟨0, 2⟩, ⟨3, 0⟩, ⟨0, 4⟩]⟩, ⟨2, 2, [⟨5, 0⟩, ⟨0, 0⟩, ⟨0, 7⟩, ⟨8, 0⟩]⟩]⟩] = some cached ∧
    ∃ v : GaussianInt, termValue (chainBase ⟨3, false, 1⟩) 2 cached 2 0 1 1 = some v ∧ termValue (chainBase ⟨3, false, 1⟩) 2 cached 1 1 2 0 = some (star v) := by
  obtain ⟨c, h1, h2⟩ := connectors_hermitian (α := GaussianInt) (chainBase ⟨3, false, 1⟩) 3 2 false (chain_good ⟨3, false, 1⟩ (by decide) (by decide) 2 false (.inr (.inl rfl)))
    [⟨[], [⟨2, 2, [⟨1, 1⟩, ⟨0, 2⟩, ⟨3, 0⟩, ⟨0, 4⟩]⟩, ⟨2, 2, [⟨5, 0⟩, ⟨0, 0⟩, ⟨0, 7⟩, ⟨8, 0⟩]⟩]⟩]
    (by
      refine ⟨rfl, (by intro h; cases h), ?_⟩
      intro _ d dd h
      match d, h with
      | 0, h =>
        cases h
        refine ⟨⟨2, by simp [chainBase, LongChain.getVectorSize, sub64], rfl⟩, ?_⟩
        intro m hm
        simp only [List.mem_cons, List.not_mem_nil, or_false] at hm
        rcases hm with rfl | rfl <;> exact ⟨rfl, rfl, rfl⟩) (by decide)
  exact ⟨c, h1, h2 2 1 0 1 _ _ (by decide) (by decide) (by decide) (by decide) rfl rfl⟩

/-- And with one orbital and two numbers. -/
theorem numbers_ok : DataOk (chainBase ⟨3, false, 1⟩) 1 false ([⟨[5, 7], []⟩] : List (DirData ℤ)) := by
  refine ⟨rfl, ?_, fun h => absurd rfl h⟩
  intro _ d dd h
  match d, h with
  | 0, h =>
    cases h
    simp [chainBase, LongChain.getVectorSize, sub64]

example := connectors_number (chainBase ⟨3, false, 1⟩) 3 false (chain_good ⟨3, false, 1⟩ (by decide) (by decide) 1 false (.inr (.inl rfl)))
  ([⟨[5, 7], []⟩] : List (DirData ℤ)) numbers_ok
example := connectors_number_hermitian (chainBase ⟨3, false, 1⟩) 3 false (chain_good ⟨3, false, 1⟩ (by decide) (by decide) 1 false (.inr (.inl rfl)))
  ([⟨[5, 7], []⟩] : List (DirData ℤ)) numbers_ok (fun _ _ _ _ => rfl)
example := connectors_matrix (α := ℤ) (ktwoBase 8 (-1)) 8 2 true (ktwo_good 8 (-1))
  [⟨[], [⟨2, 2, [1, 2, 3, 4]⟩]⟩, ⟨[], [⟨2, 2, [1, 2, 3, 5]⟩]⟩, ⟨[], [⟨2, 2, [1, 2, 3, 6]⟩]⟩, ⟨[], [⟨2, 2, [1, 2, 3, 7]⟩]⟩]
  (by
    refine ⟨rfl, (by intro h; cases h), ?_⟩
    intro _ d dd h
    have hd : dd.matrices.length = 1 ∧ ∀ m ∈ dd.matrices, Shape m 2 2 := by
      match d, h with
      | 0, h | 1, h | 2, h | 3, h =>
        cases h
        refine ⟨rfl, fun m hm => ?_⟩
        simp only [List.mem_cons, List.not_mem_nil, or_false] at hm
        subst hm
        exact ⟨rfl, rfl, rfl⟩
    exact ⟨⟨1, rfl, hd.1⟩, hd.2⟩) (by decide)

end Verif.Geom
