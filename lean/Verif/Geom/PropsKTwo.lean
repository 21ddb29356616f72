import Verif.Geom.Model
import Verif.Geom.Spec
import Mathlib.Tactic.SplitIfs

/-! # C33: the KTwoNiFFour geometry -/

namespace Verif.Geom.KTwo

open Verif.Loop

/-- The `k`-th copper site is `4k+3`; its four oxygens are `4k` and `4k+4` (along x) and `4k+1` and
`4k+2` (along y). -/
def CuO (c o : Nat) : Prop := c % 4 = 3 ∧ (o + 3 = c ∨ o = c + 1 ∨ o + 2 = c ∨ o + 1 = c)

/-- Oxygen sites along x, and along y. -/
def IsOx (i : Nat) : Prop := i % 4 = 0
def IsOy (i : Nat) : Prop := i % 4 = 1 ∨ i % 4 = 2

/-- Two oxygens, one of each kind, of the same copper. -/
def OO (i j : Nat) : Prop :=
  ((IsOx i ∧ IsOy j) ∨ (IsOy i ∧ IsOx j)) ∧ ∃ c, CuO c i ∧ CuO c j

theorem type_cases (i : Nat) : (findTypeOfSite i = .cu ∧ i % 4 = 3) ∨ (findTypeOfSite i = .ox ∧ i % 4 = 0) ∨
    (findTypeOfSite i = .oy ∧ (i % 4 = 1 ∨ i % 4 = 2)) := by
  unfold findTypeOfSite
  simp only
  by_cases h0 : (i + 1) % 4 = 0
  · rw [if_pos h0]; left; exact ⟨rfl, by omega⟩
  · rw [if_neg h0]
    by_cases h1 : (i + 1) % 4 = 1
    · rw [if_pos h1]; right; left; exact ⟨rfl, by omega⟩
    · rw [if_neg h1]; right; right; exact ⟨rfl, by omega⟩

/-- **C33** Kinds of sites. -/
theorem ktwo_type (i : Nat) : (findTypeOfSite i = .cu ↔ i % 4 = 3) ∧ (findTypeOfSite i = .ox ↔ IsOx i) ∧
    (findTypeOfSite i = .oy ↔ IsOy i) := by
  unfold IsOx IsOy
  rcases type_cases i with ⟨h, e⟩ | ⟨h, e⟩ | ⟨h, e⟩ <;> rw [h] <;> simp <;> omega

theorem oo_iff (i j : Nat) : OO i j ↔ (IsOx i ∧ IsOy j ∧ (j = i + 1 ∨ j = i + 2 ∨ j + 2 = i ∨ j + 3 = i)) ∨
    (IsOx j ∧ IsOy i ∧ (i = j + 1 ∨ i = j + 2 ∨ i + 2 = j ∨ i + 3 = j)) := by
  unfold OO CuO IsOx IsOy
  constructor
  · rintro ⟨h, c, h1, h2⟩; omega
  · intro h
    refine ⟨by omega, ?_⟩
    by_cases hi : i % 4 = 0
    · by_cases hij : i < j
      · exact ⟨i + 3, by omega, by omega⟩
      · exact ⟨i - 1, by omega, by omega⟩
    · by_cases hij : j < i
      · exact ⟨j + 3, by omega, by omega⟩
      · exact ⟨j - 1, by omega, by omega⟩

/-- **C33** Two sites are connected exactly when they are a copper and one of its oxygens, or two
oxygens of different kinds sharing a copper; the assertions never fail. -/
theorem ktwo_connected (i j : Nat) : ∃ b, connected i j = some b ∧ (b = true ↔ CuO i j ∨ CuO j i ∨ OO i j) := by
  by_cases hij : i = j
  · subst hij
    refine ⟨false, by simp [connected], ?_⟩
    rw [oo_iff]; unfold CuO IsOx IsOy
    simp only [Bool.false_eq_true, false_iff]
    omega
  · rw [oo_iff]
    unfold connected CuO IsOx IsOy
    rw [if_neg hij]
    rcases type_cases i with ⟨h, e⟩ | ⟨h, e⟩ | ⟨h, e⟩ <;>
    rcases type_cases j with ⟨h', e'⟩ | ⟨h', e'⟩ | ⟨h', e'⟩ <;> simp only [h, h']
    · exact ⟨false, by simp, by simp only [Bool.false_eq_true, false_iff]; omega⟩
    · simp only [reduceCtorEq, ne_eq, not_true_eq_false, not_false_eq_true, false_and, and_false, if_false, if_true]
      rw [if_pos (by omega)]
      refine ⟨_, rfl, ?_⟩
      simp only [Bool.or_eq_true, beq_iff_eq]; omega
    · simp only [reduceCtorEq, ne_eq, not_true_eq_false, not_false_eq_true, false_and, and_false, if_false, if_true]
      rw [if_pos (by omega)]
      refine ⟨_, rfl, ?_⟩
      simp only [Bool.or_eq_true, beq_iff_eq]; omega
    · simp only [reduceCtorEq, ne_eq, not_true_eq_false, not_false_eq_true, false_and, and_false, if_false, if_true]
      rw [if_pos (by omega)]
      refine ⟨_, rfl, ?_⟩
      simp only [Bool.or_eq_true, beq_iff_eq]; omega
    · exact ⟨false, by simp, by simp only [Bool.false_eq_true, false_iff]; omega⟩
    · simp only [reduceCtorEq, ne_eq, not_true_eq_false, not_false_eq_true, and_true, and_false, if_false, if_true]
      by_cases h1 : i > j
      · rw [if_pos h1, if_pos (by omega)]
        refine ⟨_, rfl, ?_⟩
        simp only [Bool.or_eq_true, beq_iff_eq]; omega
      · rw [if_neg h1]
        by_cases h2 : j - 1 = i
        · rw [if_pos h2]
          exact ⟨true, rfl, by simp only [true_iff]; omega⟩
        · rw [if_neg h2]
          refine ⟨_, rfl, ?_⟩
          simp only [Bool.and_eq_true, beq_iff_eq, decide_eq_true_eq]; omega
    · simp only [reduceCtorEq, ne_eq, not_true_eq_false, not_false_eq_true, false_and, and_false, if_false, if_true]
      rw [if_pos (by omega)]
      refine ⟨_, rfl, ?_⟩
      simp only [Bool.or_eq_true, beq_iff_eq]; omega
    · simp only [reduceCtorEq, ne_eq, not_false_eq_true, and_true, and_false, if_false, if_true]
      by_cases h1 : j > i
      · rw [if_pos h1, if_pos (by omega)]
        refine ⟨_, rfl, ?_⟩
        simp only [Bool.or_eq_true, beq_iff_eq]; omega
      · rw [if_neg h1]
        by_cases h2 : i - 1 = j
        · rw [if_pos h2]
          exact ⟨true, rfl, by simp only [true_iff]; omega⟩
        · rw [if_neg h2]
          refine ⟨_, rfl, ?_⟩
          simp only [Bool.and_eq_true, beq_iff_eq, decide_eq_true_eq]; omega
    · exact ⟨false, by simp, by simp only [Bool.false_eq_true, false_iff]; omega⟩

/-- **C33** The connections form a graph. -/
theorem ktwo_graph (N : Nat) : IsGraph N (fun i j => connected i j = some true) where
  symm := by
    intro i j _ _ h
    obtain ⟨b, h1, h2⟩ := ktwo_connected i j
    obtain ⟨b', h1', h2'⟩ := ktwo_connected j i
    rw [h1, Option.some.injEq] at h
    rw [h1', Option.some.injEq, h2']
    rcases h2.1 h with a | a | a
    · exact Or.inr (Or.inl a)
    · exact Or.inl a
    · exact Or.inr (Or.inr ⟨by have := a.1; tauto, by obtain ⟨c, x, y⟩ := a.2; exact ⟨c, y, x⟩⟩)
  irrefl := by intro i _; simp [connected]

/-- The oxygen pairs `4k, 4k+1` and `4k+4, 4k+2` (direction `X+Y`). -/
def Plus (i j : Nat) : Prop := IsOx i ∧ (j = i + 1 ∨ j + 2 = i)

/-- The oxygen pairs `4k, 4k+2` and `4k+4, 4k+1` (direction `X-Y`). -/
def Minus (i j : Nat) : Prop := IsOx i ∧ (j = i + 2 ∨ j + 3 = i)

theorem dir_xy (i j : Nat) (hi : IsOx i) (hj : IsOy j)
    (h : j = i + 1 ∨ j = i + 2 ∨ j + 2 = i ∨ j + 3 = i) :
    (Plus i j ∧ ¬ Minus i j ∧ calcDir i j = some 2 ∧ calcDir j i = some 2) ∨
    (Minus i j ∧ ¬ Plus i j ∧ calcDir i j = some 3 ∧ calcDir j i = some 3) := by
  have ti := (ktwo_type i).2.1.2 hi
  have tj := (ktwo_type j).2.2.2 hj
  unfold Plus Minus calcDir
  unfold IsOx IsOy at *
  simp only [ti, tj, reduceCtorEq, ne_eq, not_false_eq_true, and_true, if_false, if_true]
  rcases h with rfl | rfl | h | h
  · left
    rw [if_neg (by omega), if_pos (by omega)]
    exact ⟨by omega, by omega, rfl, rfl⟩
  · right
    rw [if_neg (by omega), if_neg (by omega), if_pos (by omega)]
    exact ⟨by omega, by omega, rfl, rfl⟩
  · left
    rw [if_pos (by omega), if_pos (by omega), if_pos (by omega)]
    exact ⟨by omega, by omega, rfl, rfl⟩
  · right
    rw [if_pos (by omega), if_pos (by omega), if_neg (by omega), if_pos (by omega)]
    exact ⟨by omega, by omega, rfl, rfl⟩

theorem dir_cu (c o : Nat) (hc : c % 4 = 3) (ho : o % 4 ≠ 3) :
    calcDir c o = some (if o % 4 = 0 then 0 else 1) ∧ calcDir o c = some (if o % 4 = 0 then 0 else 1) := by
  have tc := (ktwo_type c).1.2 hc
  unfold calcDir
  rcases type_cases o with ⟨k, e⟩ | ⟨k, e⟩ | ⟨k, e⟩
  · exact absurd e ho
  · simp [tc, k, e]
  · simp [tc, k, show ¬ o % 4 = 0 by omega]

/-- **C33** Every connection has a direction, the same from both ends: x or y for a copper and an oxygen
according to the kind of oxygen, and one of the two diagonals for two oxygens. -/
theorem ktwo_dir (i j : Nat) (h : connected i j = some true) : ∃ d, calcDir i j = some d ∧ calcDir j i = some d ∧
    d < 4 ∧
    (d = 0 ↔ (i % 4 = 3 ∧ IsOx j) ∨ (j % 4 = 3 ∧ IsOx i)) ∧
    (d = 1 ↔ (i % 4 = 3 ∧ IsOy j) ∨ (j % 4 = 3 ∧ IsOy i)) ∧
    (d = 2 ↔ OO i j ∧ (Plus i j ∨ Plus j i)) ∧
    (d = 3 ↔ OO i j ∧ (Minus i j ∨ Minus j i)) := by
  obtain ⟨b, h1, h2⟩ := ktwo_connected i j
  rw [h1, Option.some.injEq] at h
  replace h := h2.1 h
  have cu : ∀ c o, CuO c o → ∃ d, calcDir c o = some d ∧ calcDir o c = some d ∧ d < 4 ∧
      (d = 0 ↔ (c % 4 = 3 ∧ IsOx o)) ∧ (d = 1 ↔ (c % 4 = 3 ∧ IsOy o)) ∧ d ≠ 2 ∧ d ≠ 3 ∧ ¬ OO c o ∧ ¬ OO o c ∧
      o % 4 ≠ 3 := by
    intro c o hco
    have noo : ∀ a b, OO a b → a % 4 ≠ 3 ∧ b % 4 ≠ 3 := by
      intro a b h; have := h.1; unfold IsOx IsOy at this; omega
    unfold CuO at hco
    obtain ⟨e1, e2⟩ := dir_cu c o hco.1 (by omega)
    refine ⟨_, e1, e2, ?_⟩
    refine ⟨?_, ?_, ?_, ?_, ?_, fun h => (noo _ _ h).1 hco.1, fun h => (noo _ _ h).2 hco.1, by omega⟩ <;>
      (try simp only [IsOx, IsOy]) <;> by_cases h0 : o % 4 = 0 <;> simp [h0, hco.1] <;> omega
  rcases h with h | h | h
  · obtain ⟨d, a1, a2, a3, a4, a5, a6, a7, a8, a9, a10⟩ := cu i j h
    exact ⟨d, a1, a2, a3, by simp [a4, a10], by simp [a5, a10], by simp [a6, a8], by simp [a7, a8]⟩
  · obtain ⟨d, a1, a2, a3, a4, a5, a6, a7, a8, a9, a10⟩ := cu j i h
    exact ⟨d, a2, a1, a3, by simp [a4, a10], by simp [a5, a10], by simp [a6, a9], by simp [a7, a9]⟩
  · have hoo := h
    rw [oo_iff] at h
    rcases h with ⟨x1, x2, x3⟩ | ⟨x1, x2, x3⟩
    · have hn : ¬ Plus j i ∧ ¬ Minus j i := by unfold Plus Minus IsOx IsOy at *; omega
      have hc : i % 4 ≠ 3 ∧ j % 4 ≠ 3 := by unfold IsOx IsOy at *; omega
      rcases dir_xy i j x1 x2 x3 with ⟨y1, y2, y3, y4⟩ | ⟨y1, y2, y3, y4⟩
      · exact ⟨2, y3, y4, by omega, by simp [hc], by simp [hc], by simp [hoo, y1], by simp [y2, hn]⟩
      · exact ⟨3, y3, y4, by omega, by simp [hc], by simp [hc], by simp [y2, hn], by simp [hoo, y1]⟩
    · have hn : ¬ Plus i j ∧ ¬ Minus i j := by unfold Plus Minus IsOx IsOy at *; omega
      have hc : i % 4 ≠ 3 ∧ j % 4 ≠ 3 := by unfold IsOx IsOy at *; omega
      rcases dir_xy j i x1 x2 x3 with ⟨y1, y2, y3, y4⟩ | ⟨y1, y2, y3, y4⟩
      · exact ⟨2, y4, y3, by omega, by simp [hc], by simp [hc], by simp [hoo, y1], by simp [y2, hn]⟩
      · exact ⟨3, y4, y3, by omega, by simp [hc], by simp [hc], by simp [y2, hn], by simp [hoo, y1]⟩

/-- **C33** The sign of a copper-oxygen connection is negative for the two oxygens next in number to the
copper and positive for the other two, times `SignChange=` when an inverted site is involved; it is the
same seen from either end. -/
theorem ktwo_sign (sc : Int) (i j : Nat) (h : connected i j = some true) :
    signChange sc i j = signChange sc j i ∧
    signChange sc i j = some ((if (i + 4) % 8 = 0 ∨ (j + 4) % 8 = 0 then sc else 1) *
      (if (i % 4 = 3 ∨ j % 4 = 3) ∧ (i + 1 = j ∨ j + 1 = i) then -1 else 1)) := by
  obtain ⟨b, h1, h2⟩ := ktwo_connected i j
  rw [h1, Option.some.injEq] at h
  replace h := h2.1 h
  rw [oo_iff] at h
  have symm : ∀ i j, signChange sc i j = signChange sc j i := by
    intro i j
    unfold signChange
    rw [min_comm, max_comm, Bool.or_comm]
  refine ⟨symm i j, ?_⟩
  have main : ∀ i j : Nat, i ≤ j → (CuO i j ∨ CuO j i ∨ ((IsOx i ∧ IsOy j ∧ (j = i + 1 ∨ j = i + 2 ∨ j + 2 = i ∨ j + 3 = i)) ∨
    (IsOx j ∧ IsOy i ∧ (i = j + 1 ∨ i = j + 2 ∨ i + 2 = j ∨ i + 3 = j)))) →
      signChange sc i j = some ((if (i + 4) % 8 = 0 ∨ (j + 4) % 8 = 0 then sc else 1) *
      (if (i % 4 = 3 ∨ j % 4 = 3) ∧ (i + 1 = j ∨ j + 1 = i) then -1 else 1)) := by
    intro i j hle h
    have hinv : (isInverted i || isInverted j) = decide ((i + 4) % 8 = 0 ∨ (j + 4) % 8 = 0) := by
      rw [Bool.eq_iff_iff]; simp [isInverted]
    have hs : (if (findTypeOfSite i = .cu) ≠ (findTypeOfSite j = .cu) then
      (if j - i = 1 ∨ j - i = 2 ∨ j - i = 3 then some (if j - i < 2 then (-1 : Int) else 1) else none)
      else some 1) = some (if (i % 4 = 3 ∨ j % 4 = 3) ∧ (i + 1 = j ∨ j + 1 = i) then -1 else 1) := by
      simp only [(ktwo_type i).1, (ktwo_type j).1]
      unfold CuO IsOx IsOy at h
      by_cases hcc : i % 4 = 3 ∨ j % 4 = 3
      · have hne : (i % 4 = 3) ≠ (j % 4 = 3) := by
          rw [ne_eq, eq_iff_iff]; omega
        rw [if_pos hne, if_pos (by omega)]
        congr 1
        by_cases hd : j - i < 2
        · rw [if_pos hd, if_pos ⟨hcc, by omega⟩]
        · rw [if_neg hd, if_neg (by omega)]
      · have hne : ¬ ((i % 4 = 3) ≠ (j % 4 = 3)) := by
          rw [ne_eq, eq_iff_iff]; omega
        rw [if_neg hne, if_neg (fun x => hcc x.1)]
    unfold signChange
    simp only [min_eq_left hle, max_eq_right hle, hinv, hs, bind, Option.bind_some]
    by_cases hs : (i + 4) % 8 = 0 ∨ (j + 4) % 8 = 0
    · simp [hs]
    · simp [hs]
  rcases Nat.le_total i j with hle | hle
  · exact main i j hle h
  · have h' : CuO j i ∨ CuO i j ∨ ((IsOx j ∧ IsOy i ∧ (i = j + 1 ∨ i = j + 2 ∨ i + 2 = j ∨ i + 3 = j)) ∨
        (IsOx i ∧ IsOy j ∧ (j = i + 1 ∨ j = i + 2 ∨ j + 2 = i ∨ j + 3 = i))) := by
      rcases h with h | h | h | h
      · exact Or.inr (Or.inl h)
      · exact Or.inl h
      · exact Or.inr (Or.inr (Or.inr h))
      · exact Or.inr (Or.inr (Or.inl h))
    rw [symm, main j i hle h']
    simp only [or_comm (a := (j + 4) % 8 = 0), or_comm (a := j % 4 = 3), or_comm (a := j + 1 = i)]

theorem matrixRank_eq (N : Nat) : matrixRank N = 2 * N - N / 4 := by
  unfold matrixRank
  have : ∀ n, (List.range n).foldl (fun (p : Nat × Nat) i =>
    if findTypeOfSite i = .cu then (p.1, p.2 + 1) else (p.1 + 1, p.2)) (0, 0) = (n - n / 4, n / 4) := by
    intro n
    induction n with
    | zero => rfl
    | succ n ih =>
      rw [List.range_succ, List.foldl_append, ih]
      simp only [List.foldl_cons, List.foldl_nil]
      by_cases h : findTypeOfSite n = .cu
      · have := (ktwo_type n).1.1 h
        rw [if_pos h]
        simp only [Prod.mk.injEq]; omega
      · have : n % 4 ≠ 3 := fun e => h ((ktwo_type n).1.2 e)
        rw [if_neg h]
        simp only [Prod.mk.injEq]; omega
  rw [this]
  simp only
  omega

/-- **C33** With two orbitals at oxygen sites and one at copper sites, `index` numbers the pairs of site
and orbital from `0` to `matrixRank - 1`, each number used exactly once; other pairs get none. -/
theorem ktwo_index (N : Nat) :
    (∀ i orb, i < N → orb < orbitals 2 i → ∃ n, index N i orb = some (some n) ∧ n < matrixRank N) ∧
    (∀ i orb i' orb' n, i < N → i' < N → orb < orbitals 2 i → orb' < orbitals 2 i' →
      index N i orb = some (some n) → index N i' orb' = some (some n) → i = i' ∧ orb = orb') ∧
    (∀ n, n < matrixRank N → ∃ i orb, i < N ∧ orb < orbitals 2 i ∧ index N i orb = some (some n)) ∧
    (∀ i, findTypeOfSite i = .cu → index N i 1 = some none) := by
  have hval : ∀ i orb, i < N → orb < orbitals 2 i →
      (orb = 0 ∧ index N i orb = some (some i)) ∨
      (orb = 1 ∧ i % 4 ≠ 3 ∧ index N i orb = some (some (N + i - i / 4))) := by
    intro i orb hi ho
    unfold orbitals at ho
    unfold index
    by_cases h : findTypeOfSite i = .cu
    · rw [if_pos h] at ho
      have : orb = 0 := by omega
      subst this
      left
      simp
    · have h3 : i % 4 ≠ 3 := fun e => h ((ktwo_type i).1.2 e)
      rw [if_neg h] at ho
      have : orb = 0 ∨ orb = 1 := by omega
      rcases this with rfl | rfl
      · left; simp
      · right
        refine ⟨rfl, h3, ?_⟩
        simp only [h, false_and, if_false, false_or, Nat.one_ne_zero]
        rw [if_pos (by omega)]
        congr 2; omega
  refine ⟨?_, ?_, ?_, ?_⟩
  · intro i orb hi ho
    rw [matrixRank_eq]
    rcases hval i orb hi ho with ⟨rfl, e⟩ | ⟨rfl, h3, e⟩
    · exact ⟨i, e, by omega⟩
    · exact ⟨_, e, by omega⟩
  · intro i orb i' orb' n hi hi' ho ho' h h'
    rcases hval i orb hi ho with ⟨rfl, e⟩ | ⟨rfl, h3, e⟩ <;>
    rcases hval i' orb' hi' ho' with ⟨rfl, e'⟩ | ⟨rfl, h3', e'⟩ <;>
    rw [h] at e <;> rw [h'] at e' <;> simp only [Option.some.injEq] at e e' <;> omega
  · intro n hn
    rw [matrixRank_eq] at hn
    by_cases h : n < N
    · refine ⟨n, 0, h, ?_, ?_⟩
      · unfold orbitals; split_ifs <;> omega
      · unfold index; simp
    · have hox : findTypeOfSite ((n - N) + (n - N) / 3) ≠ .cu := by
        intro hc
        have := (ktwo_type _).1.1 hc
        omega
      have hi : (n - N) + (n - N) / 3 < N := by omega
      have ho : 1 < orbitals 2 ((n - N) + (n - N) / 3) := by unfold orbitals; rw [if_neg hox]; omega
      refine ⟨(n - N) + (n - N) / 3, 1, hi, ho, ?_⟩
      rcases hval _ 1 hi ho with ⟨h, -⟩ | ⟨-, h3, e⟩
      · omega
      · rw [e]; congr 2; omega
  · intro i h
    unfold index; simp [h]

example : connected 3 4 = some true ∧ connected 4 6 = some true ∧ connected 4 2 = some true ∧
    calcDir 4 6 = some 3 ∧ calcDir 4 2 = some 2 ∧ matrixRank 8 = 14 ∧ index 8 6 1 = some (some 13) ∧
    signChange (-5) 3 4 = some 5 := by decide

example := ktwo_dir 4 6 (by decide)
example : signChange (-5) 3 4 = signChange (-5) 4 3 := (ktwo_sign (-5) 3 4 (by decide)).1

end Verif.Geom.KTwo
