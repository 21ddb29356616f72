import Verif.GemmR.Spec
import Mathlib.Algebra.BigOperators.Fin
import Mathlib.Tactic.Ring
import Mathlib.Tactic.FinCases
import Mathlib.LinearAlgebra.Matrix.Notation

/-!
# C55: multiplication in tiles
-/

namespace Verif.GemmR

open Verif.Loop

variable {R : Type} [CommRing R] [StarRing R]

/-! ## Steps at different places -/

/-- Where the result of a step goes. -/
def Step.tgt (g : Args R) (s : Step) : Nat := s.pC + s.i + s.j * g.ldC

theorem fold_steps (g : Args R) (x : Step → R) (l : List Step) (C : List R)
    (hx : ∀ s ∈ l, inner g s.pA s.pB s.i s.j g.k = some (x s)) (hin : ∀ s ∈ l, s.tgt g < C.length)
    (hd : (l.map (Step.tgt g)).Nodup) :
    ∃ C', l.foldlM (Step.run g) C = some C' ∧ C'.length = C.length ∧
      (∀ s ∈ l, C'[s.tgt g]? = (C[s.tgt g]?).map fun c => g.alpha * x s + g.beta * c) ∧
      ∀ p, (∀ s ∈ l, s.tgt g ≠ p) → C'[p]? = C[p]? := by
  induction l generalizing C with
  | nil => exact ⟨C, rfl, rfl, by simp, by simp⟩
  | cons s l ih =>
    rw [List.map_cons, List.nodup_cons] at hd
    have hs := hin s (by simp)
    have hrun : s.run g C = some (C.set (s.tgt g) (g.alpha * x s + g.beta * C[s.tgt g])) := by
      unfold Step.run
      rw [hx s (by simp)]
      exact updAt_some _ hs
    obtain ⟨C', h1, h2, h3, h4⟩ := ih (C.set (s.tgt g) (g.alpha * x s + g.beta * C[s.tgt g]))
      (fun t ht => hx t (by simp [ht])) (fun t ht => by rw [List.length_set]; exact hin t (by simp [ht])) hd.2
    have hne : ∀ t ∈ l, t.tgt g ≠ s.tgt g := fun t ht e => hd.1 (e ▸ List.mem_map_of_mem ht)
    refine ⟨C', ?_, by rw [h2, List.length_set], ?_, ?_⟩
    · rw [List.foldlM_cons, hrun]; exact h1
    · intro t ht
      rcases List.mem_cons.1 ht with rfl | ht
      · rw [h4 _ hne, List.getElem?_set_self hs, List.getElem?_eq_getElem hs]
        rfl
      · rw [h3 t ht, List.getElem?_set_ne (hne t ht).symm]
    · intro p hp
      rw [h4 p (fun t ht => hp t (by simp [ht])), List.getElem?_set_ne (hp s (by simp))]

/-! ## A grid of tiles -/

/-- First row of a tile. -/
def row0 (nbi nbI t : Nat) : Nat := t % nbi * nbI

/-- First column of a tile. -/
def col0 (nbi nbJ t : Nat) : Nat := t / nbi * nbJ

/-- No transposition. -/
def noOp (c : Char) : Bool := !isTrans c && !isConj c

/-- The step for an entry of a tile. -/
def stepOf (g : Args R) (i0 j0 j i : Nat) : Step :=
  ⟨if noOp g.transA then i0 else i0 * g.ldA, if noOp g.transB then j0 * g.ldB else j0, i0 + j0 * g.ldC, i, j⟩

/-- The steps of a tile. -/
def tileList (g : Args R) (nbi nbI nbJ t : Nat) : List Step :=
  (List.range (min g.n (col0 nbi nbJ t + nbJ) - col0 nbi nbJ t)).flatMap fun j =>
    (List.range (min g.m (row0 nbi nbI t + nbI) - row0 nbi nbI t)).map
      (stepOf g (row0 nbi nbI t) (col0 nbi nbJ t) j)

theorem mem_tileList (g : Args R) (nbi nbI nbJ t : Nat) (s : Step) : s ∈ tileList g nbi nbI nbJ t ↔
    ∃ j i, j < min g.n (col0 nbi nbJ t + nbJ) - col0 nbi nbJ t ∧ i < min g.m (row0 nbi nbI t + nbI) - row0 nbi nbI t ∧
      s = stepOf g (row0 nbi nbI t) (col0 nbi nbJ t) j i := by
  unfold tileList
  simp only [List.mem_flatMap, List.mem_range, List.mem_map]
  constructor
  · rintro ⟨j, hj, i, hi, rfl⟩; exact ⟨j, i, hj, hi, rfl⟩
  · rintro ⟨j, i, hj, hi, rfl⟩; exact ⟨j, hj, i, hi, rfl⟩

/-- The target of a step is the entry of the matrix with the row and the column of the tile added. -/
theorem tgt_stepOf (g : Args R) (i0 j0 j i : Nat) : (stepOf g i0 j0 j i).tgt g = (i0 + i) + (j0 + j) * g.ldC := by
  simp only [Step.tgt, stepOf]; ring

theorem opAt_A (g : Args R) (i0 j0 j i l : Nat) :
    opAt g.transA g.A g.ldA (stepOf g i0 j0 j i).pA i l = opAt g.transA g.A g.ldA 0 (i0 + i) l := by
  simp only [stepOf, noOp, opAt]
  by_cases h1 : isTrans g.transA = true
  · simp only [h1, if_true, Bool.not_true, Bool.false_and, Bool.false_eq_true, if_false]
    congr 1; ring
  · by_cases h2 : isConj g.transA = true
    · simp only [h1, h2, if_true, Bool.not_true, Bool.and_false, Bool.false_eq_true, if_false]
      congr 2; ring
    · rw [Bool.not_eq_true] at h1 h2
      simp only [h1, h2, if_true, Bool.not_false, Bool.and_self, Bool.false_eq_true, if_false]
      congr 1; ring

theorem opAt_B (g : Args R) (i0 j0 j i l : Nat) :
    opAt g.transB g.B g.ldB (stepOf g i0 j0 j i).pB l j = opAt g.transB g.B g.ldB 0 l (j0 + j) := by
  simp only [stepOf, noOp, opAt]
  by_cases h1 : isTrans g.transB = true
  · simp only [h1, if_true, Bool.not_true, Bool.false_and, Bool.false_eq_true, if_false]
    congr 1; ring
  · by_cases h2 : isConj g.transB = true
    · simp only [h1, h2, if_true, Bool.not_true, Bool.and_false, Bool.false_eq_true, if_false]
      congr 2; ring
    · rw [Bool.not_eq_true] at h1 h2
      simp only [h1, h2, if_true, Bool.not_false, Bool.and_self, Bool.false_eq_true, if_false]
      congr 1; ring

theorem inner_stepOf (g : Args R) (i0 j0 j i l : Nat) :
    inner g (stepOf g i0 j0 j i).pA (stepOf g i0 j0 j i).pB i j l = inner g 0 0 (i0 + i) (j0 + j) l := by
  induction l with
  | zero => rfl
  | succ l ih => simp only [inner, ih, opAt_A, opAt_B]

/-- The steps of a grid of tiles. -/
def gridSteps (g : Args R) (nbi nbj nbI nbJ : Nat) : List Step := (List.range (nbi * nbj)).flatMap (tileList g nbi nbI nbJ)

/-- Where the entry is in the grid. -/
theorem tile_coords (g : Args R) (nbi nbI nbJ t : Nat) (hm : g.m ≤ g.ldC) {j i : Nat}
    (hj : j < min g.n (col0 nbi nbJ t + nbJ) - col0 nbi nbJ t) (hi : i < min g.m (row0 nbi nbI t + nbI) - row0 nbi nbI t) :
    ((row0 nbi nbI t + i) + (col0 nbi nbJ t + j) * g.ldC) % g.ldC = row0 nbi nbI t + i ∧
    ((row0 nbi nbI t + i) + (col0 nbi nbJ t + j) * g.ldC) / g.ldC = col0 nbi nbJ t + j ∧
    (row0 nbi nbI t + i) / nbI = t % nbi ∧ (col0 nbi nbJ t + j) / nbJ = t / nbi := by
  have h1 : row0 nbi nbI t + i < g.ldC := by omega
  have h2 : i < nbI := by omega
  have h3 : j < nbJ := by omega
  refine ⟨?_, ?_, ?_, ?_⟩
  · rw [Nat.add_mul_mod_self_right, Nat.mod_eq_of_lt h1]
  · rw [Nat.add_mul_div_right _ _ (by omega), Nat.div_eq_of_lt h1, Nat.zero_add]
  · rw [row0, Nat.add_comm, Nat.add_mul_div_right _ _ (by omega), Nat.div_eq_of_lt h2, Nat.zero_add]
  · rw [col0, Nat.add_comm, Nat.add_mul_div_right _ _ (by omega), Nat.div_eq_of_lt h3, Nat.zero_add]

theorem grid_nodup (g : Args R) (nbi nbj nbI nbJ : Nat) (hm : g.m ≤ g.ldC) :
    ((gridSteps g nbi nbj nbI nbJ).map (Step.tgt g)).Nodup := by
  unfold gridSteps
  rw [List.map_flatMap, List.nodup_flatMap]
  constructor
  · intro t _
    unfold tileList
    rw [List.map_flatMap, List.nodup_flatMap]
    constructor
    · intro j hj
      rw [List.map_map]
      apply List.Nodup.map_on _ List.nodup_range
      intro a ha b hb hab
      rw [List.mem_range] at ha hb hj
      simp only [Function.comp, tgt_stepOf] at hab
      omega
    · refine List.Pairwise.imp_of_mem ?_ List.pairwise_lt_range
      intro a b ha hb hab x hxa hxb
      rw [List.mem_range] at ha hb
      simp only [List.map_map, List.mem_map, List.mem_range, Function.comp, tgt_stepOf] at hxa hxb
      obtain ⟨i, hi, rfl⟩ := hxa
      obtain ⟨i', hi', h⟩ := hxb
      have h1 := (tile_coords g nbi nbI nbJ t hm ha hi).2.1
      have h2 := (tile_coords g nbi nbI nbJ t hm hb hi').2.1
      rw [h] at h2
      omega
  · refine List.Pairwise.imp_of_mem ?_ List.pairwise_lt_range
    intro t t' _ _ htt x hx hx'
    simp only [List.mem_map, mem_tileList] at hx hx'
    obtain ⟨s, ⟨j, i, hj, hi, rfl⟩, rfl⟩ := hx
    obtain ⟨s', ⟨j', i', hj', hi', rfl⟩, h⟩ := hx'
    rw [tgt_stepOf, tgt_stepOf] at h
    obtain ⟨a1, a2, a3, a4⟩ := tile_coords g nbi nbI nbJ t hm hj hi
    obtain ⟨b1, b2, b3, b4⟩ := tile_coords g nbi nbI nbJ t' hm hj' hi'
    rw [h] at b1 b2
    rw [a1] at b1
    rw [a2] at b2
    rw [b1, b3] at a3
    rw [b2, b4] at a4
    have e1 := Nat.div_add_mod t nbi
    have e2 := Nat.div_add_mod t' nbi
    rw [a3, a4] at e2
    omega

theorem grid_covers (g : Args R) (nbi nbj nbI nbJ : Nat) (hI : g.m ≤ nbi * nbI) (hJ : g.n ≤ nbj * nbJ) (a b : Nat)
    (ha : a < g.m) (hb : b < g.n) : ∃ s ∈ gridSteps g nbi nbj nbI nbJ, s.tgt g = a + b * g.ldC ∧
      inner g s.pA s.pB s.i s.j g.k = inner g 0 0 a b g.k := by
  have hI0 : 0 < nbI := by rcases Nat.eq_zero_or_pos nbI with h | h; · subst h; omega
                           · exact h
  have hJ0 : 0 < nbJ := by rcases Nat.eq_zero_or_pos nbJ with h | h; · subst h; omega
                           · exact h
  have h1 : a / nbI < nbi := by rw [Nat.div_lt_iff_lt_mul hI0]; omega
  have h2 : b / nbJ < nbj := by rw [Nat.div_lt_iff_lt_mul hJ0]; omega
  have ht1 : (a / nbI + nbi * (b / nbJ)) % nbi = a / nbI := by
    rw [Nat.add_mul_mod_self_left, Nat.mod_eq_of_lt h1]
  have ht2 : (a / nbI + nbi * (b / nbJ)) / nbi = b / nbJ := by
    rw [Nat.add_mul_div_left _ _ (by omega), Nat.div_eq_of_lt h1, Nat.zero_add]
  have hr : row0 nbi nbI (a / nbI + nbi * (b / nbJ)) + a % nbI = a := by
    rw [row0, ht1, Nat.mul_comm]; exact Nat.div_add_mod a nbI
  have hc : col0 nbi nbJ (a / nbI + nbi * (b / nbJ)) + b % nbJ = b := by
    rw [col0, ht2, Nat.mul_comm]; exact Nat.div_add_mod b nbJ
  have h3 := Nat.mod_lt a hI0
  have h4 := Nat.mod_lt b hJ0
  refine ⟨stepOf g (row0 nbi nbI (a / nbI + nbi * (b / nbJ))) (col0 nbi nbJ (a / nbI + nbi * (b / nbJ))) (b % nbJ) (a % nbI),
    ?_, ?_, ?_⟩
  · unfold gridSteps
    rw [List.mem_flatMap]
    refine ⟨a / nbI + nbi * (b / nbJ), ?_, (mem_tileList ..).2 ⟨b % nbJ, a % nbI, by omega, by omega, rfl⟩⟩
    rw [List.mem_range]
    calc a / nbI + nbi * (b / nbJ) < nbi + nbi * (b / nbJ) := by omega
      _ = nbi * (b / nbJ + 1) := by ring
      _ ≤ nbi * nbj := Nat.mul_le_mul_left _ h2
  · rw [tgt_stepOf, hr, hc]
  · have := inner_stepOf g (row0 nbi nbI (a / nbI + nbi * (b / nbJ))) (col0 nbi nbJ (a / nbI + nbi * (b / nbJ))) (b % nbJ)
      (a % nbI) g.k
    rw [hr, hc] at this
    exact this

theorem grid_steps (g : Args R) (nbi nbj nbI nbJ : Nat) (s : Step) (hs : s ∈ gridSteps g nbi nbj nbI nbJ) :
    ∃ a b, a < g.m ∧ b < g.n ∧ s.tgt g = a + b * g.ldC ∧ inner g s.pA s.pB s.i s.j g.k = inner g 0 0 a b g.k := by
  unfold gridSteps at hs
  rw [List.mem_flatMap] at hs
  obtain ⟨t, _, hs⟩ := hs
  obtain ⟨j, i, hj, hi, rfl⟩ := (mem_tileList ..).1 hs
  exact ⟨row0 nbi nbI t + i, col0 nbi nbJ t + j, by omega, by omega, tgt_stepOf .., inner_stepOf ..⟩

/-! ## The entries -/

/-- The three tests of a letter. -/
def Form.tests : Form → Bool × Bool × Bool
  | .plain => (true, false, false)
  | .trans => (false, true, false)
  | .conj => (false, false, true)

theorem letters (c : Char) (f : Form) (h : c ∈ f.letters) : isPlain c = f.tests.1 ∧ isTrans c = f.tests.2.1 ∧
    isConj c = f.tests.2.2 := by
  cases f <;> simp only [Form.letters, List.mem_cons, List.not_mem_nil, or_false] at h <;>
    rcases h with rfl | rfl <;> decide

theorem holds_opAt (c : Char) (f : Form) (hc : c ∈ f.letters) (M : List R) (ld : Nat) {r s : Nat}
    (Y : Matrix (Fin r) (Fin s) R) (h : Holds f M ld Y) (i : Fin r) (j : Fin s) :
    opAt c M ld 0 i j = some (Y i j) := by
  obtain ⟨_, h2, h3⟩ := letters c f hc
  unfold opAt
  cases f with
  | plain =>
    simp only [Form.tests] at h2 h3
    rw [h2, h3]
    simpa using h i j
  | trans =>
    simp only [Form.tests] at h2 h3
    rw [h2]
    simpa using h i j
  | conj =>
    simp only [Form.tests] at h2 h3
    rw [h2, h3]
    obtain ⟨x, hx, hy⟩ := h i j
    simp [hx, hy]

theorem inner_eq (g : Args R) (fA fB : Form) (hv : Sensible g fA fB) (a : Matrix (Fin g.m) (Fin g.k) R)
    (b : Matrix (Fin g.k) (Fin g.n) R) (ha : Holds fA g.A g.ldA a) (hb : Holds fB g.B g.ldB b) (i : Fin g.m) (j : Fin g.n) :
    inner g 0 0 i j g.k = some ((a * b) i j) := by
  have key : ∀ l (hl : l ≤ g.k), inner g 0 0 i j l =
      some (∑ t : Fin l, a i ⟨t, by omega⟩ * b ⟨t, by omega⟩ j) := by
    intro l
    induction l with
    | zero => intro _; simp [inner]
    | succ l ih =>
      intro hl
      have h1 := holds_opAt _ fA hv.transA _ _ a ha i ⟨l, by omega⟩
      have h2 := holds_opAt _ fB hv.transB _ _ b hb ⟨l, by omega⟩ j
      simp only at h1 h2
      simp only [inner, ih (by omega), h1, h2, bind, Option.bind_some, pure]
      rw [Fin.sum_univ_castSucc]
      rfl
  rw [key g.k (le_refl _), Matrix.mul_apply]

/-- All steps of a grid, in any order. -/
theorem grid_runs (g : Args R) (fA fB : Form) (hv : Sensible g fA fB) (a : Matrix (Fin g.m) (Fin g.k) R)
    (b : Matrix (Fin g.k) (Fin g.n) R) (ha : Holds fA g.A g.ldA a) (hb : Holds fB g.B g.ldB b) (C : List R)
    (c : Matrix (Fin g.m) (Fin g.n) R) (hc : Holds .plain C g.ldC c) (nbi nbj nbI nbJ : Nat) (hI : g.m ≤ nbi * nbI)
    (hJ : g.n ≤ nbj * nbJ) (l : List Step) (hl : l.Perm (gridSteps g nbi nbj nbI nbJ)) :
    ∃ C', runSteps g C l = .ok C' ∧ C'.length = C.length ∧ Holds .plain C' g.ldC (g.alpha • (a * b) + g.beta • c) ∧
      ∀ p, (∀ (i : Fin g.m) (j : Fin g.n), p ≠ i.val + j.val * g.ldC) → C'[p]? = C[p]? := by
  have hin : ∀ s ∈ l, ∃ (i : Fin g.m) (j : Fin g.n), s.tgt g = i.val + j.val * g.ldC ∧
      inner g s.pA s.pB s.i s.j g.k = some ((a * b) i j) := by
    intro s hs
    obtain ⟨i, j, hi, hj, h1, h2⟩ := grid_steps g nbi nbj nbI nbJ s (hl.mem_iff.1 hs)
    exact ⟨⟨i, hi⟩, ⟨j, hj⟩, h1, by rw [h2]; exact inner_eq g fA fB hv a b ha hb ⟨i, hi⟩ ⟨j, hj⟩⟩
  obtain ⟨C', h1, h2, h3, h4⟩ := fold_steps g (fun s => (inner g s.pA s.pB s.i s.j g.k).getD 0) l C
    (by intro s hs; obtain ⟨i, j, _, h⟩ := hin s hs; simp [h])
    (by
      intro s hs
      obtain ⟨i, j, h, _⟩ := hin s hs
      rw [h]
      exact (List.getElem?_eq_some_iff.1 (hc i j)).1)
    ((hl.map _).nodup_iff.2 (grid_nodup g nbi nbj nbI nbJ hv.ldC))
  refine ⟨C', by unfold runSteps; rw [h1], h2, ?_, ?_⟩
  · intro i j
    obtain ⟨s, hs, e1, e2⟩ := grid_covers g nbi nbj nbI nbJ hI hJ i j i.2 j.2
    have := h3 s (hl.mem_iff.2 hs)
    rw [e1, hc i j, e2, inner_eq g fA fB hv a b ha hb i j] at this
    rw [this]
    simp [Matrix.add_apply, Matrix.smul_apply]
  · intro p hp
    apply h4
    intro s hs e
    obtain ⟨i, j, h, _⟩ := hin s hs
    exact hp i j (by rw [← e, h])

/-! ## The model is a grid -/

theorem blasChecks_ok (g : Args R) (fA fB : Form) (hv : Sensible g fA fB) (mm nn : Nat) (hm : mm ≤ g.m) (hn : nn ≤ g.n) :
    blasChecks g mm nn = true := by
  obtain ⟨a1, a2, a3⟩ := letters _ _ hv.transA
  obtain ⟨b1, b2, b3⟩ := letters _ _ hv.transB
  have hA := hv.ldA
  have hB := hv.ldB
  have hC := hv.ldC
  have hp := hv.pos
  unfold blasChecks
  rw [a1, a2, a3, b1, b2, b3]
  cases fA <;> cases fB <;> simp only at hA hB <;> simp [Form.tests] <;> omega

theorem offset_ok (a b ld : Nat) (h : a + b * ld < 2 ^ 31) : offset (1 + a) (1 + b) ld = .ok (a + b * ld) := by
  unfold offset
  rw [show 1 + a - 1 = a by omega, show 1 + b - 1 = b by omega, if_pos h]

theorem block_facts (nb m : Nat) (hm : 0 < m) (hnb : 0 < nb) :
    0 < nblocks nb m ∧ ∃ s, blockSize m (nblocks nb m) = .ok s ∧ 0 < s ∧ s ≤ nb ∧ (nblocks nb m - 1) * s < m ∧
      m ≤ nblocks nb m * s := by
  have h1 : nblocks nb m * nb ≤ m + (nb - 1) := Nat.div_mul_le_self _ _
  have h2 : m + (nb - 1) < nb * (nblocks nb m + 1) := by
    have := Nat.lt_mul_div_succ (m + (nb - 1)) hnb
    exact this
  have h0 : 0 < nblocks nb m := Nat.div_pos (by omega) hnb
  refine ⟨h0, _, if_neg (by omega), ?_⟩
  generalize nblocks nb m = q at *
  have e := Nat.div_add_mod m q
  have hlt := Nat.mod_lt m h0
  have hmq : m ≤ q * nb := by
    have : nb * (q + 1) = q * nb + nb := by ring
    omega
  have hq1 : (q - 1) * nb < m := by
    have : (q - 1) * nb + nb = q * nb := by
      obtain ⟨r, rfl⟩ : ∃ r, q = r + 1 := ⟨q - 1, by omega⟩
      simp; ring
    omega
  have hs : (if m % q = 0 then m / q else m / q + 1) ≤ nb := by
    by_cases hz : m % q = 0
    · rw [if_pos hz]
      exact Nat.div_le_of_le_mul hmq
    · rw [if_neg hz]
      by_contra hc
      have : nb ≤ m / q := by omega
      have : q * nb ≤ q * (m / q) := Nat.mul_le_mul_left _ this
      omega
  have hge : m ≤ q * (if m % q = 0 then m / q else m / q + 1) := by
    by_cases hz : m % q = 0
    · rw [if_pos hz]; omega
    · rw [if_neg hz, Nat.mul_add, Nat.mul_one]; omega
  refine ⟨?_, hs, ?_, hge⟩
  · rcases Nat.eq_zero_or_pos (if m % q = 0 then m / q else m / q + 1) with h | h
    · rw [h] at hge; omega
    · exact h
  · exact lt_of_le_of_lt (Nat.mul_le_mul_left _ hs) hq1

theorem tileSteps_eq (g : Args R) (fA fB : Form) (hv : Valid g fA fB) (nbi nbj nbI nbJ t : Nat) (hI : 0 < nbI)
    (hJ : 0 < nbJ) (hi : (nbi - 1) * nbI < g.m) (hj : (nbj - 1) * nbJ < g.n) (ht : t < nbi * nbj) :
    tileSteps g nbi nbI nbJ t = .ok (tileList g nbi nbI nbJ t) := by
  have hbi : 0 < nbi := by rcases Nat.eq_zero_or_pos nbi with h | h; · subst h; omega
                           · exact h
  have hr : row0 nbi nbI t < g.m := by
    refine lt_of_le_of_lt (Nat.mul_le_mul_right _ ?_) hi
    have := Nat.mod_lt t hbi
    omega
  have hc : col0 nbi nbJ t < g.n := by
    refine lt_of_le_of_lt (Nat.mul_le_mul_right _ ?_) hj
    have : t / nbi < nbj := by rw [Nat.div_lt_iff_lt_mul hbi, Nat.mul_comm]; exact ht
    omega
  obtain ⟨s1, s2, s3⟩ := hv.sizes
  have hA : row0 nbi nbI t * g.ldA ≤ g.m * g.ldA := Nat.mul_le_mul_right _ hr.le
  have hB : col0 nbi nbJ t * g.ldB ≤ g.n * g.ldB := Nat.mul_le_mul_right _ hc.le
  have hA' : row0 nbi nbI t ≤ g.m * g.ldA := le_trans hr.le (Nat.le_mul_of_pos_right _ hv.ldA.1)
  have hB' : col0 nbi nbJ t ≤ g.n * g.ldB := le_trans hc.le (Nat.le_mul_of_pos_right _ hv.ldB.1)
  have hC : row0 nbi nbI t + col0 nbi nbJ t * g.ldC < 2 ^ 31 := by
    have : (col0 nbi nbJ t + 1) * g.ldC ≤ g.n * g.ldC := Nat.mul_le_mul_right _ hc
    have h2 : (col0 nbi nbJ t + 1) * g.ldC = col0 nbi nbJ t * g.ldC + g.ldC := by ring
    have := hv.ldC
    omega
  have oA : offset (if noOp g.transA then 1 + row0 nbi nbI t else 1) (if noOp g.transA then 1 else 1 + row0 nbi nbI t) g.ldA =
      .ok (if noOp g.transA then row0 nbi nbI t else row0 nbi nbI t * g.ldA) := by
    cases noOp g.transA with
    | true => have := offset_ok (row0 nbi nbI t) 0 g.ldA (by omega); simpa using this
    | false => have := offset_ok 0 (row0 nbi nbI t) g.ldA (by omega); simpa using this
  have oB : offset (if noOp g.transB then 1 else 1 + col0 nbi nbJ t) (if noOp g.transB then 1 + col0 nbi nbJ t else 1) g.ldB =
      .ok (if noOp g.transB then col0 nbi nbJ t * g.ldB else col0 nbi nbJ t) := by
    cases noOp g.transB with
    | true => have := offset_ok 0 (col0 nbi nbJ t) g.ldB (by omega); simpa using this
    | false => have := offset_ok (col0 nbi nbJ t) 0 g.ldB (by omega); simpa using this
  have oC := offset_ok (row0 nbi nbI t) (col0 nbi nbJ t) g.ldC hC
  have e1 : (t - t % nbi) / nbi = t / nbi := by
    have := Nat.div_add_mod t nbi
    rw [show t - t % nbi = nbi * (t / nbi) by omega, Nat.mul_div_cancel_left _ hbi]
  unfold tileSteps
  simp only [e1]
  change (do
    let pA ← offset (if noOp g.transA then 1 + row0 nbi nbI t else 1) (if noOp g.transA then 1 else 1 + row0 nbi nbI t) g.ldA
    let pB ← offset (if noOp g.transB then 1 else 1 + col0 nbi nbJ t) (if noOp g.transB then 1 + col0 nbi nbJ t else 1) g.ldB
    let pC ← offset (1 + row0 nbi nbI t) (1 + col0 nbi nbJ t) g.ldC
    blasSteps g (min g.m (1 + row0 nbi nbI t + nbI - 1) + 1 - (1 + row0 nbi nbI t))
      (min g.n (1 + col0 nbi nbJ t + nbJ - 1) + 1 - (1 + col0 nbi nbJ t)) pA pB pC) = _
  rw [oA, oB, oC]
  simp only [bind, Except.bind]
  rw [show min g.m (1 + row0 nbi nbI t + nbI - 1) + 1 - (1 + row0 nbi nbI t) =
      min g.m (row0 nbi nbI t + nbI) - row0 nbi nbI t by omega,
    show min g.n (1 + col0 nbi nbJ t + nbJ - 1) + 1 - (1 + col0 nbi nbJ t) =
      min g.n (col0 nbi nbJ t + nbJ) - col0 nbi nbJ t by omega]
  unfold blasSteps
  rw [if_pos (blasChecks_ok g fA fB hv.toSensible _ _ (by omega) (by omega))]
  rfl

theorem mapM_ok {A B : Type} (f : A → Out B) (h : A → B) (l : List A) (hf : ∀ x ∈ l, f x = .ok (h x)) :
    l.mapM f = .ok (l.map h) := by
  induction l with
  | nil => rfl
  | cons x l ih =>
    rw [List.mapM_cons, hf x (by simp), ih (fun y hy => hf y (by simp [hy]))]
    rfl

theorem bigSteps_eq (g : Args R) (fA fB : Form) (hv : Valid g fA fB) (nb : Nat) (hnb : 0 < nb) :
    ∃ nbI nbJ, bigSteps g nb = .ok (gridSteps g (nblocks nb g.m) (nblocks nb g.n) nbI nbJ) ∧
      g.m ≤ nblocks nb g.m * nbI ∧ g.n ≤ nblocks nb g.n * nbJ := by
  obtain ⟨_, nbI, a1, a2, _, a3, a4⟩ := block_facts nb g.m hv.pos.1 hnb
  obtain ⟨_, nbJ, b1, b2, _, b3, b4⟩ := block_facts nb g.n hv.pos.2 hnb
  refine ⟨nbI, nbJ, ?_, a4, b4⟩
  unfold bigSteps
  rw [a1, b1]
  simp only [bind, Except.bind]
  rw [mapM_ok _ (tileList g (nblocks nb g.m) nbI nbJ) _ (fun t ht => tileSteps_eq g fA fB hv _ _ _ _ _ a2 b2 a3 b3
    (List.mem_range.1 ht))]
  simp only [pure, Except.pure, gridSteps, List.flatMap]

/-! ## Properties -/

/-- **C55** The product that BLAS computes, without limits on the sizes. -/
theorem blas_spec (g : Args R) (fA fB : Form) (hv : Sensible g fA fB) (a : Matrix (Fin g.m) (Fin g.k) R)
    (b : Matrix (Fin g.k) (Fin g.n) R) (ha : Holds fA g.A g.ldA a) (hb : Holds fB g.B g.ldB b) (C : List R)
    (c : Matrix (Fin g.m) (Fin g.n) R) (hc : Holds .plain C g.ldC c) :
    ∃ l C', blasSteps g g.m g.n 0 0 0 = .ok l ∧ l.foldlM (Step.run g) C = some C' ∧ C'.length = C.length ∧
      Holds .plain C' g.ldC (g.alpha • (a * b) + g.beta • c) := by
  have hsmall : blasSteps g g.m g.n 0 0 0 = .ok (gridSteps g 1 1 g.m g.n) := by
    unfold blasSteps
    rw [if_pos (blasChecks_ok g fA fB hv _ _ (le_refl _) (le_refl _))]
    have h0 : ∀ j, stepOf g 0 0 j = fun i => ⟨0, 0, 0, i, j⟩ := by intro j; funext i; simp [stepOf]
    simp [gridSteps, tileList, row0, col0, h0]
  obtain ⟨C', h1, h2, h3, _⟩ := grid_runs g fA fB hv a b ha hb C c hc 1 1 g.m g.n (by omega) (by omega) _ (List.Perm.refl _)
  refine ⟨_, C', hsmall, ?_, h2, h3⟩
  unfold runSteps at h1
  cases h : List.foldlM (Step.run g) C (gridSteps g 1 1 g.m g.n) with
  | none => rw [h] at h1; cases h1
  | some D => rw [h] at h1; cases h1; rfl

/-- **C55** Whatever the block size, and in whatever order the threads do their work, the result is
`alpha op(A) op(B) + beta C`, and nothing else is changed. -/
theorem gemm_spec (g : Args R) (fA fB : Form) (hv : Valid g fA fB) (a : Matrix (Fin g.m) (Fin g.k) R)
    (b : Matrix (Fin g.k) (Fin g.n) R) (ha : Holds fA g.A g.ldA a) (hb : Holds fB g.B g.ldB b) (C : List R)
    (c : Matrix (Fin g.m) (Fin g.n) R) (hc : Holds .plain C g.ldC c) (nb : Nat) (r : Out (List R)) (hr : Run g nb C r) :
    ∃ C', r = .ok C' ∧ C'.length = C.length ∧ Holds .plain C' g.ldC (g.alpha • (a * b) + g.beta • c) ∧
      ∀ p, (∀ (i : Fin g.m) (j : Fin g.n), p ≠ i.val + j.val * g.ldC) → C'[p]? = C[p]? := by
  have hsmall : blasSteps g g.m g.n 0 0 0 = .ok (gridSteps g 1 1 g.m g.n) := by
    unfold blasSteps
    rw [if_pos (blasChecks_ok g fA fB hv.toSensible _ _ (le_refl _) (le_refl _))]
    have h0 : ∀ j, stepOf g 0 0 j = fun i => ⟨0, 0, 0, i, j⟩ := by intro j; funext i; simp [stepOf]
    simp [gridSteps, tileList, row0, col0, h0]
  have hnb : isSmall nb g.m g.n = false → 0 < nb := by
    intro h
    rcases Nat.eq_zero_or_pos nb with h0 | h0
    · rw [h0] at h; simp [isSmall] at h
    · exact h0
  cases hr with
  | small l h1 h2 =>
    rw [hsmall] at h2
    cases h2
    exact grid_runs g fA fB hv.toSensible a b ha hb C c hc 1 1 g.m g.n (by omega) (by omega) _ (List.Perm.refl _)
  | smallBad e h1 h2 => rw [hsmall] at h2; cases h2
  | big l l' h1 h2 h3 =>
    obtain ⟨nbI, nbJ, e1, e2, e3⟩ := bigSteps_eq g fA fB hv nb (hnb h1)
    rw [e1] at h2
    cases h2
    exact grid_runs g fA fB hv.toSensible a b ha hb C c hc _ _ nbI nbJ e2 e3 l' h3
  | bigBad e h1 h2 =>
    obtain ⟨nbI, nbJ, e1, _⟩ := bigSteps_eq g fA fB hv nb (hnb h1)
    rw [e1] at h2; cases h2

/-- A run exists. -/
theorem run_exists (g : Args R) (nb : Nat) (C : List R) : ∃ r, Run g nb C r := by
  cases hs : isSmall nb g.m g.n with
  | true =>
    cases h : blasSteps g g.m g.n 0 0 0 with
    | ok l => exact ⟨_, .small l hs h⟩
    | error e => exact ⟨_, .smallBad e hs h⟩
  | false =>
    cases h : bigSteps g nb with
    | ok l => exact ⟨_, .big l l hs h (List.Perm.refl _)⟩
    | error e => exact ⟨_, .bigBad e hs h⟩

/-- **C55** The blocks of rows (and those of columns): none is empty, none is larger than the block size, and together
they are all rows. -/
theorem blocks_balanced (nb m : Nat) (hm : 0 < m) (hnb : 0 < nb) :
    ∃ s, blockSize m (nblocks nb m) = .ok s ∧ 0 < s ∧ s ≤ nb ∧
      (∀ b, b < nblocks nb m → b * s < m) ∧ m ≤ nblocks nb m * s := by
  obtain ⟨h0, s, h1, h2, h3, h4, h5⟩ := block_facts nb m hm hnb
  refine ⟨s, h1, h2, h3, ?_, h5⟩
  intro b hb
  exact lt_of_le_of_lt (Nat.mul_le_mul_right _ (by omega)) h4

/-! ## Examples -/

/-- A product of `3 × 2` and `2 × 3`, the second one given transposed, in blocks of two. -/
def ex1 : Args Int := ⟨'N', 't', 3, 3, 2, 1, [1, 2, 3, 4, 5, 6], 3, [1, 0, 2, 3, 1, 1], 3, 10, 4⟩

example : Valid ex1 .plain .trans := by
  refine ⟨⟨by decide, by decide, by decide, by decide, by decide, by decide⟩, by decide⟩

example : Holds .plain ex1.A ex1.ldA !![1, 4; 2, 5; (3 : Int), 6] := by
  intro i j; fin_cases i <;> fin_cases j <;> rfl

example : Holds .trans ex1.B ex1.ldB !![1, 0, 2; (3 : Int), 1, 1] := by
  intro i j; fin_cases i <;> fin_cases j <;> rfl

example : (bigSteps ex1 2).map (·.length) = .ok 9 := by decide +kernel

example : (do
    let l ← bigSteps ex1 2
    runSteps ex1 [1, 1, 1, 7, 0, 0, 0, 7, 0, 0, 0] l.reverse) = .ok [23, 27, 31, 7, 4, 5, 6, 7, 6, 9, 12] := by
  decide +kernel

/-- A matrix without rows and with more columns than the block size: division by zero. -/
theorem no_rows_fails (g : Args R) (nb : Nat) (hnb : 0 < nb) (hm : g.m = 0) (hn : nb < g.n) (C : List R) :
    Run g nb C ubOut := by
  refine .bigBad .ub (by simp [isSmall]; omega) ?_
  have : nblocks nb g.m = 0 := by rw [hm]; exact Nat.div_eq_of_lt (by omega)
  unfold bigSteps
  rw [this]
  rfl

/-- Positions are computed with `int`: a row with a leading dimension of `2^30` overflows at the third column. -/
theorem large_fails (C : List Int) : Run ⟨'N', 'N', 1, 3, 0, 1, [], 1, [], 1, 0, 2 ^ 30⟩ 1 C ubOut :=
  .bigBad .ub (by decide) (by rfl)

/-- A small product with a leading dimension that is too small is refused by BLAS, and nothing else can happen. -/
theorem small_refused (g : Args R) (nb : Nat) (hs : isSmall nb g.m g.n = true) (hA : isPlain g.transA = true) (hB : isPlain g.transB = true)
    (h : g.ldA < max 1 g.m ∨ g.ldB < max 1 g.k ∨ g.ldC < max 1 g.m) (C : List R) (r : Out (List R)) : Run g nb C r ↔ r = throwOut := by
  have hb : blasSteps g g.m g.n 0 0 0 = throwOut := by
    unfold blasSteps
    rw [if_neg]
    unfold blasChecks
    rw [hA, hB]
    simp only [Bool.and_eq_true, decide_eq_true_eq, if_true, not_and, Bool.true_or]
    intro h1 h2
    omega
  constructor
  · intro hr
    cases hr with
    | small l _ e => rw [hb] at e; cases e
    | smallBad e _ he => rw [hb] at he; cases he; rfl
    | big l l' e _ _ => rw [hs] at e; cases e
    | bigBad e e' _ => rw [hs] at e'; cases e'
  · rintro rfl
    exact .smallBad _ hs hb

end Verif.GemmR
