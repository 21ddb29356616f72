import Verif.Whole.ModelSparse
import Verif.Whole.Props
import Verif.Crs.Props2

/-!
# C129: a random sparse matrix and its lowest energy
-/

namespace Verif.Whole.Sparse

open Verif.Loop Verif.Krylov Verif.Lapack Matrix

/-- What rounding must satisfy for the random rows and columns: products with random numbers are computed with a relative error of at most
2⁻⁵².  Both `double` in any rounding mode and exact arithmetic do. -/
structure Sizes (rnd : ℚ → ℚ) : Prop extends Random.Rounding rnd where
  near : ∀ x, x = 0 ∨ 1 / 2 ^ 100 ≤ x → x ≤ 2 ^ 31 → 0 ≤ rnd x ∧ rnd x ≤ x * (1 + 1 / 2 ^ 52)

theorem sizes_id : Sizes id where
  mono := monotone_id
  int := fun _ _ => rfl
  near := fun x h _ => by
    have h0 : 0 ≤ x := by
      rcases h with rfl | h
      · exact le_refl _
      · exact le_trans (by positivity) h
    exact ⟨h0, by simp only [id]; nlinarith [show (0 : ℚ) ≤ 1 / 2 ^ 52 by positivity]⟩

/-- A value that is drawn: a random number from 0 to 1. -/
def Drawn {α : Type} (val : ℚ → α) (v : α) : Prop := ∃ r : ℚ, 0 ≤ r ∧ r < 1 ∧ v = val r

theorem drawn48 {α : Type} (val : ℚ → α) (x : Nat) : Drawn val (val (Random.drand48 x).1) := by
  have h := Random.lcg_lt x
  refine ⟨_, ?_, ?_, rfl⟩
  · simp only [Random.drand48]
    positivity
  · simp only [Random.drand48]
    rw [div_lt_one (by norm_num)]
    exact_mod_cast h

theorem drawSize_lt {rnd : ℚ → ℚ} (hr : Sizes rnd) (rng k : Nat) (h0 : 0 < k) (hk : k < 2 ^ 31) : (drawSize rnd rng k).1 < k := by
  have h := Random.lcg_lt rng
  unfold drawSize Random.drand48
  simp only
  generalize Random.lcg rng = y at h
  have hy : (y : ℚ) ≤ 281474976710655 := by exact_mod_cast (by omega : y ≤ 281474976710655)
  have hk1 : (1 : ℚ) ≤ k := by exact_mod_cast h0
  have hk2 : (k : ℚ) ≤ 2 ^ 31 := by exact_mod_cast hk.le
  have hx1 : (y : ℚ) / 281474976710656 * k ≤ 281474976710655 / 281474976710656 * k :=
    mul_le_mul_of_nonneg_right (div_le_div_of_nonneg_right hy (by norm_num)) (by linarith)
  obtain ⟨h1, h2⟩ := hr.near ((y : ℚ) / 281474976710656 * k) (by
    rcases Nat.eq_zero_or_pos y with rfl | hy
    · left; simp
    · right
      have : (1 : ℚ) ≤ y := by exact_mod_cast hy
      calc (1 : ℚ) / 2 ^ 100 ≤ 1 / 281474976710656 * 1 := by norm_num
        _ ≤ _ := mul_le_mul (div_le_div_of_nonneg_right this (by norm_num)) hk1 (by norm_num) (by positivity)) (by linarith)
  rw [Nat.floor_lt h1]
  refine lt_of_le_of_lt h2 ?_
  have : (y : ℚ) / 281474976710656 * k * (1 + 1 / 2 ^ 52) ≤ 281474976710655 / 281474976710656 * k * (1 + 1 / 2 ^ 52) :=
    mul_le_mul_of_nonneg_right hx1 (by norm_num)
  refine lt_of_le_of_lt this ?_
  norm_num
  linarith

/-- What is known of the row `l` after `t` attempts. -/
structure RowInv {α : Type} (n : Nat) (val : ℚ → α) (rows : List (List (Nat × α))) (t : Nat) (l : List (Nat × α)) (s : Fill α × List Bool) : Prop where
  built : Crs.Built s.1.m n n (rows ++ [l])
  counter : s.1.counter = (rows ++ [l]).flatten.length
  flags : s.2.length = n ∧ ∀ j < n, s.2[j]? = some (decide (j ∈ l.map fun p => p.1))
  nodup : (l.map fun p => p.1).Nodup
  cols : ∀ p ∈ l, p.1 < n
  vals : ∀ p ∈ l, Drawn val p.2
  most : l.length ≤ t
  least : 0 < t → 0 < l.length

theorem fillOne_inv {α : Type} {rnd : ℚ → ℚ} (hr : Sizes rnd) {n : Nat} (h0 : 0 < n) (hn : n < 2 ^ 31) (val : ℚ → α)
    {rows : List (List (Nat × α))} {t : Nat} {l : List (Nat × α)} {s : Fill α × List Bool} (h : RowInv n val rows t l s) :
    ∃ s' l', fillOne rnd n val s = some s' ∧ RowInv n val rows (t + 1) l' s' := by
  have hc := drawSize_lt hr s.1.rng n h0 hn
  unfold fillOne
  simp only [bind]
  rw [h.flags.2 _ hc, Option.bind_some]
  by_cases hm : (drawSize rnd s.1.rng n).1 ∈ l.map fun p => p.1
  · rw [if_pos (by simpa using hm)]
    refine ⟨_, l, rfl, h.built, h.counter, h.flags, h.nodup, h.cols, h.vals, le_trans h.most (Nat.le_succ _), fun _ => ?_⟩
    obtain ⟨p, hp, -⟩ := List.mem_map.1 hm
    exact List.length_pos_of_mem hp
  · rw [if_neg (by simpa using hm)]
    refine ⟨_, l ++ [(_, _)], rfl, h.built.push _ _, ?_, ⟨by simpa using h.flags.1, fun j hj => ?_⟩, ?_, ?_, ?_, ?_, ?_⟩
    · have := h.counter
      simp at this ⊢
      omega
    · simp only
      by_cases e : (drawSize rnd s.1.rng n).1 = j
      · subst e
        rw [List.getElem?_set_self (by rw [h.flags.1]; exact hj)]
        simp
      · rw [List.getElem?_set_ne e, h.flags.2 j hj]
        simp [Ne.symm e]
    · rw [List.map_append, List.map_cons, List.map_nil, List.nodup_append]
      refine ⟨h.nodup, List.nodup_singleton _, ?_⟩
      intro a ha b hb e
      rw [List.mem_singleton] at hb
      subst hb e
      exact hm ha
    · intro p hp
      rcases List.mem_append.1 hp with hp | hp
      · exact h.cols p hp
      · rw [List.mem_singleton.1 hp]
        exact hc
    · intro p hp
      rcases List.mem_append.1 hp with hp | hp
      · exact h.vals p hp
      · rw [List.mem_singleton.1 hp]
        exact drawn48 val _
    · have := h.most
      simp
      omega
    · intro _
      simp

/-- A row that the program may build. -/
structure GoodRow {α : Type} (n maxCol : Nat) (val : ℚ → α) (l : List (Nat × α)) : Prop where
  nodup : (l.map fun p => p.1).Nodup
  cols : ∀ p ∈ l, p.1 < n
  vals : ∀ p ∈ l, Drawn val p.2
  least : 0 < l.length
  most : l.length ≤ min maxCol n

theorem fillRow_inv {α : Type} {rnd : ℚ → ℚ} (hr : Sizes rnd) {n maxCol : Nat} (h0 : 0 < n) (hn : n < 2 ^ 31) (hc0 : 0 < maxCol)
    (hc : maxCol < 2 ^ 31) (val : ℚ → α) {rows : List (List (Nat × α))} {s : Fill α} (hb : Crs.Built s.m n n rows)
    (hs : s.counter = rows.flatten.length) (i : Nat) (hi : i = rows.length) (hin : i < n) :
    ∃ s' l, fillRow rnd n maxCol val i s = some s' ∧ Crs.Built s'.m n n (rows ++ [l]) ∧ s'.counter = (rows ++ [l]).flatten.length ∧
      GoodRow n maxCol val l := by
  obtain ⟨m, m1, m2⟩ := hb.newRow i hi hin s.counter hs
  unfold fillRow
  simp only [bind]
  rw [m1, Option.bind_some]
  have hx := drawSize_lt hr s.rng maxCol hc0 hc
  obtain ⟨r, r1, l, r2⟩ := loopN_inv (fun t r => ∃ l, RowInv n val rows t l r) (1 + (drawSize rnd s.rng maxCol).1) (fun _ s => fillOne rnd n val s)
    (⟨m, s.counter, (drawSize rnd s.rng maxCol).2⟩, List.replicate n false)
    ⟨[], m2, by simpa using hs, ⟨by simp, fun j hj => by simp [hj]⟩, by simp, by simp, by simp, by simp, by simp⟩
    (fun t r _ ⟨l, h⟩ => by
      obtain ⟨s', l', h1, h2⟩ := fillOne_inv hr h0 hn val h
      exact ⟨s', h1, l', h2⟩)
  rw [r1, Option.bind_some]
  refine ⟨r.1, l, rfl, r2.built, r2.counter, r2.nodup, r2.cols, r2.vals, r2.least (by omega), le_min ?_ ?_⟩
  · have := r2.most
    omega
  · have := Crs.length_le_of_nodup_lt _ n r2.nodup (by
      intro x hx
      obtain ⟨p, hp, rfl⟩ := List.mem_map.1 hx
      exact r2.cols p hp)
    simpa using this

theorem build_rows {α : Type} {rnd : ℚ → ℚ} (hr : Sizes rnd) {n maxCol : Nat} (h0 : 0 < n) (hn : n < 2 ^ 31) (hc0 : 0 < maxCol)
    (hc : maxCol < 2 ^ 31) (val : ℚ → α) (rng : Nat) :
    ∃ s rows, build rnd n maxCol val rng = some s ∧ Crs.IsRows s n n rows ∧ ∀ l ∈ rows, GoodRow n maxCol val l := by
  obtain ⟨s, s1, rows, s2, s3, s4, s5⟩ := loopN_inv
    (fun i (s : Fill α) => ∃ rows, Crs.Built s.m n n rows ∧ s.counter = rows.flatten.length ∧ rows.length = i ∧ ∀ l ∈ rows, GoodRow n maxCol val l) n
    (fillRow rnd n maxCol val) ⟨Crs.resize2 n n, 0, rng⟩ ⟨[], Crs.built_resize2 n n, rfl, rfl, by simp⟩
    (fun i s hi ⟨rows, h1, h2, h3, h4⟩ => by
      obtain ⟨s', l, g1, g2, g3, g4⟩ := fillRow_inv hr h0 hn hc0 hc val h1 h2 i h3.symm hi
      refine ⟨s', g1, rows ++ [l], g2, g3, by simp [h3], fun l' hl => ?_⟩
      rcases List.mem_append.1 hl with hl | hl
      · exact h4 l' hl
      · rw [List.mem_singleton.1 hl]
        exact g4)
  obtain ⟨m, m1, m2⟩ := s2.finish s4 s.counter s3
  refine ⟨m, rows, ?_, m2, s5⟩
  unfold build
  simp only [bind]
  rw [s1, Option.bind_some, m1]

/-- **C129** The random matrix is a valid square matrix: no access is out of range, and every row has at least one element and at most
`maxCol`, in different columns; every element is the value of a random number from 0 to 1. -/
theorem build_spec {rnd : ℚ → ℚ} (hr : Sizes rnd) {n maxCol : Nat} (h0 : 0 < n) (hn : n < 2 ^ 31) (hc0 : 0 < maxCol)
    (hc : maxCol < 2 ^ 31) (scale : ℝ) (rng : Nat) :
    ∃ s M, build rnd n maxCol (fun r => (r : ℝ) * scale) rng = some s ∧ Crs.Valid s ∧ Crs.Represents s n n M ∧
      (∀ i < n, 1 ≤ (Crs.row s i).length ∧ (Crs.row s i).length ≤ min maxCol n) ∧
      (∀ i, (Finset.univ.filter fun j => M i j ≠ 0).card ≤ min maxCol n) ∧
      ∀ i j, M i j = 0 ∨ ∃ r : ℝ, 0 ≤ r ∧ r < 1 ∧ M i j = r * scale := by
  obtain ⟨s, rows, h1, h2, h3⟩ := build_rows hr h0 hn hc0 hc (fun r => (r : ℝ) * scale) rng
  have hv : Crs.Valid s := h2.valid (fun l hl => (h3 l hl).cols) (fun l hl => (h3 l hl).nodup)
  have hrow : ∀ i < n, ∃ l ∈ rows, Crs.row s i = l := fun i hi => by
    have hl : i < rows.length := by rw [h2.rlen]; exact hi
    exact ⟨_, List.getElem_mem hl, h2.row i hl⟩
  refine ⟨s, fun i j => Crs.entry s i j, h1, hv, ⟨hv.toWf, h2.nrow, h2.ncol, fun _ _ => rfl⟩, fun i hi => ?_, fun i => ?_, fun i j => ?_⟩
  · obtain ⟨l, hl, e⟩ := hrow i hi
    rw [e]
    exact ⟨(h3 l hl).least, (h3 l hl).most⟩
  · obtain ⟨l, hl, e⟩ := hrow i i.2
    refine le_trans ?_ (h3 l hl).most
    have : ((Finset.univ.filter fun j : Fin n => Crs.entry s i j ≠ 0).image fun j => j.1) ⊆ (l.map fun p => p.1).toFinset := by
      intro x hx
      obtain ⟨j, hj, rfl⟩ := Finset.mem_image.1 hx
      rw [List.mem_toFinset]
      by_contra hm
      refine (Finset.mem_filter.1 hj).2 ?_
      unfold Crs.entry
      rw [e]
      exact Crs.sumAt_of_not_mem hm
    have h5 := Finset.card_le_card this
    rw [Finset.card_image_of_injective _ Fin.val_injective] at h5
    exact le_trans h5 (le_trans (List.toFinset_card_le _) (by simp))
  · obtain ⟨l, hl, e⟩ := hrow i i.2
    unfold Crs.entry
    simp only [e]
    by_cases hm : j.1 ∈ l.map fun p => p.1
    · right
      obtain ⟨p, hp, hpj⟩ := List.mem_map.1 hm
      obtain ⟨r, r1, r2, r3⟩ := (h3 l hl).vals p hp
      refine ⟨r, by exact_mod_cast r1, by exact_mod_cast r2, ?_⟩
      rw [← hpj, Crs.sumAt_eq_of_mem (h3 l hl).nodup hp, r3]
    · left
      exact Crs.sumAt_of_not_mem hm

theorem symmetrize_spec {n : Nat} (h0 : 0 < n) {s : Crs.Crs ℝ} (hv : Crs.Valid s) {M : Matrix (Fin n) (Fin n) ℝ} (h : Crs.Represents s n n M) :
    ∃ t, symmetrize s = .ok t ∧ crsMul t n = ((M + Mᵀ) *ᵥ ·) := by
  classical
  obtain ⟨b, b1, b2, -⟩ := Crs.transposeConjugate_spec h Crs.Crs.empty
  obtain ⟨a, a1, a2, a3⟩ := Crs.operatorPlus_same h0 h0 h b2 1 1
  rw [one_smul, one_smul, conjTranspose_eq_transpose_of_trivial] at a3
  have ha : Crs.addAssign s b = some a := by
    unfold Crs.addAssign Crs.add
    rw [if_neg (by rw [b2.nrow, b2.ncol]; simp), if_pos (by rw [h.nrow, b2.nrow]), a1]
  have hh := Crs.isHermitian_spec (fun x : ℝ => |x|) (1 / 1000000) a3 a2
  rw [decide_eq_true (by
    intro i j
    simp only [Matrix.add_apply, transpose_apply, star_trivial]
    rw [show M i j + M j i - (M j i + M i j) = 0 by ring, abs_zero]
    positivity)] at hh
  refine ⟨a, ?_, crsMul_spec a3⟩
  unfold symmetrize
  rw [hv.check (by rw [h.nrow]; exact h0) (by rw [h.ncol]; exact h0), b1]
  simp only [acc, bind, Except.bind]
  rw [show (Crs.addAssign s b : Option (Crs.Crs ℝ)) = some a by convert ha]
  simp only
  rw [a2.check (by rw [a3.nrow]; exact h0) (by rw [a3.ncol]; exact h0)]
  simp only
  rw [show Crs.isHermitian (fun x : ℝ => |x|) (1 / 1000000) a = some true by convert hh]
  rfl

theorem columns_pos (rnd : ℚ → ℚ) (n c : Nat) : 0 < columns rnd n c := by
  unfold columns
  split <;> omega

theorem columns_lt {rnd : ℚ → ℚ} (hr : Sizes rnd) {n c : Nat} (h0 : 0 < n) (hn : n < 2 ^ 31) (hc : c < 2 ^ 31) : columns rnd n c < 2 ^ 31 := by
  unfold columns
  split
  · have hn1 : (1 : ℚ) ≤ n := by exact_mod_cast h0
    have hn2 : (n : ℚ) ≤ 2 ^ 31 := by exact_mod_cast hn.le
    obtain ⟨a1, a2⟩ := hr.near (1 / 10) (.inr (by norm_num)) (by norm_num)
    have a3 : rnd (1 / 10) * n ≤ 1 / 8 * 2 ^ 31 := mul_le_mul (le_trans a2 (by norm_num)) hn2 (by positivity) (by norm_num)
    have a4 : (0 : ℚ) ≤ rnd (1 / 10) * n := mul_nonneg a1 (by positivity)
    have m1 := hr.mono a3
    have m2 := (hr.near (1 / 8 * 2 ^ 31) (.inr (by norm_num)) (by norm_num)).2
    have : ⌊rnd (rnd (1 / 10) * n)⌋₊ ≤ 2 ^ 30 := by
      refine Nat.floor_le_of_le (le_trans m1 (le_trans m2 ?_))
      norm_num
    omega
  · exact hc

/-- The program up to the call of the solver. -/
theorem program_eq {rnd : ℚ → ℚ} (hr : Sizes rnd) (fs : Stedc) (fh : Heev ℝ) (now : Int) {n c : Nat} (h0 : 0 < n) (hn : n < 2 ^ 31)
    (hc : c < 2 ^ 31) (m : ℝ) (seed : Int) :
    ∃ (M : Matrix (Fin n) (Fin n) ℝ) (v : List ℝ), Random.fillRandom rnd now n = some v ∧ startOf v n ≠ 0 ∧
      (∀ i, (Finset.univ.filter fun j => M i j ≠ 0).card ≤ min (columns rnd n c) n) ∧
      (∀ i j, M i j = 0 ∨ ∃ r : ℝ, 0 ≤ r ∧ r < 1 ∧ M i j = r * largest m) ∧
      (∃ g s, Random.make48 rnd (if seed = 0 then 3443331 else seed) 0 1 = some g ∧
        build rnd n (columns rnd n c) (fun r => (r : ℝ) * largest m) g.2 = some s ∧ Crs.Represents s n n M) ∧
      (∀ davidson, program fs fh rnd now n c m seed davidson false = throwOut) ∧
      ∀ davidson, program fs fh rnd now n c m seed davidson true =
        (do let e ← ground fs fh false davidson n ((M + Mᵀ) *ᵥ ·) (startOf v n); return some e) := by
  obtain ⟨v, hv, v1, -, x, v2, v3⟩ := Random.fillRandom_unit rnd hr.toRounding now n h0
  obtain ⟨g, g1, -, -⟩ := Random.make48_spec rnd hr.toRounding (if seed = 0 then 3443331 else seed) 0 1 (by omega)
  obtain ⟨s, M, s1, s2, s3, -, s4, s5⟩ := build_spec hr h0 hn (columns_pos rnd n c) (columns_lt hr h0 hn hc) (largest m) (Random.srand48 g)
  obtain ⟨t, t1, t2⟩ := symmetrize_spec h0 s2 s3
  refine ⟨M, v, hv, ?_, s4, s5, ⟨_, s, g1, s1, s3⟩, fun davidson => ?_, fun davidson => ?_⟩
  · intro h0
    obtain ⟨i, hi, rfl⟩ := List.getElem_of_mem v2
    have := congrFun h0 ⟨i, by omega⟩
    simp only [startOf, List.getD_eq_getElem?_getD, List.getElem?_eq_getElem hi, Option.getD_some, Pi.zero_apply] at this
    exact v3 this
  · unfold program
    rw [if_neg (by omega), g1]
    simp only [acc, bind, Except.bind]
    rw [s1]
    simp only
    rw [t1]
    rfl
  · unfold program
    rw [if_neg (by omega), g1]
    simp only [acc, bind, Except.bind]
    rw [s1]
    simp only
    rw [t1]
    simp only
    rw [show isReorthoEnabled [] true = .ok false by decide]
    simp only [vectorsCtor, start]
    rw [hv]
    simp only [t2]
    rfl

/-- **C129** The program with two rows or more, whatever the options, the seed and the time.  The assertions hold.  `-d` and `-x` throw.
Otherwise, when the first 5 (for at most four rows: 2) powers of the symmetric matrix applied to the start vector are independent, the
energy printed is the lowest expectation value of the space of these powers; it is not below the lowest eigenvalue, and for 2 and 5
rows it is an eigenvalue.  If one more power is independent, it is **above** the lowest eigenvalue. -/
theorem energy_fails {rnd : ℚ → ℚ} (hr : Sizes rnd) {fs : Stedc} (hs : StedcDoc fs) {fh : Heev ℝ} (hf : HeevDoc fh true)
    (hconv : ∀ jobz uplo n a lda w lwork, (fh jobz uplo n a lda w lwork).info ≤ 0) (now : Int) {n c : Nat} (h2 : 2 ≤ n) (hn : n < 2 ^ 31)
    (hc : c < 2 ^ 31) (m : ℝ) (seed : Int) (k : Nat) (hk : k = if n ≤ 4 then 2 else 5) :
    ∃ (M : Matrix (Fin n) (Fin n) ℝ) (v : List ℝ), Random.fillRandom rnd now n = some v ∧
      (∀ i, (Finset.univ.filter fun j => M i j ≠ 0).card ≤ min (columns rnd n c) n) ∧
      (∀ i j, M i j = 0 ∨ ∃ r : ℝ, 0 ≤ r ∧ r < 1 ∧ M i j = r * (open Classical in if |m| < 1 / 1000000 then 1 else m)) ∧
      (∃ g s, Random.make48 rnd (if seed = 0 then 3443331 else seed) 0 1 = some g ∧
        build rnd n (columns rnd n c) (fun r => (r : ℝ) * (open Classical in if |m| < 1 / 1000000 then 1 else m)) g.2 = some s ∧ Crs.Represents s n n M) ∧
      (∀ davidson, program fs fh rnd now n c m seed davidson false = throwOut) ∧
      program fs fh rnd now n c m seed true true = throwOut ∧
      (Independent (M + Mᵀ) (startOf v n) k → ∃ (E : ℝ) (z : Fin n → ℝ), program fs fh rnd now n c m seed false true = .ok (some E) ∧
        Ritz (M + Mᵀ) (Powers (M + Mᵀ) (startOf v n) k) E z ∧ (∀ μ, LowerBound (M + Mᵀ) μ → μ ≤ E) ∧
        (∀ x ∈ Powers (M + Mᵀ) (startOf v n) k, E * ∑ i, ‖x i‖ ^ 2 ≤ star x ⬝ᵥ ((M + Mᵀ) *ᵥ x)) ∧
        (n = 2 ∨ n = 5 → (M + Mᵀ) *ᵥ z = E • z) ∧
        (Independent (M + Mᵀ) (startOf v n) (k + 1) → ∀ μ, LowerBound (M + Mᵀ) μ → μ < E)) := by
  obtain ⟨M, v, hv, -, p1, p2, p3, p4, p5⟩ := program_eq hr fs fh now (c := c) (by omega : 0 < n) hn hc m seed
  refine ⟨M, v, hv, p1, p2, p3, p4, ?_, fun hi => ?_⟩
  · rw [p5]
    rfl
  have hH : (M + Mᵀ).IsHermitian := by
    unfold Matrix.IsHermitian
    rw [conjTranspose_eq_transpose_of_trivial, transpose_add, transpose_transpose, add_comm]
  obtain ⟨E, z, e, q1, q2, q3, q4, q5⟩ := ground_inexact_fails
    (⟨((M + Mᵀ) *ᵥ ·), false, 1 / 1000000000000, 4, eigsOf fs, diagOf fh true⟩ : SolverP ℝ n) (M + Mᵀ) rfl hH (eigs_same_size hs)
    (diag_diagonalizes hf hconv) 200 (startOf v n) (by omega) (by by_cases h4 : n ≤ 4; exact .inl h4; exact .inr (by simp only; omega))
    (by norm_num) k (by rw [hk]; rfl) hi
  refine ⟨E, z, ?_, q1, q2, q3, fun h => ?_, q5⟩
  · rw [p5]
    unfold ground
    rw [if_neg (by simp), e]
    rfl
  · exact q4 (by rw [hk]; rcases h with rfl | rfl <;> rfl)

/-- **C129** With one row the solver stores past the end of a vector of one element. -/
theorem one_row_fails {rnd : ℚ → ℚ} (hr : Sizes rnd) {fs : Stedc} (hs : StedcDoc fs) (fh : Heev ℝ) (now : Int) {c : Nat} (hc : c < 2 ^ 31) (m : ℝ)
    (seed : Int) : program fs fh rnd now 1 c m seed false true = ubOut := by
  obtain ⟨M, v, -, -, -, -, -, -, p5⟩ := program_eq hr fs fh now (n := 1) (c := c) (by omega) (by omega) hc m seed
  rw [p5]
  unfold ground
  rw [if_neg (by simp)]
  obtain ⟨close, -, -, e⟩ := decompositionD_eq (⟨((M + Mᵀ) *ᵥ ·), false, 1 / 1000000000000, 4, eigsOf fs, diagOf fh true⟩ : SolverP ℝ 1)
    (eigs_same_size hs) 200 (startOf v 1) 0
  unfold computeOneState
  rw [e, one_step_fails _ _ _ (by omega)]
  rfl

/-- Without `-n` the program says how to use it. -/
theorem no_rows (fs : Stedc) (fh : Heev ℝ) (rnd : ℚ → ℚ) (now : Int) (c : Nat) (m : ℝ) (seed : Int) (d l : Bool) :
    program fs fh rnd now 0 c m seed d l = .ok none := rfl

/-! ## Two rows -/

/-- The matrix of the program for two rows, one column at most, and seed 4. -/
theorem two_rows (scale : ℝ) : ∃ a b : ℝ, 0 < a ∧ 0 < b ∧ ∃ g s, Random.make48 id 4 0 1 = some g ∧
    build id 2 (columns id 2 1) (fun r => (r : ℝ) * scale) g.2 = some s ∧ s = ⟨[0, 1, 2], [1, 0], [a * scale, b * scale], 2, 2⟩ := by
  have e0 : Random.make48 id 4 0 1 = some (6540, 428618510) := by decide +kernel
  obtain ⟨g1, h1⟩ : ∃ g1, drawSize id 428618510 1 = (0, g1) ∧ ∃ g2, drawSize id g1 2 = (1, g2) ∧ 0 < (Random.drand48 g2).1 ∧
      ∃ g4, drawSize id (Random.drand48 g2).2 1 = (0, g4) ∧ ∃ g5, drawSize id g4 2 = (0, g5) ∧ 0 < (Random.drand48 g5).1 :=
    ⟨61340915355905, by decide +kernel, 217168678314872, by decide +kernel, by decide +kernel, 105980288197362, by decide +kernel, 88120917593365, by decide +kernel, by decide +kernel⟩
  obtain ⟨a1, g2, a2, a3, g4, a4, g5, a5, a6⟩ := h1
  refine ⟨((Random.drand48 g2).1 : ℚ), ((Random.drand48 g5).1 : ℚ), by exact_mod_cast a3, by exact_mod_cast a6, _, _, e0, ?_, rfl⟩
  simp [build, loopN, fillRow, fillOne, columns, Crs.setRow, Crs.resize2, Crs.push, setAt, a1, a2, a4, a5]

/-- The program does print an energy: two rows, seed 4, at whatever time. -/
example : ∃ (fs : Stedc) (fh : Heev ℝ), ∀ now, ∃ E < 0, program fs fh id now 2 1 0 4 false true = .ok (some E) := by
  obtain ⟨fs, hs, _⟩ := stedc_exists
  obtain ⟨fh, hf, hconv⟩ := heev_exists (𝕜 := ℝ) true
  refine ⟨fs, fh, fun now => ?_⟩
  obtain ⟨x, y, hv, hxy⟩ := first_two id ⟨monotone_id, fun _ _ => rfl⟩ now
  obtain ⟨M, v, hv', -, -, ⟨g, s, g1, s1, s2⟩, -, -, h⟩ := energy_fails sizes_id hs hf hconv now (n := 2) (c := 1) (by omega) (by omega) (by omega) 0 4
    2 rfl
  rw [hv] at hv'
  obtain rfl := Option.some.inj hv'
  obtain ⟨a, b, a0, b0, g', s', g2, s3, rfl⟩ := two_rows (largest 0)
  rw [if_neg (by decide), g2] at g1
  obtain rfl := Option.some.inj g1
  have s1 : build id 2 (columns id 2 1) (fun r => (r : ℝ) * largest 0) g'.2 = some s := s1
  rw [s3] at s1
  obtain rfl := Option.some.inj s1
  have hl : largest 0 = 1 := by unfold largest; rw [if_pos (by norm_num)]
  have hM : M + Mᵀ = !![0, a + b; a + b, 0] := by
    ext i j
    rw [Matrix.add_apply, transpose_apply, ← s2.entry i j, ← s2.entry j i, hl]
    fin_cases i <;> fin_cases j <;> simp [Crs.entry, Crs.row, Crs.sumAt, Crs.ptr, add_comm]
  rw [hM] at h
  have hb : a + b ≠ 0 := by positivity
  have hi : Independent !![0, a + b; a + b, 0] (startOf [x, y] 2) 2 := by
    unfold Independent
    rw [Fintype.linearIndependent_iff]
    intro g hg
    have h0 := congrFun hg 0
    have h1 := congrFun hg 1
    simp [Fin.sum_univ_two, Matrix.mulVec, dotProduct, startOf] at h0 h1
    have e0 : (x * x - y * y) * g 0 = 0 := by linear_combination x * h0 - y * h1
    have e1 : (x * x - y * y) * ((a + b) * g 1) = 0 := by linear_combination x * h1 - y * h0
    intro i
    fin_cases i
    · exact (mul_eq_zero.1 e0).resolve_left hxy
    · exact (mul_eq_zero.1 ((mul_eq_zero.1 e1).resolve_left hxy)).resolve_left hb
  obtain ⟨E, z, e, -, -, hE, -, -⟩ := h hi
  refine ⟨E, ?_, e⟩
  have htop : Powers !![0, a + b; a + b, 0] (startOf [x, y] 2) 2 = ⊤ := hi.span_eq_top_of_card_eq_finrank' (by simp)
  have := hE ![1, -1] (by rw [htop]; trivial)
  simp [Matrix.mulVec, dotProduct, Fin.sum_univ_two] at this
  linarith

end Verif.Whole.Sparse
