import Verif.Dense.Spec
import Mathlib.Tactic.Ring
import Mathlib.Tactic.Linarith

namespace Verif.Dense

open Verif.Loop

variable {α : Type}

/-- Right dimensions and amount of storage. -/
structure Shape (m : Mat α) (r c : Nat) : Prop where
  nrow : m.nrow = r
  ncol : m.ncol = c
  size : m.data.length = r * c

theorem Represents.shape {m : Mat α} {r c A} (h : Represents m r c A) : Shape m r c :=
  ⟨h.nrow, h.ncol, h.size⟩

theorem idx_lt {i j r c : Nat} (hi : i < r) (hj : j < c) : i + j * r < r * c := by
  have : (j + 1) * r ≤ c * r := Nat.mul_le_mul_right _ hj
  rw [Nat.add_mul, Nat.one_mul] at this
  rw [Nat.mul_comm r c]; omega

theorem idx_inj {i j i' j' r : Nat} (hi : i < r) (hi' : i' < r) (h : i + j * r = i' + j' * r) :
    i = i' ∧ j = j' := by
  have h1 : (i + j * r) % r = i := by rw [Nat.add_mul_mod_self_right, Nat.mod_eq_of_lt hi]
  have h2 : (i' + j' * r) % r = i' := by rw [Nat.add_mul_mod_self_right, Nat.mod_eq_of_lt hi']
  have e : i = i' := by rw [← h1, ← h2, h]
  subst e
  refine ⟨rfl, ?_⟩
  have : j * r = j' * r := by omega
  exact Nat.eq_of_mul_eq_mul_right (by omega) this

theorem Shape.get {m : Mat α} {r c i j : Nat} (h : Shape m r c) (hi : i < r) (hj : j < c) :
    m.get i j = m.data[i + j * r]? := by
  simp [Mat.get, h.nrow, h.ncol, hi, hj]

theorem Shape.set {m : Mat α} {r c i j : Nat} (h : Shape m r c) (hi : i < r) (hj : j < c) (a : α) :
    ∃ m', m.set i j a = some m' ∧ Shape m' r c ∧ m'.get i j = some a ∧
      ∀ i' j', i' < r → j' < c → (i' ≠ i ∨ j' ≠ j) → m'.get i' j' = m.get i' j' := by
  have hlt := idx_lt hi hj
  refine ⟨{ m with data := m.data.set (i + j * r) a }, ?_, ?_⟩
  · simp [Mat.set, h.nrow, h.ncol, hi, hj, setAt, h.size, hlt]
  have hs : Shape { m with data := m.data.set (i + j * r) a } r c :=
    ⟨h.nrow, h.ncol, by simp [h.size]⟩
  refine ⟨hs, ?_, ?_⟩
  · rw [hs.get hi hj]; simp [h.size, hlt]
  · intro i' j' hi' hj' hne
    rw [hs.get hi' hj', h.get hi' hj']
    simp only
    rw [List.getElem?_set_ne]
    intro he
    obtain ⟨rfl, rfl⟩ := idx_inj hi hi' he
    simp at hne

theorem Shape.exists_rep {m : Mat α} {r c : Nat} (h : Shape m r c) :
    ∃ A, Represents m r c A := by
  refine ⟨fun i j => m.data[i.1 + j.1 * r]'(by rw [h.size]; exact idx_lt i.2 j.2),
    h.nrow, h.ncol, h.size, ?_⟩
  intro i j
  rw [h.get i.2 j.2]
  exact List.getElem?_eq_getElem _

/-- `m` has the right shape and agrees with `A` at the entries in `P`. -/
structure Filled (m : Mat α) (r c : Nat) (A : Matrix (Fin r) (Fin c) α) (P : Fin r → Fin c → Prop) :
    Prop extends Shape m r c where
  entry : ∀ i j, P i j → m.get i j = some (A i j)

theorem Shape.filled {m : Mat α} {r c} (h : Shape m r c) (A) :
    Filled m r c A (fun _ _ => False) := ⟨h, by simp⟩

theorem Filled.mono {m : Mat α} {r c A} {P Q : Fin r → Fin c → Prop} (h : Filled m r c A P)
    (hPQ : ∀ i j, Q i j → P i j) : Filled m r c A Q := ⟨h.toShape, fun i j hq => h.entry i j (hPQ i j hq)⟩

theorem Filled.rep {m : Mat α} {r c A} {P : Fin r → Fin c → Prop} (h : Filled m r c A P)
    (hP : ∀ i j, P i j) : Represents m r c A :=
  ⟨h.nrow, h.ncol, h.size, fun i j => h.entry i j (hP i j)⟩

theorem Filled.set {m : Mat α} {r c A} {P : Fin r → Fin c → Prop} (h : Filled m r c A P)
    (i : Fin r) (j : Fin c) (a : α) (ha : a = A i j) :
    ∃ m', m.set i j a = some m' ∧ Filled m' r c A (fun i' j' => P i' j' ∨ (i' = i ∧ j' = j)) := by
  obtain ⟨m', h1, h2, h3, h4⟩ := h.toShape.set i.2 j.2 a
  refine ⟨m', h1, h2, ?_⟩
  rintro i' j' hp
  by_cases he : i' = i ∧ j' = j
  · obtain ⟨rfl, rfl⟩ := he; rw [h3, ha]
  · rw [h4 i' j' i'.2 j'.2 (by
      by_contra hc; push Not at hc; exact he ⟨Fin.ext hc.1, Fin.ext hc.2⟩)]
    exact h.entry i' j' (by tauto)

/-- Rule for a loop that fills in entries. -/
theorem fill_loop {r c : Nat} {A : Matrix (Fin r) (Fin c) α} (n : Nat)
    (f : Nat → Mat α → Option (Mat α)) (Q : Fin n → Fin r → Fin c → Prop)
    (hf : ∀ (k : Fin n) m P, Filled m r c A P →
      ∃ m', f k m = some m' ∧ Filled m' r c A (fun i j => P i j ∨ Q k i j))
    (m : Mat α) (P : Fin r → Fin c → Prop) (hm : Filled m r c A P) :
    ∃ m', loopN n f m = some m' ∧ Filled m' r c A (fun i j => P i j ∨ ∃ k, Q k i j) := by
  obtain ⟨m', h1, h2⟩ := loopN_inv
    (fun k m => Filled m r c A (fun i j => P i j ∨ ∃ k' : Fin n, k'.1 < k ∧ Q k' i j)) n f m
    (by simpa using hm) (by
      intro k m hk hp
      obtain ⟨m', h1, h2⟩ := hf ⟨k, hk⟩ m _ hp
      refine ⟨m', h1, h2.mono ?_⟩
      rintro i j (h | ⟨k', hk', hq⟩)
      · exact Or.inl (Or.inl h)
      · by_cases he : k'.1 = k
        · right; have : k' = ⟨k, hk⟩ := Fin.ext he
          rw [← this]; exact hq
        · left; right; exact ⟨k', by omega, hq⟩)
  exact ⟨m', h1, h2.mono (by
    rintro i j (h | ⟨k, hq⟩)
    · exact Or.inl h
    · exact Or.inr ⟨k, k.2, hq⟩)⟩

/-- The usual double loop. -/
theorem fill_double {r c : Nat} {A : Matrix (Fin r) (Fin c) α} (m : Mat α) (hm : Shape m r c)
    (g : Nat → Nat → Option α) (hg : ∀ i j, g i.1 j.1 = some (A i j)) :
    ∃ m', loopN r (fun i m => loopN c (fun j m => (g i j).bind fun a => m.set i j a) m) m = some m' ∧
      Represents m' r c A := by
  obtain ⟨m', h1, h2⟩ := fill_loop (A := A) r
    (fun i m => loopN c (fun j m => (g i j).bind fun a => m.set i j a) m)
    (fun k i j => i = k ∧ ∃ k' : Fin c, j = k')
    (by
      intro k m P hP
      obtain ⟨m', h1, h2⟩ := fill_loop (A := A) c (fun j m => (g k j).bind fun a => m.set k j a)
        (fun k' i j => i = k ∧ j = k')
        (by
          intro k' m P hP
          obtain ⟨m', h1, h2⟩ := hP.set k k' (A k k') rfl
          exact ⟨m', by simp [hg, h1], h2⟩) m P hP
      exact ⟨m', h1, h2.mono (by rintro i j (h | ⟨h, k', h'⟩); exacts [Or.inl h, Or.inr ⟨k', h, h'⟩])⟩)
    m _ (hm.filled A)
  exact ⟨m', h1, h2.rep (fun i j => Or.inr ⟨i, rfl, j, rfl⟩)⟩

theorem shape_mk0 [Zero α] (r c : Nat) : Shape (Mat.mk0 r c : Mat α) r c := ⟨rfl, rfl, by simp [Mat.mk0]⟩

theorem shape_mk0_get [Zero α] {r c i j : Nat} (hi : i < r) (hj : j < c) :
    (Mat.mk0 r c : Mat α).get i j = some 0 := by
  rw [(shape_mk0 r c).get hi hj]; simp [Mat.mk0, idx_lt hi hj]

theorem resize_shape [Zero α] {m : Mat α} {r c : Nat} (h : m.nrow = 0 ∨ m.nrow = r) :
    ∃ m', m.resize r c = some m' ∧ Shape m' r c := by
  refine ⟨_, if_neg ?_, rfl, rfl, resizeL_length _ _ _⟩
  omega

theorem Represents.get {m : Mat α} {r c A} (h : Represents m r c A) {i j : Nat} (hi : i < r)
    (hj : j < c) : m.get i j = some (A ⟨i, hi⟩ ⟨j, hj⟩) := h.entry ⟨i, hi⟩ ⟨j, hj⟩

/-- Two representations of the same matrix are the same object. -/
theorem Represents.unique {m m' : Mat α} {r c A} (h : Represents m r c A)
    (h' : Represents m' r c A) : m = m' := by
  suffices hd : m.data = m'.data by
    have e1 := h.nrow.trans h'.nrow.symm
    have e2 := h.ncol.trans h'.ncol.symm
    cases m; cases m'; simp only at e1 e2 hd; rw [e1, e2, hd]
  apply List.ext_getElem?
  intro n
  have s1 := h.size; have s2 := h'.size
  by_cases hn : n < r * c
  · have hr : 0 < r := Nat.pos_of_ne_zero (by rintro rfl; simp at hn)
    have hi : n % r < r := Nat.mod_lt _ hr
    have hj : n / r < c := by rw [Nat.div_lt_iff_lt_mul hr, Nat.mul_comm]; exact hn
    have e : n % r + n / r * r = n := by rw [Nat.mul_comm]; exact Nat.mod_add_div n r
    have g1 := h.get hi hj; have g2 := h'.get hi hj
    rw [h.shape.get hi hj] at g1; rw [h'.shape.get hi hj] at g2
    rw [e] at g1 g2
    exact g1.trans g2.symm
  · rw [List.getElem?_eq_none (by omega), List.getElem?_eq_none (by omega)]

/-- Element-wise update loops. -/
theorem loop_upd (n : Nat) (f : α → α → α) (ys d : List α) (hd : n ≤ d.length) (hy : n ≤ ys.length) :
    ∃ d', loopN n (fun i d => (ys[i]?).bind fun y => updAt d i (fun x => f x y)) d = some d' ∧
      d'.length = d.length ∧
      ∀ k, d'[k]? = if k < n then (d[k]?).bind fun x => (ys[k]?).map fun y => f x y else d[k]? := by
  obtain ⟨d', h1, h2, h3⟩ := loopN_inv
    (fun i (d' : List α) => d'.length = d.length ∧
      ∀ k, d'[k]? = if k < i then (d[k]?).bind fun x => (ys[k]?).map fun y => f x y else d[k]?)
    n (fun i d => (ys[i]?).bind fun y => updAt d i (fun x => f x y)) d (by simp) (by
      rintro i d' hi ⟨hl, hk⟩
      have hiy : i < ys.length := by omega
      have hid : i < d'.length := by omega
      refine ⟨d'.set i (f d'[i] ys[i]), ?_, by simp [hl], ?_⟩
      · simp [List.getElem?_eq_getElem hiy, updAt_some _ hid]
      · intro k
        have hki := hk i
        rw [if_neg (by omega), List.getElem?_eq_getElem hid, List.getElem?_eq_getElem (by omega)] at hki
        simp only [Option.some.injEq] at hki
        by_cases e : i = k
        · subst e
          rw [if_pos (by omega), List.getElem?_set_self hid, List.getElem?_eq_getElem (by omega),
            List.getElem?_eq_getElem hiy]
          simp [hki]
        · rw [List.getElem?_set_ne e, hk k]
          by_cases h : k < i
          · rw [if_pos h, if_pos (by omega)]
          · rw [if_neg h, if_neg (by omega)])
  exact ⟨d', h1, h2, h3⟩

theorem Represents.of_data {m : Mat α} {r c : Nat} {A : Matrix (Fin r) (Fin c) α}
    (hs : Shape m r c) (h : ∀ (i : Fin r) (j : Fin c), m.data[i.1 + j.1 * r]? = some (A i j)) :
    Represents m r c A :=
  ⟨hs.nrow, hs.ncol, hs.size, fun i j => by rw [hs.get i.2 j.2]; exact h i j⟩

theorem Represents.data {m : Mat α} {r c A} (h : Represents m r c A) (i : Fin r) (j : Fin c) :
    m.data[i.1 + j.1 * r]? = some (A i j) := by
  rw [← h.shape.get i.2 j.2]; exact h.entry i j

/-- Vectors: `v` is the vector `x`. -/
theorem fill_vec {n : Nat} (x : Fin n → α) (g : Nat → Option α) (hg : ∀ i : Fin n, g i = some (x i))
    (v : List α) (hv : v.length = n) :
    loopN n (fun i v => (g i).bind fun a => setAt v i a) v = some (List.ofFn x) := by
  obtain ⟨v', h1, h2, h3⟩ := loopN_inv
    (fun i (v' : List α) => v'.length = n ∧ ∀ k : Fin n, k.1 < i → v'[k.1]? = some (x k)) n
    (fun i v => (g i).bind fun a => setAt v i a) v ⟨hv, by simp⟩ (by
      rintro i v' hi ⟨hl, hk⟩
      refine ⟨v'.set i (x ⟨i, hi⟩), ?_, by simp [hl], ?_⟩
      · have := hg ⟨i, hi⟩
        simp only at this
        simp [this, setAt_some, hl, hi]
      · intro k hk'
        by_cases e : i = k.1
        · subst e; simp [hl]
        · rw [List.getElem?_set_ne e]; exact hk k (by omega))
  rw [h1]
  congr 1
  apply List.ext_getElem?
  intro k
  by_cases hk : k < n
  · rw [h3 ⟨k, hk⟩ hk]; simp [hk]
  · rw [List.getElem?_eq_none (by omega), List.getElem?_eq_none (by simp; omega)]

/-- Boolean scans with early return. -/
theorem scan_loop (n : Nat) (f : Nat → Bool → Option Bool) (p : Fin n → Bool)
    (hf : ∀ k : Fin n, ∀ b, f k b = some (b && p k)) (b : Bool) :
    loopN n f b = some (b && decide (∀ k, p k = true)) := by
  induction n with
  | zero => simp [loopN]
  | succ n ih =>
    rw [loopN, ih (fun k => p k.castSucc) (fun k => hf k.castSucc)]
    have := hf (Fin.last n)
    simp only [Fin.val_last] at this
    simp only [Option.bind_some, this, Bool.and_assoc, Option.some.injEq]
    congr 1
    rw [Bool.eq_iff_iff]
    simp [Fin.forall_fin_succ']

theorem scan_double (r c : Nat) (f : Nat → Nat → Bool → Option Bool) (p : Fin r → Fin c → Bool)
    (hf : ∀ i j, ∀ b, f i.1 j.1 b = some (b && p i j)) (b : Bool) :
    loopN r (fun i b => loopN c (fun j b => f i j b) b) b =
      some (b && decide (∀ i j, p i j = true)) := by
  rw [scan_loop r _ (fun i => decide (∀ j, p i j = true)) (fun i b => by
    rw [scan_loop c _ (fun j => p i j) (fun j b => hf i j b)])]
  simp

/-! ### Accumulating into an element -/

theorem addTo_rep [Add α] {r c : Nat} {A : Matrix (Fin r) (Fin c) α} {m : Mat α}
    (h : Represents m r c A) (i : Fin r) (j : Fin c) (a : α) :
    ∃ m', m.addTo i j a = some m' ∧
      Represents m' r c (fun i' j' => if i' = i ∧ j' = j then A i j + a else A i' j') := by
  obtain ⟨m', h1, h2, h3, h4⟩ := h.shape.set i.2 j.2 (A i j + a)
  refine ⟨m', by simp [Mat.addTo, h.entry, h1], h2.nrow, h2.ncol, h2.size, ?_⟩
  intro i' j'
  by_cases he : i' = i ∧ j' = j
  · obtain ⟨rfl, rfl⟩ := he; simpa using h3
  · rw [h4 i' j' i'.2 j'.2 (by by_contra hc; push Not at hc; exact he ⟨Fin.ext hc.1, Fin.ext hc.2⟩),
      if_neg he]
    exact h.entry i' j'

theorem Represents.congr {m : Mat α} {r c : Nat} {A B : Matrix (Fin r) (Fin c) α}
    (h : Represents m r c A) (e : ∀ i j, B i j = A i j) : Represents m r c B := by
  have : B = A := by ext i j; exact e i j
  rw [this]; exact h

theorem acc_loop [AddCommMonoid α] {r c : Nat} {A : Matrix (Fin r) (Fin c) α} {m : Mat α}
    (h : Represents m r c A) (i : Fin r) (j : Fin c) (n : Nat) (g : Nat → Option α) (x : Fin n → α)
    (hg : ∀ k, g k.1 = some (x k)) :
    ∃ m', loopN n (fun w m => (g w).bind fun a => m.addTo i j a) m = some m' ∧
      Represents m' r c (fun i' j' => if i' = i ∧ j' = j then A i j + ∑ k, x k else A i' j') := by
  induction n with
  | zero =>
    refine ⟨m, rfl, h.congr fun i' j' => ?_⟩
    split
    · rename_i h; rw [h.1, h.2]; simp
    · rfl
  | succ n ih =>
    obtain ⟨m1, h1, h2⟩ := ih (fun k => x k.castSucc) (fun k => hg k.castSucc)
    obtain ⟨m2, h3, h4⟩ := addTo_rep h2 i j (x (Fin.last n))
    refine ⟨m2, ?_, ?_⟩
    · have := hg (Fin.last n)
      simp only [Fin.val_last] at this
      rw [loopN, h1]; simp [this, h3]
    · refine h4.congr fun i' j' => ?_
      rw [Fin.sum_univ_castSucc]
      by_cases e : i' = i ∧ j' = j
      · simp [e, add_assoc]
      · rw [if_neg e, if_neg e, if_neg e]

theorem acc_double [AddCommMonoid α] {r c : Nat} {m : Mat α} (hm : Represents m r c 0)
    (A : Matrix (Fin r) (Fin c) α) (f : Nat → Nat → Mat α → Option (Mat α))
    (hf : ∀ (i : Fin r) (j : Fin c) (m : Mat α) M, Represents m r c M → ∃ m', f i j m = some m' ∧
      Represents m' r c (fun i' j' => if i' = i ∧ j' = j then M i j + A i j else M i' j')) :
    ∃ m', loopN r (fun i m => loopN c (fun j m => f i j m) m) m = some m' ∧ Represents m' r c A := by
  obtain ⟨m', h1, h2⟩ := loopN_inv
    (fun k m => Represents m r c (fun i j => if i.1 < k then A i j else 0)) r
    (fun i m => loopN c (fun j m => f i j m) m) m (hm.congr fun i j => by simp) (by
      intro k m hk hp
      obtain ⟨m', h1, h2⟩ := loopN_inv
        (fun l m => Represents m r c (fun i j => if i.1 < k ∨ (i.1 = k ∧ j.1 < l) then A i j else 0)) c
        (fun j m => f k j m) m (by simpa using hp) (by
          intro l m hl hp
          obtain ⟨m', h1, h2⟩ := hf ⟨k, hk⟩ ⟨l, hl⟩ m _ hp
          refine ⟨m', h1, ?_⟩
          refine h2.congr fun i j => ?_
          by_cases e : i = ⟨k, hk⟩ ∧ j = ⟨l, hl⟩
          · obtain ⟨rfl, rfl⟩ := e; simp
          · rw [if_neg e]
            have : ¬ (i.1 = k ∧ j.1 = l) := fun h => e ⟨Fin.ext h.1, Fin.ext h.2⟩
            apply if_congr _ rfl rfl
            omega)
      refine ⟨m', h1, ?_⟩
      refine h2.congr fun i j => ?_
      apply if_congr _ rfl rfl
      have := j.2
      omega)
  refine ⟨m', h1, ?_⟩
  simpa using h2

theorem sum_double_loop {M : Type} [AddCommMonoid M] (r c : Nat) (g : Nat → Nat → Option M)
    (x : Fin r → Fin c → M) (hg : ∀ i j, g i.1 j.1 = some (x i j)) (s : M) :
    loopN r (fun i s => loopN c (fun j s => (g i j).map fun v => s + v) s) s =
      some (s + ∑ i, ∑ j, x i j) := by
  induction r generalizing s with
  | zero => simp [loopN]
  | succ n ih =>
    rw [loopN, ih (fun k => x k.castSucc) (fun k j => hg k.castSucc j), Fin.sum_univ_castSucc]
    simp only [Option.bind_some]
    rw [loopN_sum c _ (x (Fin.last n)) (fun j => by simpa using hg (Fin.last n) j)]
    simp [add_assoc]

/-! ### Tokens of the text format: entry `(i,j)` is token `i*c+j` -/

theorem tok_lt {i j r c : Nat} (hi : i < r) (hj : j < c) : i * c + j < r * c := by
  have : (i + 1) * c ≤ r * c := Nat.mul_le_mul_right _ hi
  rw [Nat.add_mul, Nat.one_mul] at this
  omega

theorem print_loop {r c : Nat} {A : Matrix (Fin r) (Fin c) α} {m : Mat α} (h : Represents m r c A) :
    ∃ toks : List α, printTokens m = some (r, c, toks) ∧ toks.length = r * c ∧
      ∀ (i : Fin r) (j : Fin c), toks[i.1 * c + j.1]? = some (A i j) := by
  obtain ⟨t, h1, h2, h3⟩ := loopN_inv
    (fun k (acc : List α) => acc.length = k * c ∧
      ∀ (i : Fin r) (j : Fin c), i.1 < k → acc[i.1 * c + j.1]? = some (A i j)) r
    (fun i acc => loopN c (fun j acc => do
      let x ← m.get i j
      some (acc ++ [x])) acc) [] (by simp) (by
      rintro k acc hk ⟨hl, hp⟩
      obtain ⟨t, h1, h2, h3⟩ := loopN_inv
        (fun l (acc : List α) => acc.length = k * c + l ∧
          ∀ (i : Fin r) (j : Fin c), i.1 < k ∨ (i.1 = k ∧ j.1 < l) →
            acc[i.1 * c + j.1]? = some (A i j)) c
        (fun j acc => do
          let x ← m.get k j
          some (acc ++ [x])) acc ⟨by simpa using hl, fun i j hij => hp i j (by omega)⟩ (by
          rintro l acc hl ⟨hlen, hq⟩
          refine ⟨acc ++ [A ⟨k, hk⟩ ⟨l, hl⟩], by simp [h.get hk hl], by simp [hlen]; omega, ?_⟩
          intro i j hij
          by_cases e : i.1 = k ∧ j.1 = l
          · obtain ⟨e1, e2⟩ := e
            rw [e1, e2, ← hlen]
            have e3 : i = ⟨k, hk⟩ := Fin.ext e1
            have e4 : j = ⟨l, hl⟩ := Fin.ext e2
            subst e3 e4
            simp
          · have hh := hq i j (by omega)
            rw [List.getElem?_append_left]
            · exact hh
            · exact (List.getElem?_eq_some_iff.1 hh).1)
      refine ⟨t, h1, by rw [h2]; ring, fun i j hij => h3 i j ?_⟩
      have := j.2
      omega)
  refine ⟨t, ?_, h2, fun i j => h3 i j i.2⟩
  unfold printTokens
  rw [h.nrow, h.ncol, h1]; rfl

theorem read_loop [Zero α] {r c : Nat} {A : Matrix (Fin r) (Fin c) α} {old : Mat α}
    (ho : old.nrow = 0 ∨ old.nrow = r) (toks : List α) (hl : toks.length = r * c)
    (ht : ∀ (i : Fin r) (j : Fin c), toks[i.1 * c + j.1]? = some (A i j)) :
    ∃ m, readTokens old r c toks = some m ∧ Represents m r c A := by
  obtain ⟨a, ha, hs⟩ := resize_shape (c := c) ho
  obtain ⟨⟨m, ts⟩, h1, h2, h3⟩ := loopN_inv
    (fun k (s : Mat α × List α) => Filled s.1 r c A (fun i _ => i.1 < k) ∧ s.2 = toks.drop (k * c)) r
    (fun j s => loopN c (fun i s => readStep j i s) s) (a, toks)
    ⟨⟨hs, by simp⟩, by simp⟩ (by
      rintro k ⟨m, ts⟩ hk ⟨hf, hts⟩
      obtain ⟨⟨m', ts'⟩, h1, h2, h3⟩ := loopN_inv
        (fun l (s : Mat α × List α) =>
          Filled s.1 r c A (fun i j => i.1 < k ∨ (i.1 = k ∧ j.1 < l)) ∧ s.2 = toks.drop (k * c + l)) c
        (fun i s => readStep k i s) (m, ts)
        ⟨hf.mono (by simp), by simpa using hts⟩ (by
          rintro l ⟨m, ts⟩ hl' ⟨hf, hts⟩
          simp only at hf hts
          have hlt : k * c + l < toks.length := by rw [hl]; exact tok_lt hk hl'
          have htk := ht ⟨k, hk⟩ ⟨l, hl'⟩
          simp only at htk
          rw [List.getElem?_eq_getElem hlt] at htk
          simp only [Option.some.injEq] at htk
          rw [List.drop_eq_getElem_cons hlt] at hts
          obtain ⟨m', h1, h2⟩ := hf.set ⟨k, hk⟩ ⟨l, hl'⟩ _ htk
          refine ⟨(m', toks.drop (k * c + l + 1)), ?_, h2.mono ?_, ?_⟩
          · simp only [readStep, hts]; rw [h1]; rfl
          · intro i j hij
            by_cases e : i.1 = k ∧ j.1 = l
            · exact Or.inr ⟨Fin.ext e.1, Fin.ext e.2⟩
            · left; omega
          · simp [Nat.add_assoc])
      refine ⟨(m', ts'), h1, h2.mono ?_, ?_⟩
      · intro i j hij; have := j.2; omega
      · simp only at h3; rw [h3, Nat.add_mul, Nat.one_mul])
  refine ⟨m, ?_, h2.rep fun i j => i.2⟩
  unfold readTokens
  rw [ha]
  simp only [bind, Option.bind_some]
  rw [hs.nrow, hs.ncol, h1]; rfl

end Verif.Dense
