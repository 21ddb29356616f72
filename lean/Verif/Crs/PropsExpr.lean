import Verif.Crs.ModelExpr
import Verif.Crs.Props
import Mathlib.LinearAlgebra.Matrix.Notation

/-!
# C101: expressions of sparse matrices
-/

namespace Verif.Crs

open Verif.Loop

variable {α : Type}

/-! ## Specification -/

/-- A matrix of some shape. -/
structure Val (α : Type) where
  r : Nat
  c : Nat
  M : Matrix (Fin r) (Fin c) α

/-- The object holds the matrix; an object that was never filled holds the one without rows and columns. -/
def Holds [AddCommMonoid α] (m : Crs α) (v : Val α) : Prop :=
  Represents m v.r v.c v.M ∨ (m = Crs.empty ∧ v.r = 0 ∧ v.c = 0)

/-- The values of the variables of a program with one of them changed. -/
def change (e : Nat → Val α) (x : Nat) (v : Val α) : Nat → Val α := fun y => if y = x then v else e y

/-- What a statement means for matrices.  Sums extend the smaller matrix by zeros. -/
inductive Means [CommRing α] : Stmt α → (Nat → Val α) → (Nat → Val α) → Prop
  | copy (e x y) : Means (.copy x y) e (change e x (e y))
  | mul (e x a y) : Means (.mul x a y) e (change e x ⟨_, _, a • (e y).M⟩)
  | scale (e x a) : Means (.scale x a) e (change e x ⟨_, _, a • (e x).M⟩)
  | plus (e x y n) (B : Matrix (Fin n) (Fin n) α) (h : e y = ⟨n, n, B⟩) (hr : 0 < max (e x).r n) (hc : 0 < max (e x).c n) :
      Means (.plus x y) e (change e x ⟨max (e x).r n, max (e x).c n, pad (e x).M _ _ + pad B _ _⟩)
  | plusMul (e x a y n) (B : Matrix (Fin n) (Fin n) α) (h : e y = ⟨n, n, B⟩) (hr : 0 < max (e x).r n) (hc : 0 < max (e x).c n) :
      Means (.plusMul x a y) e (change e x ⟨max (e x).r n, max (e x).c n, pad (e x).M _ _ + a • pad B _ _⟩)
  | plusMulProd (e x a y z n k) (A : Matrix (Fin n) (Fin k) α) (B : Matrix (Fin k) (Fin n) α) (h : e y = ⟨n, k, A⟩) (h' : e z = ⟨k, n, B⟩)
      (hn : 0 < n) (hk : 0 < k) :
      Means (.plusMulProd x a y z) e (change e x ⟨max (e x).r n, max (e x).c n, pad (e x).M _ _ + a • pad (A * B) _ _⟩)
  | prod (e x y z r k c) (A : Matrix (Fin r) (Fin k) α) (B : Matrix (Fin k) (Fin c) α) (h : e y = ⟨r, k, A⟩) (h' : e z = ⟨k, c, B⟩)
      (hr : 0 < r) (hk : 0 < k) (hc : 0 < c) : Means (.prod x y z) e (change e x ⟨r, c, A * B⟩)
  | swap (e x y) : Means (.swap x y) e (change (change e y (e x)) x (e y))
  | clear (e x) : Means (.clear x) e (change e x ⟨0, 0, 0⟩)

/-- A program: its statements one after the other. -/
inductive Meaning [CommRing α] : List (Stmt α) → (Nat → Val α) → (Nat → Val α) → Prop
  | nil (e) : Meaning [] e e
  | cons (p ps e e' e'') : Means p e e' → Meaning ps e' e'' → Meaning (p :: ps) e e''

/-! ## Proofs -/

theorem operatorPlus_empty [CommRing α] [DecidableEq α] (B : Crs α) (b c : α) :
    operatorPlus B b Crs.empty c = operatorPlus B b ⟨[0], [], [], 0, 0⟩ c ∧
    operatorPlus Crs.empty c B b = operatorPlus ⟨[0], [], [], 0, 0⟩ c B b := by
  constructor
  · unfold operatorPlus plusRow rowLoop? rowCount? nonZeros
    simp [Crs.empty]
  · unfold operatorPlus plusRow rowLoop? rowCount? nonZeros
    simp [Crs.empty]

theorem zero_represents [CommRing α] (M : Matrix (Fin 0) (Fin 0) α) : Represents (⟨[0], [], [], 0, 0⟩ : Crs α) 0 0 M :=
  ⟨⟨rfl, rfl, rfl, rfl, by simp, by simp⟩, rfl, rfl, fun i => i.elim0⟩

theorem add_spec [CommRing α] [DecidableEq α] {v : Val α} {n : Nat} {B C : Crs α} {MC : Matrix (Fin n) (Fin n) α}
    (hB : Holds B v) (hC : Holds C ⟨n, n, MC⟩) (a : α) (hr : 0 < max v.r n) (hc : 0 < max v.c n) :
    ∃ A, add B C a = some A ∧ Valid A ∧
      Represents A (max v.r n) (max v.c n) (pad v.M (max v.r n) (max v.c n) + a • pad MC (max v.r n) (max v.c n)) := by
  have key : ∀ {B C : Crs α}, Represents B v.r v.c v.M → Represents C n n MC → ∃ A, add B C a = some A ∧ Valid A ∧
      Represents A (max v.r n) (max v.c n) (pad v.M (max v.r n) (max v.c n) + a • pad MC (max v.r n) (max v.c n)) := by
    intro B C hB hC
    unfold add
    rw [if_neg (by rw [hC.nrow, hC.ncol]; simp), hB.nrow, hC.nrow]
    by_cases h : v.r ≥ n
    · rw [if_pos h]
      obtain ⟨A, h1, h2, h3, -⟩ := operatorPlus_spec hB hC 1 a hr hc
      rw [one_smul] at h3
      exact ⟨A, h1, h2, h3⟩
    · rw [if_neg h]
      obtain ⟨A, h1, h2, h3, -⟩ := operatorPlus_spec hC hB a 1 (by omega) (by omega)
      refine ⟨A, h1, h2, h3.wf, by rw [h3.nrow, max_comm], by rw [h3.ncol, max_comm], ?_⟩
      intro i j
      rw [h3.entry ⟨i, by omega⟩ ⟨j, by omega⟩]
      simp only [one_smul, Matrix.add_apply]
      rw [add_comm]
      rfl
  have hz : ∀ {m : Crs α} {w : Val α}, Holds m w → ∃ m', Represents m' w.r w.c w.M ∧ m'.nrow = m.nrow ∧ m'.ncol = m.ncol ∧
      ∀ D b c, operatorPlus D b m c = operatorPlus D b m' c ∧ operatorPlus m c D b = operatorPlus m' c D b := by
    intro m w h
    rcases h with h | ⟨rfl, h1, h2⟩
    · exact ⟨m, h, rfl, rfl, fun _ _ _ => ⟨rfl, rfl⟩⟩
    · obtain ⟨r, c, M⟩ := w
      simp only at h1 h2
      subst h1 h2
      exact ⟨_, zero_represents M, rfl, rfl, fun D b c => operatorPlus_empty D b c⟩
  obtain ⟨B', b1, b2, b3, b4⟩ := hz hB
  obtain ⟨C', c1, c2, c3, c4⟩ := hz hC
  have e : add B C a = add B' C' a := by
    unfold add
    rw [b2, c2, c3, (b4 C a 1).2, (b4 C a 1).1, (c4 B' 1 a).1, (c4 B' 1 a).2]
  rw [e]
  exact key b1 c1

theorem mulAssign_holds [CommRing α] {m : Crs α} {v : Val α} (h : Holds m v) (a : α) : Holds (mulAssign m a) ⟨v.r, v.c, a • v.M⟩ := by
  rcases h with h | ⟨rfl, h⟩
  · exact .inl (mulAssign_spec h a)
  · exact .inr ⟨rfl, h⟩

theorem set_holds [CommRing α] {s : Store α} {e : Nat → Val α} (h : ∀ x, Holds (s x) (e x)) (x : Nat) {m : Crs α} {v : Val α} (hm : Holds m v) :
    ∀ y, Holds (s.set x m y) (change e x v y) := by
  intro y
  unfold Store.set change
  split
  · exact hm
  · exact h y

theorem rep_of [CommRing α] {m : Crs α} {v : Val α} {r c : Nat} {M : Matrix (Fin r) (Fin c) α} (h : Holds m v) (e : v = ⟨r, c, M⟩)
    (hp : 0 < r ∨ 0 < c) : Represents m r c M := by
  subst e
  rcases h with h | ⟨-, h1, h2⟩
  · exact h
  · simp only at h1 h2; omega

/-- **C101** A statement with sparse matrices does what it means for matrices, whatever variables are the same. -/
theorem stmt_spec [CommRing α] [DecidableEq α] (p : Stmt α) (s : Store α) (e e' : Nat → Val α) (h : ∀ x, Holds (s x) (e x))
    (hm : Means p e e') : ∃ s', p.run s = some s' ∧ ∀ x, Holds (s' x) (e' x) := by
  cases hm with
  | copy _ x y => exact ⟨_, rfl, set_holds h x (h y)⟩
  | mul _ x a y => exact ⟨_, rfl, set_holds h x (mulAssign_holds (h y) a)⟩
  | scale _ x a => exact ⟨_, rfl, set_holds h x (mulAssign_holds (h x) a)⟩
  | plus _ x y n B hy hr hc =>
    obtain ⟨A, h1, -, h3⟩ := add_spec (h x) (hy ▸ h y) 1 hr hc
    rw [one_smul] at h3
    refine ⟨s.set x A, ?_, set_holds h x (.inl h3)⟩
    simp only [Stmt.run, addAssign, h1, Option.map_some]
  | plusMul _ x a y n B hy hr hc =>
    obtain ⟨A, h1, -, h3⟩ := add_spec (h x) (hy ▸ h y) a hr hc
    refine ⟨s.set x A, ?_, set_holds h x (.inl h3)⟩
    simp only [Stmt.run, Crs.plusMul, Factor.value, Option.bind_eq_bind, Option.bind_some, h1]
  | plusMulProd _ x a y z n k A B hy hz hn hk =>
    obtain ⟨P, p1, -, p3⟩ := multiply_spec hn hn (rep_of (h y) hy (.inl hn)) (rep_of (h z) hz (.inr hn))
    obtain ⟨C, h1, -, h3⟩ := add_spec (h x) (v := e x) (C := P) (MC := A * B) (.inl p3) a (by omega) (by omega)
    refine ⟨s.set x C, ?_, set_holds h x (.inl h3)⟩
    simp only [Stmt.run, Crs.plusMulProd, Factor.value, Option.bind_eq_bind, Option.bind_some, h1, p1]
  | prod _ x y z r k c A B hy hz hr hk hc =>
    obtain ⟨P, p1, -, p3⟩ := multiply_spec hr hc (rep_of (h y) hy (.inl hr)) (rep_of (h z) hz (.inr hc))
    refine ⟨s.set x P, ?_, set_holds h x (.inl p3)⟩
    simp only [Stmt.run, makeProd, Option.bind_eq_bind, Option.bind_some, p1]
  | swap _ x y =>
    refine ⟨_, rfl, ?_⟩
    intro z
    unfold Crs.swap change
    by_cases h1 : z = x
    · rw [if_pos h1, if_pos h1]; exact h y
    · rw [if_neg h1, if_neg h1]
      by_cases h2 : z = y
      · rw [if_pos h2, if_pos h2]; exact h x
      · rw [if_neg h2, if_neg h2]; exact h z
  | clear _ x => exact ⟨_, rfl, set_holds h x (.inr ⟨rfl, rfl, rfl⟩)⟩

/-- **C101** So does every program. -/
theorem program_spec [CommRing α] [DecidableEq α] (ps : List (Stmt α)) (s : Store α) (e e' : Nat → Val α) (h : ∀ x, Holds (s x) (e x))
    (hm : Meaning ps e e') : ∃ s', ps.foldlM (fun s p => p.run s) s = some s' ∧ ∀ x, Holds (s' x) (e' x) := by
  induction hm generalizing s with
  | nil e => exact ⟨s, rfl, h⟩
  | cons p ps e e1 e2 h1 _ ih =>
    obtain ⟨s1, a1, a2⟩ := stmt_spec p s e e1 h h1
    obtain ⟨s2, b1, b2⟩ := ih s1 a2
    exact ⟨s2, by rw [List.foldlM_cons, a1]; exact b1, b2⟩

/-! ## Equality -/

/-- Columns in order, no zeros stored. -/
def Canonical [Zero α] (m : Crs α) : Prop :=
  Wf m ∧ ∀ i, i < m.nrow → ((row m i).map fun p => p.1).Pairwise (· < ·) ∧ ∀ p ∈ row m i, p.2 ≠ 0

theorem sumAt_mem [AddCommMonoid α] (l : List (Nat × α)) (hs : (l.map fun p => p.1).Pairwise (· < ·)) (j : Nat) (v : α) (h : (j, v) ∈ l) :
    sumAt l j = v := by
  induction l with
  | nil => simp at h
  | cons p l ih =>
    rw [List.map_cons, List.pairwise_cons] at hs
    rw [sumAt_cons]
    rcases List.mem_cons.1 h with h | h
    · subst h
      have : sumAt l j = 0 := by
        unfold sumAt
        rw [List.filter_eq_nil_iff.2]
        · simp
        · intro q hq
          have := hs.1 q.1 (List.mem_map_of_mem hq)
          simp; omega
      simp [this]
    · have := hs.1 j (List.mem_map.2 ⟨_, h, rfl⟩)
      rw [if_neg (by omega), ih hs.2 h]
      simp

theorem sumAt_zero [AddCommMonoid α] (l : List (Nat × α)) (j : Nat) (h : sumAt l j ≠ 0) : ∃ v, (j, v) ∈ l := by
  unfold sumAt at h
  by_contra hc
  push_neg at hc
  apply h
  rw [List.filter_eq_nil_iff.2]
  · simp
  · intro q hq
    simp only [decide_eq_true_eq]
    rintro rfl
    exact hc q.2 hq

theorem sorted_ext [AddCommMonoid α] (l l' : List (Nat × α)) (hs : (l.map fun p => p.1).Pairwise (· < ·)) (hs' : (l'.map fun p => p.1).Pairwise (· < ·))
    (hz : ∀ p ∈ l, p.2 ≠ 0) (hz' : ∀ p ∈ l', p.2 ≠ 0) (h : ∀ j, sumAt l j = sumAt l' j) : l = l' := by
  have sub : ∀ {l l' : List (Nat × α)}, (l.map fun p => p.1).Pairwise (· < ·) → (l'.map fun p => p.1).Pairwise (· < ·) →
      (∀ p ∈ l, p.2 ≠ 0) → (∀ j, sumAt l j = sumAt l' j) → ∀ p ∈ l, p ∈ l' := by
    intro l l' hs hs' hz h p hp
    have e := sumAt_mem l hs p.1 p.2 hp
    obtain ⟨v, hv⟩ := sumAt_zero l' p.1 (by rw [← h, e]; exact hz p hp)
    have e' := sumAt_mem l' hs' p.1 v hv
    rw [← h, e] at e'
    rw [show p = (p.1, v) by rw [← e']]
    exact hv
  have hp : ∀ {l : List (Nat × α)}, (l.map fun p => p.1).Pairwise (· < ·) → l.Pairwise (fun p q => p.1 < q.1) := by
    intro l h
    exact List.pairwise_map.1 h
  refine List.Perm.eq_of_pairwise (le := fun p q : Nat × α => p.1 < q.1) ?_ (hp hs) (hp hs') ?_
  · intro a b _ _ h1 h2
    exact absurd h1 (by omega)
  · have nd : ∀ {l : List (Nat × α)}, (l.map fun p => p.1).Pairwise (· < ·) → l.Nodup := by
      intro l h
      exact (hp h).imp (fun h e => by rw [e] at h; exact lt_irrefl _ h)
    exact (List.perm_ext_iff_of_nodup (nd hs) (nd hs')).2 fun p =>
      ⟨sub hs hs' hz h p, sub hs' hs hz' (fun j => (h j).symm) p⟩

theorem canonical_ext [AddCommMonoid α] {a b : Crs α} (ha : Canonical a) (hb : Canonical b) (hr : a.nrow = b.nrow) (hc : a.ncol = b.ncol)
    (h : ∀ i j, i < a.nrow → j < a.ncol → entry a i j = entry b i j) : a = b := by
  have hrow : ∀ i, i < a.nrow → row a i = row b i := by
    intro i hi
    have ha' := ha.2 i hi
    have hb' := hb.2 i (hr ▸ hi)
    refine sorted_ext _ _ ha'.1 hb'.1 ha'.2 hb'.2 ?_
    intro j
    by_cases hj : j < a.ncol
    · exact h i j hi hj
    · exact (entry_out_col ha.1 i j (by omega)).trans (entry_out_col hb.1 i j (by omega)).symm
  have h1 := ha.1.isRows
  have h2 := hb.1.isRows
  have e : (List.range a.nrow).map (row a) = (List.range b.nrow).map (row b) := by
    rw [← hr]
    exact List.map_congr_left fun i hi => hrow i (List.mem_range.1 hi)
  rw [e] at h1
  have hp : a.rowptr = b.rowptr := by
    apply List.ext_getElem?
    intro j
    by_cases hj : j ≤ a.nrow
    · rw [h1.ptrs j hj, h2.ptrs j (by omega)]
    · rw [List.getElem?_eq_none (by rw [h1.plen]; omega), List.getElem?_eq_none (by rw [h2.plen]; omega)]
  have h3 := h1.cols.trans h2.cols.symm
  have h4 := h1.vals.trans h2.vals.symm
  cases a; cases b
  simp only at hp h3 h4 hr hc
  subst hp h3 h4 hr hc
  rfl

/-- **C101** `operator==` says that the matrices are the same; for matrices with the columns in order and without stored zeros,
exactly if they are. -/
theorem equal_iff [AddCommMonoid α] [DecidableEq α] {r c r' c' : Nat} {A : Matrix (Fin r) (Fin c) α} {B : Matrix (Fin r') (Fin c') α} {a b : Crs α}
    (ha : Represents a r c A) (hb : Represents b r' c' B) :
    (equal a b = true → (⟨r, c, A⟩ : Val α) = ⟨r', c', B⟩) ∧
    (Canonical a → Canonical b → (equal a b = true ↔ (⟨r, c, A⟩ : Val α) = ⟨r', c', B⟩)) := by
  have eq : equal a b = true ↔ a = b := by
    unfold equal
    rw [decide_eq_true_eq]
    constructor
    · rintro ⟨h1, h2, h3, h4, h5⟩
      cases a; cases b
      simp only at h1 h2 h3 h4 h5
      subst h1 h2 h3 h4 h5
      rfl
    · rintro rfl
      exact ⟨rfl, rfl, rfl, rfl, rfl⟩
  have fwd : equal a b = true → (⟨r, c, A⟩ : Val α) = ⟨r', c', B⟩ := by
    intro h
    have := eq.1 h
    subst this
    have e1 := ha.nrow.symm.trans hb.nrow
    have e2 := ha.ncol.symm.trans hb.ncol
    subst e1 e2
    have : A = B := by
      ext i j
      rw [← ha.entry i j, ← hb.entry i j]
    rw [this]
  refine ⟨fwd, fun h1 h2 => ⟨fwd, ?_⟩⟩
  intro h
  simp only [Val.mk.injEq] at h
  obtain ⟨rfl, rfl, h⟩ := h
  rw [heq_eq_eq] at h
  subst h
  refine eq.2 (canonical_ext h1 h2 (ha.nrow.trans hb.nrow.symm) (ha.ncol.trans hb.ncol.symm) ?_)
  intro i j hi hj
  rw [ha.nrow] at hi
  rw [ha.ncol] at hj
  exact (ha.entry ⟨i, hi⟩ ⟨j, hj⟩).trans (hb.entry ⟨i, hi⟩ ⟨j, hj⟩).symm

/-! ## Examples and failures -/

/-- Three matrices. -/
def three : Store Int
  | 0 => ⟨[0, 1, 2], [1, 0], [2, 3], 2, 2⟩
  | 1 => ⟨[0, 2, 3], [0, 1, 1], [1, 4, 5], 2, 2⟩
  | _ => Crs.empty

/-- A program. -/
def prog : List (Stmt Int) := [.plusMul 2 3 0, .plusMulProd 0 1 0 1, .prod 1 0 2, .swap 0 1, .plus 0 0]

example : (prog.foldlM (fun s (p : Stmt Int) => p.run s) three).map (fun s => ((s 0).values, (s 1).values, (s 2).values)) =
    some ([216, 72, 216], [12, 6, 12], [6, 9]) := by decide +kernel

/-- The values of the three matrices. -/
def threeVals : Nat → Val Int
  | 0 => ⟨2, 2, !![0, 2; 3, 0]⟩
  | 1 => ⟨2, 2, !![1, 4; 0, 5]⟩
  | _ => ⟨0, 0, 0⟩

example : (∀ x, Holds (three x) (threeVals x)) ∧ ∃ e, Meaning prog threeVals e := by
  refine ⟨?_, _, .cons _ _ _ _ _ (.plusMul _ 2 3 0 2 _ rfl (by decide) (by decide)) (.cons _ _ _ _ _
    (.plusMulProd _ 0 1 0 1 2 2 _ _ rfl rfl (by decide) (by decide)) (.cons _ _ _ _ _
      (.prod _ 1 0 2 2 2 2 _ _ rfl rfl (by decide) (by decide) (by decide)) (.cons _ _ _ _ _ (.swap _ 0 1) (.cons _ _ _ _ _
        (.plus _ 0 0 2 _ rfl (by decide) (by decide)) (.nil _)))))⟩
  intro x
  match x with
  | 0 => exact .inl ⟨⟨rfl, rfl, rfl, rfl, by decide, by decide⟩, rfl, rfl, by
    intro i j
    exact (show ∀ (i j : Fin 2), (entry (three 0) i.1 j.1 : Int) = (!![0, 2; 3, 0] : Matrix (Fin 2) (Fin 2) Int) i j from
      Fin.forall_fin_two.2 ⟨Fin.forall_fin_two.2 ⟨rfl, rfl⟩, Fin.forall_fin_two.2 ⟨rfl, rfl⟩⟩) i j⟩
  | 1 => exact .inl ⟨⟨rfl, rfl, rfl, rfl, by decide, by decide⟩, rfl, rfl, by
    intro i j
    exact (show ∀ (i j : Fin 2), (entry (three 1) i.1 j.1 : Int) = (!![1, 4; 0, 5] : Matrix (Fin 2) (Fin 2) Int) i j from
      Fin.forall_fin_two.2 ⟨Fin.forall_fin_two.2 ⟨rfl, rfl⟩, Fin.forall_fin_two.2 ⟨rfl, rfl⟩⟩) i j⟩
  | n + 2 => exact .inr ⟨rfl, rfl, rfl⟩

/-- **C101** A stored zero, or another order of the columns, makes equal matrices different. -/
theorem equal_fails : (∃ a b : Crs Int, Valid a ∧ Valid b ∧ a.nrow = b.nrow ∧ a.ncol = b.ncol ∧ (∀ i j, entry a i j = entry b i j) ∧
    equal a b = false) := by
  refine ⟨⟨[0, 1], [0], [0], 1, 1⟩, ⟨[0, 0], [], [], 1, 1⟩, ⟨⟨rfl, rfl, rfl, rfl, by decide, by decide⟩, by decide⟩,
    ⟨⟨rfl, rfl, rfl, rfl, by decide, by decide⟩, by decide⟩, rfl, rfl, ?_, by decide⟩
  intro i j
  cases i with
  | zero =>
    show sumAt [(0, (0 : Int))] j = sumAt [] j
    by_cases h : 0 = j
    · subst h; decide
    · rw [sumAt_cons, if_neg h]; simp
  | succ i => simp [entry, row, ptr, sumAt]

/-- **C101** `x = x.getValue(k) * x`: the factor changes while it is used. -/
theorem own_factor_fails : (assignMul three 0 (.elem 0 0) 0).map (fun s => (s 0).values) = some [4, 12] ∧
    (assignMul three 2 (.elem 0 0) 0).map (fun s => (s 2).values) = some [4, 6] := by decide +kernel

/-- **C101** The sums use the factor before anything changes. -/
theorem plus_factor [CommRing α] [DecidableEq α] (s : Store α) (x y z k : Nat) (a : α) (h : (s z).values[k]? = some a) :
    plusMul s x (.elem z k) y = (Stmt.plusMul x a y).run s := by
  simp only [Stmt.run, plusMul, Factor.value, h]

/-- **C101** `setCol_check(n, v)` and `setValues_check(n, v)` with `n` the next free position are out of range, and with the position
after it they store at `n - 1`. -/
theorem set_check_fails (m : Crs α) (v : Nat) (x : α) :
    setColCheck m m.colind.length v = none ∧ setValuesCheck m m.values.length x = none ∧
    setColCheck m (m.colind.length + 1) v = some { m with colind := m.colind ++ [v] } ∧
    setValuesCheck m (m.values.length + 1) x = some { m with values := m.values ++ [x] } := by
  refine ⟨?_, ?_, by simp [setColCheck], by simp [setValuesCheck]⟩
  · simp [setColCheck, setCol, setAt]
  · simp [setValuesCheck, setValues, setAt]

theorem first_rep : Represents (three 0) 2 2 !![0, 2; 3, 0] :=
  ⟨⟨rfl, rfl, rfl, rfl, by decide, by decide⟩, rfl, rfl, by intro i j; fin_cases i <;> fin_cases j <;> rfl⟩
theorem second_rep : Represents (three 1) 2 2 !![1, 4; 0, 5] :=
  ⟨⟨rfl, rfl, rfl, rfl, by decide, by decide⟩, rfl, rfl, by intro i j; fin_cases i <;> fin_cases j <;> rfl⟩

example := equal_iff first_rep second_rep
example := plus_factor three 0 1 0 1 3 rfl

end Verif.Crs
