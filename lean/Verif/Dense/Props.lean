import Verif.Dense.Lemmas
import Mathlib.LinearAlgebra.Matrix.Kronecker
import Mathlib.Data.Complex.Basic
import Mathlib.Tactic.NormNum

/-!
# C19 — operations of the dense matrix class

`Represents m r c A` (Spec) ties the object `m` to Mathlib's matrix `A`; every operation is
stated as "it succeeds, and the result represents the corresponding matrix".
-/

namespace Verif.Dense

open Verif.Loop Matrix

variable {α : Type}

/-- Reading after writing: `m(i,j) = a` changes exactly the element `(i,j)`; so the
elements of a matrix are independent storage cells. -/
theorem get_set {r c : Nat} {A : Matrix (Fin r) (Fin c) α} {m : Mat α} (h : Represents m r c A)
    (i : Fin r) (j : Fin c) (a : α) :
    ∃ m', m.set i j a = some m' ∧
      Represents m' r c (fun i' j' => if i' = i ∧ j' = j then a else A i' j') := by
  obtain ⟨m', h1, h2, h3, h4⟩ := h.shape.set i.2 j.2 a
  refine ⟨m', h1, h2.nrow, h2.ncol, h2.size, ?_⟩
  intro i' j'
  by_cases he : i' = i ∧ j' = j
  · obtain ⟨rfl, rfl⟩ := he; simpa using h3
  · rw [h4 i' j' i'.2 j'.2 (by by_contra hc; push Not at hc; exact he ⟨Fin.ext hc.1, Fin.ext hc.2⟩),
      if_neg he]
    exact h.entry i' j'

/-- Access outside the dimensions is detected. -/
theorem get_out_of_range (m : Mat α) (i j : Nat) (h : ¬ (i < m.nrow ∧ j < m.ncol)) :
    m.get i j = none := by simp [Mat.get, h]

/-- Constructors. -/
theorem mk0_rep [Zero α] (r c : Nat) : Represents (Mat.mk0 r c : Mat α) r c 0 :=
  ⟨rfl, rfl, by simp [Mat.mk0], fun i j => by rw [shape_mk0_get i.2 j.2]; rfl⟩

theorem mkVal_rep (r c : Nat) (v : α) : Represents (Mat.mkVal r c v) r c (fun _ _ => v) :=
  Represents.of_data ⟨rfl, rfl, by simp [Mat.mkVal]⟩ fun i j => by
    simp [Mat.mkVal, idx_lt i.2 j.2]

/-- The constructor from a vector reads it column by column, and refuses a short vector. -/
theorem ofData_rep (d : List α) (r c : Nat) :
    (d.length < r * c → Mat.ofData d r c = none) ∧
    (∀ h : r * c ≤ d.length, ∃ m, Mat.ofData d r c = some m ∧
      Represents m r c (fun i j => d[i.1 + j.1 * r]'(lt_of_lt_of_le (idx_lt i.2 j.2) h))) := by
  refine ⟨fun h => if_pos h, fun h => ⟨_, if_neg (by omega), Represents.of_data
    ⟨rfl, rfl, by simp [h]⟩ fun i j => ?_⟩⟩
  have := idx_lt i.2 j.2
  simp [List.getElem?_take, this, List.getElem?_eq_getElem (lt_of_lt_of_le this h)]

example : ∃ m, Mat.ofData [1, 2, 3, 4, 5, (6 : Nat)] 2 3 = some m ∧
    Represents m 2 3 !![1, 3, 5; 2, 4, 6] := by
  refine ⟨_, rfl, rfl, rfl, rfl, ?_⟩
  decide

/-- `operator==` is equality of the represented matrices. -/
theorem eq_iff {r c : Nat} {A B : Matrix (Fin r) (Fin c) α} {m m' : Mat α} (h : Represents m r c A)
    (h' : Represents m' r c B) : m = m' ↔ A = B := by
  constructor
  · rintro rfl
    ext i j
    have := (h.entry i j).symm.trans (h'.entry i j)
    exact Option.some.inj this
  · rintro rfl; exact h.unique h'

/-- Every correctly sized object represents exactly one matrix. -/
theorem rep_exists_unique (m : Mat α) (h : m.data.length = m.nrow * m.ncol) :
    ∃! A, Represents m m.nrow m.ncol A := by
  obtain ⟨A, hA⟩ := Shape.exists_rep ⟨rfl, rfl, h⟩
  refine ⟨A, hA, fun B hB => ((eq_iff hB hA).1 rfl)⟩

theorem conjugate_rep [Star α] {r c : Nat} {A : Matrix (Fin r) (Fin c) α} {m : Mat α}
    (h : Represents m r c A) : Represents m.conjugate r c (A.map star) :=
  Represents.of_data ⟨h.nrow, h.ncol, by simp [Mat.conjugate, h.size]⟩ fun i j => by
    simp [Mat.conjugate, h.data]

theorem addAssign_rep [Add α] {r c : Nat} {A B : Matrix (Fin r) (Fin c) α} {m o : Mat α}
    (h : Represents m r c A) (h' : Represents o r c B) :
    ∃ m', m.addAssign o = some m' ∧ Represents m' r c (A + B) := by
  obtain ⟨d', h1, h2, h3⟩ := loop_upd (min m.data.length o.data.length) (· + ·) o.data m.data
    (by simp) (by simp)
  refine ⟨{ m with data := d' }, ?_, Represents.of_data ⟨h.nrow, h.ncol, by simp [h2, h.size]⟩ ?_⟩
  · unfold Mat.addAssign
    rw [if_neg (by simp [h.size, h.nrow, h.ncol, Nat.mul_comm])]
    simp only [bind, h1]; rfl
  · intro i j
    simp only [h3, h.size, h'.size, min_self, idx_lt i.2 j.2, if_true, h.data, h'.data]
    rfl

theorem subAssign_rep [Sub α] {r c : Nat} {A B : Matrix (Fin r) (Fin c) α} {m o : Mat α}
    (h : Represents m r c A) (h' : Represents o r c B) :
    ∃ m', m.subAssign o = some m' ∧ Represents m' r c (A - B) := by
  have e : m.ncol * m.nrow = r * c := by rw [h.nrow, h.ncol, Nat.mul_comm]
  obtain ⟨d', h1, h2, h3⟩ := loop_upd (m.ncol * m.nrow) (· - ·) o.data m.data
    (by rw [e, h.size]) (by rw [e, h'.size])
  refine ⟨{ m with data := d' }, ?_, Represents.of_data ⟨h.nrow, h.ncol, by simp [h2, h.size]⟩ ?_⟩
  · unfold Mat.subAssign
    simp only [bind, h1]; rfl
  · intro i j
    simp only [h3, e, idx_lt i.2 j.2, if_true, h.data, h'.data]
    rfl

theorem mulAssign_rep [Mul α] {r c : Nat} {A : Matrix (Fin r) (Fin c) α} {m : Mat α}
    (h : Represents m r c A) (t : α) :
    ∃ m', m.mulAssign t = some m' ∧ Represents m' r c (A.map (· * t)) := by
  have e : m.ncol * m.nrow = r * c := by rw [h.nrow, h.ncol, Nat.mul_comm]
  obtain ⟨d', h1, h2, h3⟩ := loop_upd (m.ncol * m.nrow) (fun x _ => x * t) m.data m.data
    (by rw [e, h.size]) (by rw [e, h.size])
  refine ⟨{ m with data := d' }, ?_, Represents.of_data ⟨h.nrow, h.ncol, by simp [h2, h.size]⟩ ?_⟩
  · unfold Mat.mulAssign
    rw [loopN_congr _ _ (fun i d => (m.data[i]?).bind fun y => updAt d i (fun x => x * t)), h1]
    · rfl
    · intro i d hi
      rw [List.getElem?_eq_getElem (by rw [h.size]; omega)]; rfl
  · intro i j
    simp only [h3, e, idx_lt i.2 j.2, if_true, h.data]
    rfl

theorem setTo_rep {r c : Nat} {A : Matrix (Fin r) (Fin c) α} {m : Mat α}
    (h : Represents m r c A) (v : α) : Represents (m.setTo v) r c (fun _ _ => v) :=
  Represents.of_data ⟨h.nrow, h.ncol, by simp [Mat.setTo, h.size]⟩ fun i j => by
    simp [Mat.setTo, List.getElem?_replicate, h.size, idx_lt i.2 j.2]

theorem setToIdentity_rep [Zero α] [One α] {n : Nat} {A : Matrix (Fin n) (Fin n) α} {m : Mat α}
    (h : Represents m n n A) : ∃ m', m.setToIdentity = some m' ∧ Represents m' n n 1 := by
  have h0 := setTo_rep h (0 : α)
  obtain ⟨m', h1, h2⟩ := fill_loop (A := (1 : Matrix (Fin n) (Fin n) α)) n
    (fun i a => a.set i i 1) (fun k i j => i = k ∧ j = k)
    (by
      intro k m P hP
      exact hP.set k k 1 (by simp)) (m.setTo 0) (fun i j => i ≠ j)
    ⟨h0.shape, fun i j hij => by rw [h0.entry, Matrix.one_apply_ne hij]⟩
  refine ⟨m', ?_, h2.rep fun i j => ?_⟩
  · unfold Mat.setToIdentity
    rw [if_neg (by simp [h.nrow, h.ncol]), h.nrow]; exact h1
  · by_cases e : i = j
    · right; exact ⟨i, rfl, e.symm⟩
    · left; exact e

/-- A non-square matrix is refused. -/
theorem setToIdentity_nonsquare [Zero α] [One α] (m : Mat α) (h : m.nrow ≠ m.ncol) :
    m.setToIdentity = none := if_pos h

theorem scale_rep [Mul α] {r c : Nat} {A : Matrix (Fin r) (Fin c) α} {m : Mat α}
    (h : Represents m r c A) (t : α) : Represents (scale t m) r c (A.map (t * ·)) :=
  Represents.of_data ⟨h.nrow, h.ncol, by simp [scale, h.size]⟩ fun i j => by
    simp [scale, h.data]

theorem add_rep [Add α] {r c : Nat} {A B : Matrix (Fin r) (Fin c) α} {m o : Mat α}
    (h : Represents m r c A) (h' : Represents o r c B) :
    ∃ m', add m o = some m' ∧ Represents m' r c (A + B) := by
  refine ⟨_, if_neg ?_, Represents.of_data ⟨h.nrow, h.ncol, by simp [h.size, h'.size]⟩ fun i j => ?_⟩
  · simp [h.nrow, h.ncol, h'.nrow, h'.ncol, h.size, h'.size]
  · simp [List.getElem?_zipWith, h.data, h'.data]

theorem sub_rep [Sub α] {r c : Nat} {A B : Matrix (Fin r) (Fin c) α} {m o : Mat α}
    (h : Represents m r c A) (h' : Represents o r c B) :
    ∃ m', sub m o = some m' ∧ Represents m' r c (A - B) := by
  refine ⟨_, if_neg ?_, Represents.of_data ⟨h.nrow, h.ncol, by simp [h.size, h'.size]⟩ fun i j => ?_⟩
  · simp [h.nrow, h.ncol, h'.nrow, h'.ncol, h.size, h'.size]
  · simp [List.getElem?_zipWith, h.data, h'.data]

/-- `t1 * a * b` is the matrix product. -/
theorem matrixMatrix_rep [CommRing α] {r n c : Nat} {A : Matrix (Fin r) (Fin n) α}
    {B : Matrix (Fin n) (Fin c) α} {a b : Mat α} (h : Represents a r n A) (h' : Represents b n c B)
    (t : α) : ∃ m, matrixMatrix a b t = some m ∧ Represents m r c (t • (A * B)) := by
  obtain ⟨m', h1, h2⟩ := fill_double (A := t • (A * B)) (Mat.mk0 r c) (shape_mk0 r c)
    (fun i j => (dotRowCol a b i j).map (· * t)) (by
      intro i j
      have : dotRowCol a b i j = some (∑ k, A i k * B k j) := by
        unfold dotRowCol
        rw [h.ncol, loopN_sum n _ (fun k => A i k * B k j) (fun k => by
          simp [h.entry, h'.entry])]
        simp
      rw [this]
      simp [Matrix.mul_apply, mul_comm])
  refine ⟨m', ?_, h2⟩
  unfold matrixMatrix
  rw [if_neg (by simp [h.ncol, h'.nrow]), h.nrow, h'.ncol, ← h1]
  congr 1; funext i m; congr 1; funext j m
  simp [bind, Option.bind_map, Function.comp_def]

/-- Matrices that do not fit are detected. -/
theorem matrixMatrix_mismatch [CommRing α] (a b : Mat α) (t : α) (h : a.ncol ≠ b.nrow) :
    matrixMatrix a b t = none := if_pos h

example : matrixMatrix (⟨2, 3, [1, 2, 3, 4, 5, 6]⟩ : Mat Int) ⟨3, 2, [1, 0, 1, 2, 1, 0]⟩ 10
    = some ⟨2, 2, [60, 80, 50, 80]⟩ := by decide

theorem mulVec_rep [CommRing α] {r c : Nat} {A : Matrix (Fin r) (Fin c) α} {a : Mat α}
    (h : Represents a r c A) (x : Fin c → α) :
    mulVec a (List.ofFn x) = some (List.ofFn (A *ᵥ x)) := by
  unfold mulVec
  rw [if_neg (by simp [h.ncol])]
  rw [h.nrow]
  exact fill_vec (A *ᵥ x) _ (fun i => by
    rw [List.length_ofFn, loopN_sum c _ (fun k => A i k * x k) (fun k => by simp [h.entry])]
    simp [Matrix.mulVec, dotProduct]) _ (by simp)

theorem vecMul_rep [CommRing α] {r c : Nat} {A : Matrix (Fin r) (Fin c) α} {a : Mat α}
    (h : Represents a r c A) (x : Fin r → α) :
    vecMul (List.ofFn x) a = some (List.ofFn (x ᵥ* A)) := by
  unfold vecMul
  rw [if_neg (by simp [h.nrow])]
  rw [h.ncol]
  exact fill_vec (x ᵥ* A) _ (fun i => by
    rw [List.length_ofFn, loopN_sum r _ (fun k => x k * A k i) (fun k => by simp [h.entry])]
    simp [Matrix.vecMul, dotProduct]) _ (by simp)

theorem transposeLoop_rep {r c : Nat} {A : Matrix (Fin r) (Fin c) α} {m m2 : Mat α}
    (f : α → α) (h : Represents m r c A) (h2 : Shape m2 c r) :
    ∃ m', transposeLoop f m2 m = some m' ∧ Represents m' c r (Aᵀ.map f) := by
  obtain ⟨m', h1, h3⟩ := fill_double (A := Aᵀ.map f) m2 h2 (fun i j => (m.get j i).map f)
    (by intro i j; simp [h.entry])
  refine ⟨m', ?_, h3⟩
  unfold transposeLoop
  rw [h2.nrow, h2.ncol, ← h1]
  congr 1; funext i m; congr 1; funext j m
  simp [bind, Option.bind_map, Function.comp_def]

theorem transposeConjugate_rep [CommRing α] [StarRing α] {r c : Nat} {A : Matrix (Fin r) (Fin c) α}
    {m : Mat α} (h : Represents m r c A) :
    ∃ m', transposeConjugate m = some m' ∧ Represents m' c r Aᴴ := by
  unfold transposeConjugate
  rw [h.nrow, h.ncol]
  exact transposeLoop_rep star h (shape_mk0 c r)

/-- The in-place variants, for a destination that is empty or has the right number of rows
(its old contents do not matter). -/
theorem transposeConjugateInto_rep [CommRing α] [StarRing α] {r c : Nat}
    {A : Matrix (Fin r) (Fin c) α} {m m2 : Mat α} (h : Represents m r c A)
    (h2 : m2.nrow = 0 ∨ m2.nrow = c) :
    ∃ m', transposeConjugateInto m2 m = some m' ∧ Represents m' c r Aᴴ := by
  unfold transposeConjugateInto
  rw [h.nrow, h.ncol]
  obtain ⟨m3, h3, h4⟩ := resize_shape (c := r) h2
  rw [h3]
  exact transposeLoop_rep star h h4

theorem transposeInto_rep [Zero α] {r c : Nat} {A : Matrix (Fin r) (Fin c) α} {m m2 : Mat α}
    (h : Represents m r c A) (h2 : m2.nrow = 0 ∨ m2.nrow = c) :
    ∃ m', transposeInto m2 m = some m' ∧ Represents m' c r Aᵀ := by
  unfold transposeInto
  rw [h.nrow, h.ncol]
  obtain ⟨m3, h3, h4⟩ := resize_shape (c := r) h2
  rw [h3]
  exact transposeLoop_rep id h h4

/-- Otherwise `resize` throws. -/
theorem transposeInto_wrong_rows [Zero α] (m m2 : Mat α) (h : m2.nrow > 0 ∧ m2.nrow ≠ m.ncol) :
    transposeInto m2 m = none := by
  simp [transposeInto, Mat.resize, h]

/-- `multiplyTransposeConjugate(O1, O2)` is `O1† O2` for square matrices. -/
theorem multiplyTransposeConjugate_rep [CommRing α] [StarRing α] {n : Nat}
    {A B : Matrix (Fin n) (Fin n) α} {a b : Mat α} (h : Represents a n n A)
    (h' : Represents b n n B) :
    ∃ m, multiplyTransposeConjugate a b star = some m ∧ Represents m n n (Aᴴ * B) := by
  unfold multiplyTransposeConjugate
  rw [h.nrow]
  refine acc_double (mk0_rep n n) (Aᴴ * B) (fun s t m => loopN n (fun w m => do
    let x ← a.get w s
    let y ← b.get w t
    m.addTo s t (star x * y)) m) ?_
  intro i j m M hM
  obtain ⟨m', h1, h2⟩ := acc_loop hM i j n
    (fun w => (a.get w i).bind fun x => (b.get w j).map fun y => star x * y)
    (fun k => star (A k i) * B k j) (fun k => by simp [h.entry, h'.entry])
  refine ⟨m', ?_, ?_⟩
  · rw [← h1]
    congr 1; funext w m
    cases ha : a.get w i <;> cases hb : b.get w j <;> simp [ha, hb]
  · exact h2.congr fun i' j' => by simp [Matrix.mul_apply, Matrix.conjTranspose_apply]

/-- The same for a rectangular `O1` reads out of range or stops short: the code uses
`O1.rows()` for all three loops. -/
theorem multiplyTransposeConjugate_rect_fails :
    ∃ (a b : Mat Int) (A B : Matrix (Fin 1) (Fin 2) Int), Represents a 1 2 A ∧ Represents b 1 2 B ∧
      ∃ m, multiplyTransposeConjugate a b star = some m ∧ ¬ Represents m 2 2 (Aᴴ * B) := by
  refine ⟨⟨1, 2, [1, 2]⟩, ⟨1, 2, [1, 2]⟩, !![1, 2], !![1, 2], ⟨rfl, rfl, rfl, by decide⟩,
    ⟨rfl, rfl, rfl, by decide⟩, _, rfl, ?_⟩
  intro h
  exact absurd h.nrow (by decide)

/-- `outerProduct(A, B, C)`: the Kronecker product with the row (column) index of `B`
running fastest. -/
theorem outerProduct_rep [CommRing α] {r c r' c' : Nat} {B : Matrix (Fin r) (Fin c) α}
    {C : Matrix (Fin r') (Fin c') α} {a b m : Mat α} (h : Represents b r c B)
    (h' : Represents m r' c' C) (ha : a.nrow = 0 ∨ a.nrow = r * r') :
    ∃ p M, outerProduct a b m = some p ∧ Represents p (r * r') (c * c') M ∧
      ∀ (i1 : Fin r) (j1 : Fin c) (i2 : Fin r') (j2 : Fin c'),
        M ⟨i1 + i2 * r, idx_lt i1.2 i2.2⟩ ⟨j1 + j2 * c, idx_lt j1.2 j2.2⟩ = B i1 j1 * C i2 j2 := by
  by_cases hr0 : 0 < r
  swap
  · have : r = 0 := by omega
    subst this
    obtain ⟨p, h1, h2⟩ := resize_shape (m := a) (r := 0 * r') (c := c * c') ha
    obtain ⟨M, hM⟩ := h2.exists_rep
    refine ⟨p, M, ?_, hM, fun i1 => i1.elim0⟩
    unfold outerProduct
    rw [h.nrow, h.ncol, h'.nrow, h'.ncol, h1]; rfl
  by_cases hc0 : 0 < c
  swap
  · have : c = 0 := by omega
    subst this
    obtain ⟨p, h1, h2⟩ := resize_shape (m := a) (r := r * r') (c := 0 * c') ha
    obtain ⟨M, hM⟩ := h2.exists_rep
    refine ⟨p, M, ?_, hM, fun _ j1 => j1.elim0⟩
    unfold outerProduct
    rw [h.nrow, h.ncol, h'.nrow, h'.ncol, h1]
    simp only [bind, Option.bind_some]
    have : ∀ n s, loopN n (fun _ s => some s) s = some s := fun n (s : Mat α) => by
      rw [loopN_pure n _ (fun _ s => s) s (fun i s _ => rfl)]; simp
    exact this _ _
  obtain ⟨p, h1, h2⟩ := resize_shape (m := a) (r := r * r') (c := c * c') ha
  let M : Matrix (Fin (r * r')) (Fin (c * c')) α := fun I J =>
    B ⟨I % r, Nat.mod_lt _ hr0⟩ ⟨J % c, Nat.mod_lt _ hc0⟩ *
    C ⟨I / r, Nat.div_lt_of_lt_mul I.2⟩
      ⟨J / c, Nat.div_lt_of_lt_mul J.2⟩
  have hM : ∀ (i1 : Fin r) (j1 : Fin c) (i2 : Fin r') (j2 : Fin c'),
        M ⟨i1 + i2 * r, idx_lt i1.2 i2.2⟩ ⟨j1 + j2 * c, idx_lt j1.2 j2.2⟩ = B i1 j1 * C i2 j2 := by
    intro i1 j1 i2 j2
    simp only [M, Nat.add_mul_mod_self_right, Nat.mod_eq_of_lt i1.2, Nat.mod_eq_of_lt j1.2,
      Nat.add_mul_div_right _ _ hr0, Nat.add_mul_div_right _ _ hc0, Nat.div_eq_of_lt i1.2,
      Nat.div_eq_of_lt j1.2, Nat.zero_add]
  refine (fun ⟨q, hq1, hq2⟩ => ⟨q, M, hq1, hq2, hM⟩ : (∃ q, outerProduct a b m = some q ∧
    Represents q (r * r') (c * c') M) → _) ?_
  unfold outerProduct
  rw [h.nrow, h.ncol, h'.nrow, h'.ncol, h1]
  simp only [bind, Option.bind_some]
  let f4 : Nat → Nat → Nat → Nat → Mat α → Option (Mat α) := fun i1 j1 i2 j2 s =>
    (b.get i1 j1).bind fun x => (m.get i2 j2).bind fun y => s.set (i1 + i2 * r) (j1 + j2 * c) (x * y)
  have H3 : ∀ (i1 : Fin r) (j1 : Fin c) (i2 : Fin r') (m1 : Mat α) P, Filled m1 (r * r') (c * c') M P →
      ∃ q, loopN c' (fun j2 s => f4 i1 j1 i2 j2 s) m1 = some q ∧ Filled q _ _ M
        (fun I J => P I J ∨ ∃ j2 : Fin c', I.1 = i1.1 + i2 * r ∧ J.1 = j1.1 + j2 * c) := by
    intro i1 j1 i2 m1 P hP
    refine fill_loop c' _ (fun j2 I J => I.1 = i1.1 + i2 * r ∧ J.1 = j1.1 + j2 * c) ?_ m1 P hP
    intro j2 m1 P hP
    obtain ⟨q, hq1, hq2⟩ := hP.set ⟨i1 + i2 * r, idx_lt i1.2 i2.2⟩
      ⟨j1 + j2 * c, idx_lt j1.2 j2.2⟩ _ (hM i1 j1 i2 j2).symm
    refine ⟨q, ?_, hq2.mono ?_⟩
    · simp only [f4]; rw [h.entry, h'.entry]; exact hq1
    · rintro I J (hI | hI)
      · exact Or.inl hI
      · exact Or.inr ⟨Fin.ext hI.1, Fin.ext hI.2⟩
  have H2 : ∀ (i1 : Fin r) (j1 : Fin c) (m1 : Mat α) P, Filled m1 (r * r') (c * c') M P →
      ∃ q, loopN r' (fun i2 s => loopN c' (fun j2 s => f4 i1 j1 i2 j2 s) s) m1 = some q ∧
        Filled q _ _ M (fun I J => P I J ∨ ∃ (i2 : Fin r') (j2 : Fin c'),
          I.1 = i1.1 + i2 * r ∧ J.1 = j1.1 + j2 * c) :=
    fun i1 j1 m1 P hP => fill_loop r' _ _ (fun i2 m1 P hP => H3 i1 j1 i2 m1 P hP) m1 P hP
  have H1 : ∀ (i1 : Fin r) (m1 : Mat α) P, Filled m1 (r * r') (c * c') M P →
      ∃ q, loopN c (fun j1 s => loopN r' (fun i2 s => loopN c' (fun j2 s => f4 i1 j1 i2 j2 s) s) s) m1
        = some q ∧ Filled q _ _ M (fun I J => P I J ∨ ∃ (j1 : Fin c) (i2 : Fin r') (j2 : Fin c'),
          I.1 = i1.1 + i2 * r ∧ J.1 = j1.1 + j2 * c) :=
    fun i1 m1 P hP => fill_loop c _ _ (fun j1 m1 P hP => H2 i1 j1 m1 P hP) m1 P hP
  obtain ⟨q, hq1, hq2⟩ := fill_loop (A := M) r
    (fun i1 s => loopN c (fun j1 s => loopN r' (fun i2 s => loopN c' (fun j2 s => f4 i1 j1 i2 j2 s) s) s) s)
    (fun i1 I J => ∃ (j1 : Fin c) (i2 : Fin r') (j2 : Fin c'), I.1 = i1.1 + i2 * r ∧ J.1 = j1.1 + j2 * c)
    (fun i1 m1 P hP => H1 i1 m1 P hP) p _ (h2.filled M)
  refine ⟨q, hq1, hq2.rep fun I J => Or.inr ?_⟩
  have hI : I.1 / r < r' := Nat.div_lt_of_lt_mul I.2
  have hJ : J.1 / c < c' := Nat.div_lt_of_lt_mul J.2
  exact ⟨⟨I % r, Nat.mod_lt _ hr0⟩, ⟨J % c, Nat.mod_lt _ hc0⟩, ⟨I / r, hI⟩, ⟨J / c, hJ⟩,
    (Nat.mod_add_div' I.1 r).symm, (Nat.mod_add_div' J.1 c).symm⟩

/-- `nonZeros()` counts the nonzero elements. -/
theorem nonZeros_rep [Zero α] [DecidableEq α] {r c : Nat} {A : Matrix (Fin r) (Fin c) α} {m : Mat α}
    (h : Represents m r c A) :
    m.nonZeros = some (Finset.univ.filter fun p : Fin r × Fin c => A p.1 p.2 ≠ 0).card := by
  have e : ∀ k : Fin (c * r), m.data[k.1]? = some (A (finProdFinEquiv.symm k).2 (finProdFinEquiv.symm k).1) := by
    intro k
    have := h.data (finProdFinEquiv.symm k).2 (finProdFinEquiv.symm k).1
    rw [← this]
    congr 1
    have h2 := congrArg Fin.val (finProdFinEquiv.apply_symm_apply k)
    rw [finProdFinEquiv_apply_val] at h2
    rw [← h2]; ring
  unfold Mat.nonZeros
  rw [h.nrow, h.ncol, Nat.mul_comm r c,
    loopN_congr _ _ (fun k s => ((m.data[k]?).map fun x => if x ≠ 0 then 1 else 0).map fun v => s + v) 0,
    loopN_sum (c * r) _ (fun k => if A (finProdFinEquiv.symm k).2 (finProdFinEquiv.symm k).1 ≠ 0 then 1 else 0)
      (fun k => by rw [e k]; rfl)]
  · rw [Finset.card_filter, zero_add]
    congr 1
    refine Fintype.sum_equiv (finProdFinEquiv.symm.trans (Equiv.prodComm _ _)) _ _ (fun k => ?_)
    rfl
  · intro i s hi
    cases hx : m.data[i]? with
    | none => rfl
    | some x => by_cases h0 : x = 0 <;> simp [h0]

/-- `norm2` is the sum of the squares. -/
theorem norm2_rep [CommRing α] {r c : Nat} {A : Matrix (Fin r) (Fin c) α} {m : Mat α}
    (h : Represents m r c A) : norm2 m = some (∑ i, ∑ j, A i j ^ 2) := by
  unfold norm2
  rw [h.nrow, h.ncol]
  have := sum_double_loop r c (fun i j => (m.get i j).map fun x => x * x) (fun i j => A i j ^ 2)
    (fun i j => by simp [h.entry, pow_two]) (0 : α)
  rw [zero_add] at this
  rw [← this]
  congr 1; funext i s; congr 1; funext j s
  cases m.get i j <;> rfl

/-- Printing and reading back gives the same matrix, whatever the (empty, or correctly
dimensioned) matrix read into held before. -/
theorem print_read [Zero α] {r c : Nat} {A : Matrix (Fin r) (Fin c) α} {m old : Mat α}
    (h : Represents m r c A) (ho : old.nrow = 0 ∨ old.nrow = r) :
    ∃ toks, printTokens m = some (r, c, toks) ∧ readTokens old r c toks = some m := by
  obtain ⟨toks, h1, h2, h3⟩ := print_loop h
  obtain ⟨m', h4, h5⟩ := read_loop ho toks h2 h3
  exact ⟨toks, h1, by rw [h4, h5.unique h]⟩

/-- `resize(n, m, val)` on a non-empty matrix leaves stale elements instead of `val`. -/
theorem resizeVal_stale_fails : ∃ m : Mat Int, Represents m 2 2 !![1, 2; 3, 4] ∧
    ¬ Represents (m.resizeVal 2 2 0) 2 2 0 := by
  refine ⟨⟨2, 2, [1, 3, 2, 4]⟩, ⟨rfl, rfl, rfl, by decide⟩, fun h => ?_⟩
  have := h.entry 0 0
  revert this; decide

/-- **C19** `resize` with a value: the object has the new dimensions and exactly the storage they need;
elements keep their place in memory and new places hold the value.  In particular a resize of an empty
matrix fills it with the value. -/
theorem resizeVal_spec (m : Mat α) (r c : Nat) (v : α) :
    (m.resizeVal r c v).nrow = r ∧ (m.resizeVal r c v).ncol = c ∧ (m.resizeVal r c v).data.length = r * c ∧
    ∀ k, k < r * c → (m.resizeVal r c v).data[k]? = some (m.data.getD k v) := by
  refine ⟨rfl, rfl, resizeL_length _ _ _, ?_⟩
  intro k hk
  simp only [Mat.resizeVal, resizeL, List.getD]
  by_cases h : k < m.data.length
  · rw [List.getElem?_append_left (by simp; omega), List.getElem?_take_of_lt hk]
    simp [List.getElem?_eq_getElem h]
  · rw [List.getElem?_append_right (by simp; omega), List.getElem?_replicate, if_pos (by simp; omega)]
    simp [List.getElem?_eq_none (Nat.le_of_not_lt h)]

example : (Mat.resizeVal ⟨1, 2, [5, 6]⟩ 2 2 9).data = [5, 6, 9, 9] := by decide

/-! ## Cases: matrices of two rows and three columns -/

theorem six_rep : Represents (⟨2, 3, [1, 2, 3, 4, 5, 6]⟩ : Mat ℤ) 2 3 !![1, 3, 5; 2, 4, 6] := ⟨rfl, rfl, rfl, by decide⟩
theorem other_rep : Represents (⟨2, 3, [0, 2, 0, 4, 0, 6]⟩ : Mat ℤ) 2 3 !![0, 0, 0; 2, 4, 6] := ⟨rfl, rfl, rfl, by decide⟩
theorem tall_rep : Represents (⟨3, 2, [1, 0, 1, 2, 1, 0]⟩ : Mat ℤ) 3 2 !![1, 2; 0, 1; 1, 0] := ⟨rfl, rfl, rfl, by decide⟩
theorem square_rep : Represents (⟨2, 2, [1, 2, 3, 4]⟩ : Mat ℤ) 2 2 !![1, 3; 2, 4] := ⟨rfl, rfl, rfl, by decide⟩

example := addAssign_rep six_rep other_rep
example := add_rep six_rep other_rep
example := subAssign_rep six_rep other_rep
example := sub_rep six_rep other_rep
example := conjugate_rep six_rep
example := eq_iff six_rep other_rep
example : (⟨2, 3, [1, 2, 3, 4, 5, 6]⟩ : Mat ℤ).get 2 0 = none := get_out_of_range _ _ _ (by decide)
example := get_set six_rep 1 2 9
example := matrixMatrix_rep six_rep tall_rep 10
example : matrixMatrix (⟨2, 3, [1, 2, 3, 4, 5, 6]⟩ : Mat ℤ) ⟨2, 3, [1, 2, 3, 4, 5, 6]⟩ 1 = none := matrixMatrix_mismatch _ _ _ (by decide)
example := mulAssign_rep six_rep 7
example := scale_rep six_rep 7
example := mulVec_rep six_rep ![1, 2, 3]
example := vecMul_rep six_rep ![1, 2]
example := multiplyTransposeConjugate_rep square_rep square_rep
example := nonZeros_rep other_rep
example := norm2_rep six_rep
example := outerProduct_rep (a := ⟨0, 0, []⟩) six_rep tall_rep (.inl rfl)
example := print_read (old := ⟨0, 0, []⟩) six_rep (.inl rfl)
example := rep_exists_unique (⟨2, 3, [1, 2, 3, 4, 5, 6]⟩ : Mat ℤ) rfl
example := setToIdentity_rep square_rep
example : (⟨2, 3, [1, 2, 3, 4, 5, 6]⟩ : Mat ℤ).setToIdentity = none := setToIdentity_nonsquare _ (by decide)
example := setTo_rep six_rep 8
example := transposeInto_rep (m2 := ⟨0, 0, []⟩) six_rep (.inl rfl)
example := transposeConjugateInto_rep (m2 := ⟨0, 0, []⟩) six_rep (.inl rfl)
example := transposeConjugate_rep six_rep
example : transposeInto (⟨2, 1, [7, 7]⟩ : Mat ℤ) ⟨2, 3, [1, 2, 3, 4, 5, 6]⟩ = none := transposeInto_wrong_rows _ _ (by decide)

end Verif.Dense
