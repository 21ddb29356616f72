import Verif.Dense.Lemmas
import Verif.Dense.ModelView

/-!
# Property C92: matrices that are windows of a vector

A window that fits is accepted, reads and writes its own elements and no others; several windows of one vector do not
disturb each other if they do not overlap.
-/

namespace Verif.Dense

open Verif.Loop

variable {α : Type}

/-- Specification: the window has elements and lies inside a vector of `n` elements. -/
def View.Fits (v : View) (n : Nat) : Prop := 0 < v.nrow ∧ 0 < v.ncol ∧ v.offset + v.nrow * v.ncol ≤ n

theorem View.last_eq (v : View) (h1 : 0 < v.nrow) (h2 : 0 < v.ncol) (h : v.offset + v.nrow * v.ncol ≤ word) :
    v.last = v.offset + v.nrow * v.ncol - 1 := by
  obtain ⟨r, c, o⟩ := v
  obtain ⟨c, rfl⟩ : ∃ k, c = k + 1 := ⟨c - 1, by simp only at h2; omega⟩
  simp only at h1 h2 h
  unfold View.last
  simp only
  have e : o + r + (word - 1) + (c + 1 + (word - 1)) * r = (o + r * (c + 1) - 1) + word * (1 + r) := by
    have : word = 18446744073709551616 := rfl
    have h3 : (c + 1 + (word - 1)) * r = c * r + word * r := by
      rw [show c + 1 + (word - 1) = c + word by omega, Nat.add_mul]
    rw [h3, Nat.mul_add, Nat.mul_add, Nat.mul_comm c r]
    omega
  rw [e, Nat.add_mul_mod_self_left, Nat.mod_eq_of_lt]
  have : 0 < r * (c + 1) := Nat.mul_pos h1 h2
  omega

/-- The constructor accepts a window with elements, whose last index does not wrap, exactly if it fits. -/
theorem view_make (nrow ncol : Nat) (data : List α) (offset : Nat) (h1 : 0 < nrow) (h2 : 0 < ncol)
    (h : offset + nrow * ncol ≤ word) :
    View.make nrow ncol data offset =
      if offset + nrow * ncol ≤ data.length then some ⟨nrow, ncol, offset⟩ else none := by
  unfold View.make
  simp only
  rw [View.last_eq ⟨nrow, ncol, offset⟩ h1 h2 h]
  have : 0 < nrow * ncol := Nat.mul_pos h1 h2
  by_cases hf : offset + nrow * ncol ≤ data.length
  · rw [if_pos hf, if_pos (by simp only; omega)]
  · rw [if_neg hf, if_neg (by simp only; omega)]

theorem View.index_eq (v : View) (n : Nat) (hf : v.Fits n) (hn : n ≤ word) {i j : Nat} (hi : i < v.nrow)
    (hj : j < v.ncol) : v.index i j = v.offset + i + j * v.nrow ∧ v.index i j < v.offset + v.nrow * v.ncol := by
  have h := idx_lt hi hj
  have := hf.2.2
  unfold View.index
  rw [Nat.mod_eq_of_lt (by omega)]
  exact ⟨rfl, by omega⟩

/-- Reading gives the element of the vector in column-major order from the offset. -/
theorem view_get (v : View) (data : List α) (hf : v.Fits data.length) (hn : data.length ≤ word) (i j : Nat) :
    (i < v.nrow ∧ j < v.ncol → ∃ h : v.offset + i + j * v.nrow < data.length,
      v.get data i j = some (data[v.offset + i + j * v.nrow])) ∧
    (¬ (i < v.nrow ∧ j < v.ncol) → v.get data i j = none) := by
  constructor
  · rintro ⟨hi, hj⟩
    obtain ⟨h1, h2⟩ := v.index_eq data.length hf hn hi hj
    have := hf.2.2
    refine ⟨by omega, ?_⟩
    unfold View.get
    rw [if_pos ⟨hi, hj⟩, h1, List.getElem?_eq_getElem]
  · intro h
    unfold View.get
    rw [if_neg h]

/-- Writing changes that element of the window, no other element of it, and nothing outside of the window. -/
theorem view_set (v : View) (data : List α) (hf : v.Fits data.length) (hn : data.length ≤ word) (i j : Nat)
    (hi : i < v.nrow) (hj : j < v.ncol) (a : α) :
    ∃ data', v.set data i j a = some data' ∧ data'.length = data.length ∧
      v.get data' i j = some a ∧
      (∀ i' j', (i', j') ≠ (i, j) → v.get data' i' j' = v.get data i' j') ∧
      (∀ k, k < v.offset ∨ v.offset + v.nrow * v.ncol ≤ k → data'[k]? = data[k]?) := by
  obtain ⟨h1, h2⟩ := v.index_eq data.length hf hn hi hj
  have hfit := hf.2.2
  have hlt : v.index i j < data.length := by omega
  refine ⟨data.set (v.index i j) a, ?_, by simp, ?_, ?_, ?_⟩
  · unfold View.set
    rw [if_pos ⟨hi, hj⟩, setAt_some hlt]
  · unfold View.get
    rw [if_pos ⟨hi, hj⟩, List.getElem?_set_self hlt]
  · intro i' j' hne
    unfold View.get
    by_cases hb : i' < v.nrow ∧ j' < v.ncol
    · rw [if_pos hb, if_pos hb, List.getElem?_set_ne]
      intro e
      rw [h1, (v.index_eq data.length hf hn hb.1 hb.2).1] at e
      have := idx_inj (i := i) (j := j) (i' := i') (j' := j') hi hb.1 (by omega)
      exact hne (by rw [this.1, this.2])
    · rw [if_neg hb, if_neg hb]
  · intro k hk
    rw [List.getElem?_set_ne]
    omega

/-- Two windows of one vector that do not overlap: a write through one is not seen through the other. -/
theorem view_disjoint (v w : View) (data data' : List α) (hv : v.Fits data.length) (hw : w.Fits data.length)
    (hn : data.length ≤ word)
    (hd : v.offset + v.nrow * v.ncol ≤ w.offset ∨ w.offset + w.nrow * w.ncol ≤ v.offset)
    (i j : Nat) (a : α) (h : v.set data i j a = some data') (i' j' : Nat) :
    w.get data' i' j' = w.get data i' j' := by
  by_cases hb : i < v.nrow ∧ j < v.ncol
  · obtain ⟨d, h1, h2, -, -, h5⟩ := view_set v data hv hn i j hb.1 hb.2 a
    rw [h1] at h
    cases h
    unfold View.get
    by_cases hb' : i' < w.nrow ∧ j' < w.ncol
    · obtain ⟨e1, e2⟩ := w.index_eq data.length hw hn hb'.1 hb'.2
      rw [if_pos hb', if_pos hb', h5]
      omega
    · rw [if_neg hb', if_neg hb']
  · unfold View.set at h
    rw [if_neg hb] at h
    cases h

/-- The window made of a whole matrix that has elements reads and writes what the matrix reads and writes. -/
theorem view_ofMat (m : Mat α) (h1 : 0 < m.nrow) (h2 : 0 < m.ncol) (hs : m.data.length = m.nrow * m.ncol)
    (hn : m.data.length ≤ word) :
    ∃ v, View.ofMat m = some v ∧ (∀ i j, v.get m.data i j = m.get i j) ∧
      ∀ i j a, (v.set m.data i j a).map (fun d => ({ m with data := d } : Mat α)) = m.set i j a := by
  refine ⟨⟨m.nrow, m.ncol, 0⟩, ?_, ?_, ?_⟩
  · unfold View.ofMat
    rw [view_make _ _ _ _ h1 h2 (by omega), if_pos (by omega)]
  all_goals
    have hf : View.Fits ⟨m.nrow, m.ncol, 0⟩ m.data.length := ⟨h1, h2, by simp only; omega⟩
  · intro i j
    unfold View.get Mat.get
    by_cases hb : i < m.nrow ∧ j < m.ncol
    · rw [if_pos hb, if_pos hb, (View.index_eq ⟨m.nrow, m.ncol, 0⟩ _ hf hn hb.1 hb.2).1]
      simp
    · rw [if_neg hb, if_neg hb]
  · intro i j a
    unfold View.set Mat.set
    by_cases hb : i < m.nrow ∧ j < m.ncol
    · rw [if_pos hb, if_pos hb, (View.index_eq ⟨m.nrow, m.ncol, 0⟩ _ hf hn hb.1 hb.2).1]
      simp
    · rw [if_neg hb, if_neg hb]; rfl

example : View.make 2 2 [10, 11, 12, 13, 14, 15] 1 = some ⟨2, 2, 1⟩ ∧
    View.get ⟨2, 2, 1⟩ [10, 11, 12, 13, 14, 15] 0 1 = some 13 ∧
    View.set ⟨2, 2, 1⟩ [10, 11, 12, 13, 14, 15] 1 0 7 = some [10, 11, 7, 13, 14, 15] := by decide
example : View.Fits ⟨2, 2, 1⟩ 6 := by unfold View.Fits; decide

/-- A window without elements is rejected at the beginning of a vector, whatever the vector, although it fits; so is
the window of an empty matrix. -/
theorem view_empty_fails (ncol : Nat) (data : List α) (hn : data.length < word) :
    View.make 0 ncol data 0 = none ∧ View.ofMat (⟨0, 0, []⟩ : Mat α) = none := by
  constructor
  · unfold View.make View.last
    simp only [Nat.mul_zero, Nat.add_zero, Nat.zero_add]
    rw [if_neg]
    have : (word - 1) % word = word - 1 := by decide
    rw [this]
    unfold word at *
    omega
  · unfold View.ofMat View.make
    rw [if_neg]
    simp

/-- The test wraps, so a window that does not fit can be accepted. -/
theorem view_wrap_fails :
    ∃ v, View.make 2 (2 ^ 63 + 1) [(0 : Nat), 1] 0 = some v ∧ ¬ v.Fits 2 ∧ v.get [(0 : Nat), 1] 0 1 = none := by
  refine ⟨⟨2, 2 ^ 63 + 1, 0⟩, by decide, ?_, by decide⟩
  unfold View.Fits
  decide

/-! ## Cases: windows in a vector of six elements -/

example := view_disjoint ⟨1, 2, 0⟩ ⟨2, 2, 2⟩ [10, 11, 12, 13, 14, 15] [10, 7, 12, 13, 14, 15] (by unfold View.Fits; decide) (by unfold View.Fits; decide)
  (by decide) (.inl (by decide)) 0 1 7 (by decide) 1 0
example := view_empty_fails 5 [10, 11] (by decide)
example := view_get ⟨2, 2, 1⟩ [10, 11, 12, 13, 14, 15] (by unfold View.Fits; decide) (by decide) 0 1
example := view_make 2 2 [10, 11, 12, 13, 14, 15] 1 (by decide) (by decide) (by decide)
example := view_ofMat ⟨2, 2, [10, 11, 12, 13]⟩ (by decide) (by decide) (by decide) (by decide)
example := view_set ⟨2, 2, 1⟩ [10, 11, 12, 13, 14, 15] (by unfold View.Fits; decide) (by decide) 1 0 (by decide) (by decide) 7

end Verif.Dense
