import Verif.Krylov.Spec
import Verif.Dense.Lemmas
import Mathlib.LinearAlgebra.Matrix.Notation

/-!
# C58: tridiagonal matrices
-/

namespace Verif.Krylov

open Verif.Loop Verif.Dense

variable {α β : Type} [Zero α] [Star α] [Star β]

/-- **C58** From an empty matrix, `buildDenseMatrix` gives the tridiagonal matrix with the stored diagonals and zeros
elsewhere. -/
theorem buildDense_spec (ι : β → α) (hι : ∀ x, ι (star x) = star (ι x)) (a b : Nat → β) (n m : Nat) (la lb : List β)
    (hn : 0 < (if m = 0 then la.length else m)) (hm : n = if m = 0 then la.length else m)
    (ha : ∀ i < n, la[i]? = some (a i)) (hb : ∀ i < n, lb[i]? = some (b i)) :
    ∃ M, buildDense ι la lb ⟨0, 0, []⟩ m = some M ∧ Represents M n n (tri (fun i => ι (a i)) (fun i => ι (b i)) n) := by
  rw [← hm] at hn
  unfold buildDense
  simp only [← hm]
  rw [if_neg (by omega)]
  have h0 : Shape ((⟨0, 0, []⟩ : Mat α).resizeVal n n 0) n n := ⟨rfl, rfl, resizeL_length _ _ _⟩
  have hz : ∀ i j, i < n → j < n → ((⟨0, 0, []⟩ : Mat α).resizeVal n n 0).get i j = some 0 := by
    intro i j hi hj
    rw [h0.get hi hj]
    simp [Mat.resizeVal, resizeL, idx_lt hi hj]
  have hfill : Filled ((⟨0, 0, []⟩ : Mat α).resizeVal n n 0) n n (tri (fun i => ι (a i)) (fun i => ι (b i)) n)
      (fun i j => i ≠ j ∧ j.val ≠ i.val + 1 ∧ i.val ≠ j.val + 1) := by
    refine ⟨h0, ?_⟩
    rintro i j ⟨h1, h2, h3⟩
    rw [hz i j i.2 j.2]
    simp [tri, h1, h2, h3]
  obtain ⟨M1, e1, e2⟩ := fill_loop (A := tri (fun i => ι (a i)) (fun i => ι (b i)) n) (n - 1) (fun i m => do
      let ai ← la[i]?
      let m ← m.set i i (ι ai)
      let bi ← lb[i + 1]?
      let m ← m.set i (i + 1) (ι bi)
      m.set (i + 1) i (ι (star bi)))
    (fun k i j => (i.val = k.val ∧ j.val = k.val) ∨ (i.val = k.val ∧ j.val = k.val + 1) ∨ (i.val = k.val + 1 ∧ j.val = k.val))
    (by
      rintro k m P hP
      have hk : k.val < n := by omega
      have hk1 : k.val + 1 < n := by omega
      obtain ⟨m1, s1, f1⟩ := hP.set ⟨k, hk⟩ ⟨k, hk⟩ (ι (a k)) (by simp [tri])
      obtain ⟨m2, s2, f2⟩ := f1.set ⟨k, hk⟩ ⟨k + 1, hk1⟩ (ι (b (k + 1))) (by simp [tri])
      obtain ⟨m3, s3, f3⟩ := f2.set ⟨k + 1, hk1⟩ ⟨k, hk⟩ (ι (star (b (k + 1)))) (by
        have e1 : ¬ k.val = k.val + 1 + 1 := by omega
        simp [tri, hι, e1])
      refine ⟨m3, ?_, f3.mono ?_⟩
      · simp only [ha k hk, hb (k + 1) hk1, bind, Option.bind_some]
        simp only at s1 s2 s3
        rw [s1, Option.bind_some, s2, Option.bind_some, s3]
      · rintro i j (h | h | h | h)
        · exact .inl (.inl (.inl h))
        · exact .inl (.inl (.inr ⟨Fin.ext h.1, Fin.ext h.2⟩))
        · exact .inl (.inr ⟨Fin.ext h.1, Fin.ext h.2⟩)
        · exact .inr ⟨Fin.ext h.1, Fin.ext h.2⟩)
    _ _ hfill
  obtain ⟨M2, e3, e4⟩ := e2.set ⟨n - 1, by omega⟩ ⟨n - 1, by omega⟩ (ι (a (n - 1))) (by simp [tri])
  refine ⟨M2, ?_, e4.rep ?_⟩
  · have : loopN (n - 1) _ _ = some M1 := e1
    simp only [bind] at this ⊢
    rw [this, Option.bind_some, ha (n - 1) (by omega), Option.bind_some]
    exact e3
  · intro i j
    have hi := i.2
    have hj := j.2
    by_cases h1 : i.val = j.val
    · by_cases h2 : i.val = n - 1
      · right; exact ⟨Fin.ext h2, Fin.ext (by simp only; omega)⟩
      · left; right; exact ⟨⟨i, by omega⟩, .inl ⟨rfl, by simp only; omega⟩⟩
    · left
      by_cases h2 : j.val = i.val + 1
      · right; exact ⟨⟨i, by omega⟩, .inr (.inl ⟨rfl, h2⟩)⟩
      · by_cases h3 : i.val = j.val + 1
        · right; exact ⟨⟨j, by omega⟩, .inr (.inr ⟨h3, rfl⟩)⟩
        · left; exact ⟨fun e => h1 (by rw [e]), h2, h3⟩

/-- **C58** The matrix is Hermitian if the diagonal is real. -/
theorem tri_hermitian {γ : Type} [AddMonoid γ] [StarAddMonoid γ] (a b : Nat → γ) (k : Nat) (ha : ∀ i, star (a i) = a i) :
    (tri a b k).IsHermitian := by
  ext i j
  simp only [Matrix.conjTranspose_apply, tri]
  by_cases h1 : i = j
  · subst h1; simp [ha]
  · have h1' : j ≠ i := fun e => h1 e.symm
    by_cases h2 : j.val = i.val + 1
    · have : ¬ i.val = i.val + 1 + 1 := by omega
      simp [h1, h1', h2, this]
    · by_cases h3 : i.val = j.val + 1
      · have : ¬ j.val = j.val + 1 + 1 := by omega
        simp [h1, h1', h3, this]
      · simp [h1, h1', h2, h3]

/-- Stored zeros stay where they are not needed: an old matrix of the same size keeps what it had far from the diagonal. -/
theorem buildDense_stale_fails :
    (buildDense (id : Int → Int) [1, 2, 3] [0, 4, 5] ⟨3, 3, List.replicate 9 7⟩ 0).map (·.data) =
      some [1, 4, 7, 4, 2, 5, 7, 5, 3] := by decide +kernel

/-- An empty object: `n - 1` is the largest number. -/
theorem buildDense_empty_fails (ι : β → α) (b : List β) (m : Mat α) : buildDense ι [] b m 0 = none := rfl

example : (buildDense (id : Int → Int) [1, 2, 3] [0, 4, 5] ⟨0, 0, []⟩ 0).map (·.data) =
    some [1, 4, 0, 4, 2, 5, 0, 5, 3] := by decide +kernel

example : (buildDense (id : Int → Int) [1, 2, 3] [0, 4, 5] ⟨0, 0, []⟩ 2).map (·.data) = some [1, 4, 4, 2] := by
  decide +kernel

end Verif.Krylov
