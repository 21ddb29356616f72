import Verif.Lapack.ModelTri
import Verif.Lapack.PropsDoc
import Verif.Krylov.PropsStates

/-!
# C81: eigenvalues of tridiagonal matrices, and the Lanczos solver with LAPACK
-/

namespace Verif.Lapack

open Verif.Loop Verif.Dense

open scoped Matrix

/-- What the documentation says of `dstedc_` and `sstedc_` for `compz` equal to `N`: if `info` is zero then the first `n`
numbers are the eigenvalues, in ascending order.  What is after them stays. -/
structure StedcDoc (f : Stedc) : Prop where
  work : ∀ (n : Nat) (d e : List ℝ) (ldz lwork liwork : Int) (work iwork : Nat) (a b : Nat → ℝ),
    stedcLegal 'N' n ldz lwork liwork → stedcRoom n d e lwork liwork work iwork →
    (∀ i < n, d[i]? = some (a i)) → (∀ i, i + 1 < n → e[i]? = some (b (i + 1))) →
    0 ≤ (f 'N' n d e ldz lwork liwork).info ∧ (f 'N' n d e ldz lwork liwork).d.length = d.length ∧
    (∀ i, n ≤ i → (f 'N' n d e ldz lwork liwork).d[i]? = d[i]?) ∧
    ((f 'N' n d e ldz lwork liwork).info = 0 → ∃ (w : Fin n → ℝ) (V : Matrix (Fin n) (Fin n) ℝ),
      IsEigen (Krylov.tri a b n) w V ∧ ∀ k : Fin n, (f 'N' n d e ldz lwork liwork).d[k.val]? = some (w k))

/-- **C81** There are routines that do what the documentation says, and that converge always. -/
theorem stedc_exists : ∃ f : Stedc, StedcDoc f ∧ ∀ compz n d e ldz lwork liwork, (f compz n d e ldz lwork liwork).info ≤ 0 := by
  classical
  let good : Nat → List ℝ → List ℝ → List ℝ → Prop := fun n d e r => r.length = d.length ∧ (∀ i, n ≤ i → r[i]? = d[i]?) ∧
    ∀ a b : Nat → ℝ, (∀ i < n, d[i]? = some (a i)) → (∀ i, i + 1 < n → e[i]? = some (b (i + 1))) →
      ∃ (w : Fin n → ℝ) (V : Matrix (Fin n) (Fin n) ℝ), IsEigen (Krylov.tri a b n) w V ∧ ∀ k : Fin n, r[k.val]? = some (w k)
  have goodEx : ∀ n d e, n ≤ d.length → ∃ r, good n d e r := by
    intro n d e hn
    let a0 : Nat → ℝ := fun i => d.getD i 0
    let b0 : Nat → ℝ := fun i => e.getD (i - 1) 0
    obtain ⟨w, V, hV⟩ := eigen_exists (Krylov.tri a0 b0 n) (Krylov.tri_hermitian a0 b0 n (fun _ => rfl))
    refine ⟨List.ofFn w ++ d.drop n, by simp; omega, ?_, ?_⟩
    · intro i hi
      rw [List.getElem?_append_right (by simpa using hi), List.length_ofFn, List.getElem?_drop]
      congr 1
      omega
    · intro a b ha hb
      refine ⟨w, V, ?_, fun k => by rw [List.getElem?_append_left (by simp), List.getElem?_ofFn, dif_pos k.2]⟩
      have ea : ∀ i < n, a0 i = a i := by
        intro i hi
        simp only [a0, List.getD_eq_getElem?_getD, ha i hi, Option.getD_some]
      have eb : ∀ i, i + 1 < n → b0 (i + 1) = b (i + 1) := by
        intro i hi
        simp only [b0, Nat.add_sub_cancel, List.getD_eq_getElem?_getD, hb i hi, Option.getD_some]
      have : Krylov.tri a0 b0 n = Krylov.tri a b n := by
        ext i j
        unfold Krylov.tri
        split
        · exact ea _ i.2
        · split
          · rename_i h
            rw [h]
            exact eb _ (by have := j.2; omega)
          · split
            · rename_i h
              rw [h, eb _ (by have := i.2; omega)]
            · rfl
      rw [← this]
      exact hV
  refine ⟨fun _ n d e _ _ _ => if h : ∃ r, good n.toNat d e r then ⟨h.choose, 0⟩ else ⟨d, 0⟩, ⟨?_⟩, ?_⟩
  · intro n d e ldz lwork liwork work iwork a b _ hr ha hb
    have hex : ∃ r, good (n : Int).toNat d e r := goodEx n d e (by have := hr.1; omega)
    beta_reduce
    rw [dif_pos hex]
    obtain ⟨g1, g2, g3⟩ := hex.choose_spec
    exact ⟨le_refl _, g1, g2, fun _ => g3 a b ha hb⟩
  · intro compz n d e ldz lwork liwork
    beta_reduce
    split <;> simp

/-- **C81** `diag(eigs, nn)` of a tridiagonal matrix of at least two rows: the first `nn` numbers are the eigenvalues of the
block of the first `nn` rows, in ascending order, and what comes after them is the diagonal; or it throws, just when LAPACK
does not converge. -/
theorem tri_diag_spec {f : Stedc} (hf : StedcDoc f) {la lb : List ℝ} {a b : Nat → ℝ} {size nn : Nat} (hl : la.length = size)
    (hl' : lb.length = size) (h2 : 2 ≤ size) (hn : nn ≤ size) (ha : ∀ i < size, la[i]? = some (a i))
    (hb : ∀ i < size, lb[i]? = some (b i)) :
    (triDiag f la lb nn = throwOut ∧ 0 < (f 'N' nn la (lb.drop 1) 1 10 10).info) ∨
    ∃ (w : Fin nn → ℝ) (V : Matrix (Fin nn) (Fin nn) ℝ),
      triDiag f la lb nn = .ok (List.ofFn w ++ la.drop nn) ∧ IsEigen (Krylov.tri a b nn) w V := by
  have legal : stedcLegal 'N' nn 1 10 10 := ⟨rfl, by omega, by omega, by omega, by omega⟩
  have room : stedcRoom nn la (lb.drop 1) 10 10 10 10 := by
    refine ⟨by omega, ?_, by omega, by omega⟩
    rw [List.length_drop]
    omega
  obtain ⟨h3, h4, h5, h6⟩ := hf.work nn la (lb.drop 1) 1 10 10 10 10 a b legal room (fun i hi => ha i (by omega))
    (fun i hi => by rw [List.getElem?_drop, Nat.add_comm]; exact hb _ (by omega))
  have run : triDiag f la lb nn = if (f 'N' nn la (lb.drop 1) 1 10 10).info = 0 then
      .ok (f 'N' nn la (lb.drop 1) 1 10 10).d else throwOut := by
    unfold triDiag
    rw [if_neg (by omega)]
    unfold stedcCall
    rw [if_neg (fun h => h.2 room)]
    rfl
  by_cases hi : (f 'N' nn la (lb.drop 1) 1 10 10).info = 0
  · right
    obtain ⟨w, V, h7, h8⟩ := h6 hi
    refine ⟨w, V, ?_, h7⟩
    rw [run, if_pos hi]
    refine congrArg Except.ok (List.ext_getElem? fun i => ?_)
    by_cases hin : i < nn
    · rw [List.getElem?_append_left (by simpa using hin), List.getElem?_ofFn, dif_pos hin]
      exact h8 ⟨i, hin⟩
    · rw [List.getElem?_append_right (by simp; omega), h5 i (by omega), List.getElem?_drop, List.length_ofFn]
      congr 1
      omega
  · left
    rw [run, if_neg hi]
    exact ⟨rfl, by omega⟩

/-- The hypotheses can be met: a block of two rows of a matrix of three rows. -/
example : ∃ (f : Stedc) (w : Fin 2 → ℝ) (V : Matrix (Fin 2) (Fin 2) ℝ),
    triDiag f [1, 2, 3] [0, 4, 5] 2 = .ok (List.ofFn w ++ [3]) ∧ IsEigen !![1, 4; 4, 2] w V := by
  obtain ⟨f, hf, hc⟩ := stedc_exists
  rcases tri_diag_spec hf (la := [1, 2, 3]) (lb := [0, 4, 5]) (a := fun i => [1, 2, 3].getD i 0) (b := fun i => [0, 4, 5].getD i 0)
      (size := 3) (nn := 2) rfl rfl (by omega) (by omega) (by intro i hi; interval_cases i <;> rfl)
      (by intro i hi; interval_cases i <;> rfl) with h | h
  · exact absurd (hc _ _ _ _ _ _ _) (not_le.2 h.2)
  · obtain ⟨w, V, h1, h2⟩ := h
    have : Krylov.tri (fun i => ([1, 2, 3] : List ℝ).getD i 0) (fun i => ([0, 4, 5] : List ℝ).getD i 0) 2 = !![1, 4; 4, 2] := by
      ext i j
      fin_cases i <;> fin_cases j <;> simp [Krylov.tri]
    rw [this] at h2
    exact ⟨f, w, V, h1, h2⟩

/-- **C81** A tridiagonal matrix of one row is not covered: the address of an element out of range is taken. -/
theorem tri_diag_one_fails (f : Stedc) (x y : ℝ) (nn : Nat) : triDiag f [x] [y] nn = ubOut := by
  unfold triDiag
  rw [if_pos (Or.inr (by simp))]

/-- **C81** So the vector of eigenvalues is longer than the number asked for: what comes after them need not be an
eigenvalue of anything.  Here the eigenvalue of the first row is followed by the element 5 of the diagonal. -/
theorem tri_diag_stale_fails {f : Stedc} (hf : StedcDoc f) (hc : ∀ compz n d e ldz lwork liwork, (f compz n d e ldz lwork liwork).info ≤ 0)
    (x y : ℝ) : triDiag f [x, 5] [0, y] 1 = .ok [x, 5] := by
  rcases tri_diag_spec hf (la := [x, 5]) (lb := [0, y]) (a := fun i => if i = 0 then x else 5)
      (b := fun i => if i = 0 then 0 else y) (size := 2) (nn := 1) rfl rfl (le_refl _) (by omega)
      (by intro i hi; interval_cases i <;> rfl) (by intro i hi; interval_cases i <;> rfl) with h | h
  · exact absurd (hc _ _ _ _ _ _ _) (not_le.2 h.2)
  · obtain ⟨w, V, h1, h2⟩ := h
    rw [h1]
    have e := congrFun (congrFun h2.eigen 0) 0
    have u := congrFun (congrFun h2.unitary 0) 0
    rw [Matrix.mul_apply, Fin.sum_univ_one] at e u
    rw [Matrix.mul_diagonal] at e
    have hv : V 0 0 ≠ 0 := by
      intro h
      rw [h] at u
      simp at u
    have ht : Krylov.tri (fun i => if i = 0 then x else 5) (fun i => if i = 0 then 0 else y) 1 0 0 = x := rfl
    rw [ht, mul_comm] at e
    have : x = w 0 := mul_left_cancel₀ hv (by simpa using e)
    rw [this]
    rfl

/-! ## The Lanczos solver with LAPACK -/

section

variable {𝕜 : Type} [RCLike 𝕜]

/-- `diag(m, eigs, 'V')` as the solver calls it, where it does not throw. -/
noncomputable def diagOf (f : Heev 𝕜) (isReal : Bool) (m : Mat 𝕜) : List ℝ × Mat 𝕜 :=
  match diag f isReal m [] 'V' with
  | .ok (m', e) => (e, m')
  | .error _ => ([], m)

/-- **C81** `diag` with LAPACK is what the Lanczos solver needs. -/
theorem diag_diagonalizes {f : Heev 𝕜} {isReal : Bool} (hf : HeevDoc f isReal)
    (hc : ∀ jobz uplo n a lda w lwork, (f jobz uplo n a lda w lwork).info ≤ 0) : Krylov.Diagonalizes (diagOf f isReal) := by
  intro k m T hm hT
  by_cases hk : 0 < k
  · rcases diag_spec hf hm hk (H := T) hT (fun _ _ _ => rfl) [] (option := 'V') (by simp) with h | h
    · obtain ⟨_, lwork, h⟩ := h
      exact absurd (hc _ _ _ _ _ _ _) (not_le.2 h)
    · obtain ⟨m', w, V, h1, h2, _, h4⟩ := h
      unfold diagOf
      rw [h1]
      exact ⟨w, V, rfl, h4 (by simp), h2.unitary, h2.eigen, h2.sorted⟩
  · obtain rfl : k = 0 := by omega
    have : diag f isReal m [] 'V' = ubOut ∨ diag f isReal m [] 'V' = throwOut := by
      have e1 : m.nrow = 0 := hm.shape.1
      unfold diag
      by_cases h : (isReal = true ∧ (m.ncol : Int) ≤ 0)
      · right; rw [if_pos h]
      · left
        simp only []
        rw [if_neg h, if_pos (Or.inr (by rw [e1]; simp [resizeL]))]
    refine ⟨Fin.elim0, 1, ?_, ?_, by simp, by ext i; exact i.elim0, fun i => i.elim0⟩
    · unfold diagOf
      rcases this with h | h <;> rw [h] <;> rfl
    · have e2 : (diagOf f isReal m).2 = m := by
        unfold diagOf
        rcases this with h | h <;> rw [h] <;> rfl
      rw [e2]
      have : (1 : Matrix (Fin 0) (Fin 0) 𝕜) = T := by ext i; exact i.elim0
      rw [this]
      exact hm

/-- `diag(eigs, nn)` of the tridiagonal matrix as the decomposition calls it, where it does not throw. -/
noncomputable def eigsOf (f : Stedc) (a b : List ℝ) (k : Nat) : List ℝ :=
  match triDiag f a b k with
  | .ok e => e
  | .error _ => a

/-- **C81** And so is `diag` of the tridiagonal matrix. -/
theorem eigs_same_size {f : Stedc} (hf : StedcDoc f) (a b : List ℝ) (k : Nat) : (eigsOf f a b k).length = a.length := by
  unfold eigsOf triDiag
  by_cases h0 : a.length = 0 ∨ b.length ≤ 1
  · rw [if_pos h0]
    rfl
  · rw [if_neg h0]
    unfold stedcCall
    by_cases hr : stedcRoom k a (b.drop 1) 10 10 10 10
    · rw [if_neg (fun h => h.2 hr)]
      obtain ⟨_, h, _, _⟩ := hf.work k a (b.drop 1) 1 10 10 10 10 (fun i => a.getD i 0) (fun i => b.getD i 0)
        ⟨rfl, by omega, by omega, by omega, by omega⟩ hr
        (fun i hi => by have := hr.1; simp [show i < a.length by omega])
        (fun i hi => by have := hr.2.1; rw [List.length_drop] at this; simp [List.getElem?_drop, Nat.add_comm 1 i, show i + 1 < b.length by omega])
      by_cases hi : (f 'N' k a (b.drop 1) 1 10 10).info = 0
      · change List.length (match (if (f 'N' k a (b.drop 1) 1 10 10).info = 0 then _ else _ : Out (List ℝ)) with | .ok e => e | .error _ => a) = _
        rw [if_pos hi]
        exact h
      · change List.length (match (if (f 'N' k a (b.drop 1) 1 10 10).info = 0 then _ else _ : Out (List ℝ)) with | .ok e => e | .error _ => a) = _
        rw [if_neg hi]
        rfl
    · rw [if_pos ⟨⟨rfl, by omega, by omega, by omega, by omega⟩, hr⟩]
      rfl

open Krylov in
/-- **C81** The ground state by the Lanczos solver with any LAPACK that converges: the energy is the expectation value of
the normalized vector returned, the lowest one of the space of the powers of the matrix applied to the start vector, not
below any lower bound of the matrix, and with as many steps as rows the vector is an eigenvector with this eigenvalue. -/
theorem ground_state_lapack {n : Nat} {fs : Stedc} (hs : StedcDoc fs) {fh : Heev 𝕜} {isReal : Bool} (hf : HeevDoc fh isReal)
    (hc : ∀ jobz uplo n a lda w lwork, (fh jobz uplo n a lda w lwork).info ≤ 0) (H : Matrix (Fin n) (Fin n) 𝕜)
    (hH : H.IsHermitian) (reortho : Bool) (tolerance : ℝ) (minSteps steps : Nat) (init : Fin n → 𝕜) (h2 : 2 ≤ min steps n)
    (hmin : n ≤ 4 ∨ minSteps < min steps n) (hi : Independent H init (min steps n)) :
    ∃ (E : ℝ) (z : Fin n → 𝕜) (k : Nat),
      computeOneState ⟨(H.mulVec ·), reortho, tolerance, minSteps, eigsOf fs, diagOf fh isReal⟩ steps 0 init 0 = .ok (E, z, k) ∧
      2 ≤ k ∧ k ≤ min steps n ∧ Ritz H (Powers H init k) E z ∧ (∀ μ, LowerBound H μ → μ ≤ E) ∧
      (∀ x ∈ Powers H init k, E * ∑ i, ‖x i‖ ^ 2 ≤ RCLike.re (star x ⬝ᵥ (H.mulVec x))) ∧
      (k = n → H.mulVec z = (E : 𝕜) • z) := by
  rcases oneState_spec ⟨(H.mulVec ·), reortho, tolerance, minSteps, eigsOf fs, diagOf fh isReal⟩ H rfl hH
    (eigs_same_size hs) (diag_diagonalizes hf hc) steps init h2 hmin hi 0 with h | h
  · obtain ⟨k, h3, h4, _⟩ := h
    omega
  · obtain ⟨E, z, k, h3, h4, h5, h6, h7, h8, h9, h10, h11⟩ := h
    exact ⟨E, z, k, h3, h5, h6, h8, h9, h10 rfl, h11⟩

/-- The hypotheses can be met: a path of five sites. -/
example : ∃ (fs : Stedc) (fh : Heev ℝ) (E : ℝ) (z : Fin 5 → ℝ) (k : Nat),
    Krylov.computeOneState ⟨(Krylov.path5.mulVec ·), true, 0, 4, eigsOf fs, diagOf fh true⟩ 5 0 ![1, 0, 0, 0, 0] 0 = .ok (E, z, k) ∧
      ∀ μ, Krylov.LowerBound Krylov.path5 μ → μ ≤ E := by
  obtain ⟨fs, hs, _⟩ := stedc_exists
  obtain ⟨fh, hf, hc⟩ := heev_exists (𝕜 := ℝ) true
  obtain ⟨E, z, k, h1, _, _, _, h2, _⟩ := ground_state_lapack hs hf hc Krylov.path5 Krylov.path5_hermitian true 0 4 5
    ![1, 0, 0, 0, 0] (by decide) (Or.inr (by decide)) Krylov.path5_independent
  exact ⟨fs, fh, E, z, k, h1, h2⟩

end

end Verif.Lapack
