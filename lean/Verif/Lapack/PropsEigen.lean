import Verif.Lapack.Lemmas
import Mathlib.Analysis.SpecialFunctions.Exponential
import Mathlib.Tactic.FinCases
import Mathlib.Tactic.NormNum

/-!
# Eigenvalues and exponentials of matrices

C80.
-/

namespace Verif.Lapack

open Verif.Loop Verif.Dense

variable {𝕜 : Type} [RCLike 𝕜]

theorem legal_first {isReal : Bool} {option : Char} (ho : option ∈ ['N', 'V', 'n', 'v']) {n lda : Nat} (hn : 0 < n)
    (hl : n ≤ lda) : heevLegal isReal option 'U' n lda (-1) :=
  ⟨ho, by simp, by omega, by omega, .inl rfl⟩

theorem legal_second {isReal : Bool} {option : Char} (ho : option ∈ ['N', 'V', 'n', 'v']) {n lda : Nat} (hn : 0 < n)
    (hl : n ≤ lda) (x : Int) : heevLegal isReal option 'U' n lda (max x ((256 + 2) * n)) := by
  refine ⟨ho, by simp, by omega, by omega, .inr ?_⟩
  unfold minWork
  split <;> omega

theorem room_any (isReal : Bool) {n lda : Nat} (hn : 0 < n) (a : List 𝕜) (w : List ℝ) {lwork : Int} {work : Nat}
    (ha : (n - 1) + (n - 1) * lda < a.length) (hw : n ≤ w.length) (hk : (if lwork = -1 then 1 else lwork) ≤ work) :
    heevRoom isReal n a lda w lwork work (3 * n) := by
  refine ⟨fun _ => ?_, by omega, hk, fun _ => by omega⟩
  have : ((n : Int) - 1) + ((n : Int) - 1) * lda = ((n - 1 + (n - 1) * lda : Nat) : Int) := by
    push_cast [Nat.cast_sub (show 1 ≤ n from hn)]
    ring
  rw [this]
  omega

theorem call_ok (f : Heev 𝕜) {isReal : Bool} {jobz uplo : Char} {n : Int} {a : List 𝕜} {lda : Int} {w : List ℝ}
    {lwork : Int} {work rwork : Nat} (h : heevRoom isReal n a lda w lwork work rwork) :
    heevCall f isReal jobz uplo n a lda w lwork work rwork = .ok (f jobz uplo n a lda w lwork) := by
  unfold heevCall
  rw [if_neg (fun h' => h'.2 h)]

theorem eigs_length (eigs : List ℝ) (n : Nat) : (resizeL eigs n 0).length = n := resizeL_length _ _ _

/-- With `n ≤ lda`, everything but the result of LAPACK. -/
theorem diag_run {f : Heev 𝕜} {isReal : Bool} (hf : HeevDoc f isReal) {m : Mat 𝕜} {n lda : Nat} (hm : Shape m n lda)
    (hn : 0 < n) (hl : n ≤ lda) (eigs : List ℝ) {option : Char} (ho : option ∈ ['N', 'V', 'n', 'v']) :
    ∃ lwork : Int, heevLegal isReal option 'U' n lda lwork ∧ lwork ≠ -1 ∧
      heevRoom isReal n m.data lda (resizeL eigs n 0) lwork lwork.toNat (3 * n) ∧
      diag f isReal m eigs option =
        if (f option 'U' n m.data lda (resizeL eigs n 0) lwork).info ≠ 0 then throwOut
        else .ok (⟨n, lda, (f option 'U' n m.data lda (resizeL eigs n 0) lwork).a⟩,
          (f option 'U' n m.data lda (resizeL eigs n 0) lwork).w) := by
  obtain ⟨q1, q2, q3⟩ := hf.query option 'U' n m.data lda (resizeL eigs n 0) (legal_first ho hn hl)
  have hroom : (n - 1) + (n - 1) * lda < m.data.length := by
    rw [hm.size, Nat.mul_comm n lda]
    have h1 : (n - 1) * lda + lda = n * lda := by
      obtain ⟨k, rfl⟩ : ∃ k, n = k + 1 := ⟨n - 1, by omega⟩
      rw [Nat.add_sub_cancel, Nat.add_mul, Nat.one_mul]
    rw [Nat.mul_comm lda n]
    omega
  have hw : n ≤ (resizeL eigs n 0).length := by rw [eigs_length]
  refine ⟨max (1 + toInt (f option 'U' n m.data lda (resizeL eigs n 0) (-1)).work0) ((256 + 2) * n),
    legal_second ho hn hl _, by omega, room_any isReal hn _ _ hroom hw (by split <;> omega), ?_⟩
  unfold diag
  simp only [hm.nrow, hm.ncol]
  rw [if_neg (by omega), if_neg (by rw [get_some hm hn (by omega), eigs_length]; simp; omega),
    call_ok f (room_any isReal hn _ _ hroom hw (by simp))]
  simp only [bind, Except.bind]
  rw [if_neg (by rw [q1]; simp), q2, q3, call_ok f (room_any isReal hn _ _ hroom hw (by split <;> omega))]
  rfl

/-- **C80** Eigenvalues and eigenvectors of a square matrix: `diag` uses the upper triangle only, and gives the ones of
the Hermitian matrix with this upper triangle; it throws just when LAPACK does not converge. -/
theorem diag_spec {f : Heev 𝕜} {isReal : Bool} (hf : HeevDoc f isReal) {m : Mat 𝕜} {n : Nat}
    {A H : Matrix (Fin n) (Fin n) 𝕜} (hm : Represents m n n A) (hn : 0 < n) (hH : H.conjTranspose = H)
    (hA : ∀ i j, i ≤ j → A i j = H i j) (eigs : List ℝ) {option : Char} (ho : option ∈ ['N', 'V', 'n', 'v']) :
    (diag f isReal m eigs option = throwOut ∧ ∃ lwork, (f option 'U' n m.data n (resizeL eigs n 0) lwork).info > 0) ∨
    ∃ m' w V, diag f isReal m eigs option = .ok (m', List.ofFn w) ∧ IsEigen H w V ∧ Shape m' n n ∧
      (option ∈ ['V', 'v'] → Represents m' n n V) := by
  obtain ⟨lwork, h1, h2, h3, h4⟩ := diag_run hf hm.shape hn (Nat.le_refl n) eigs ho
  obtain ⟨r1, r2, r3, r4⟩ := hf.work option 'U' n m.data n (resizeL eigs n 0) lwork H h1 h2 h3 (by simp) hH
    (fun i j hij => by rw [rep_holds hm i j, hA i j hij])
  by_cases hi : (f option 'U' n m.data n (resizeL eigs n 0) lwork).info = 0
  · right
    obtain ⟨w, V, v1, v2, v3⟩ := r4 hi
    rw [if_neg (by rw [hi]; simp)] at h4
    have hl : (f option 'U' n m.data n (resizeL eigs n 0) lwork).a.length = n * n := by rw [r2, hm.size]
    have hw : (f option 'U' n m.data n (resizeL eigs n 0) lwork).w = List.ofFn w := by
      apply List.ext_getElem?
      intro k
      by_cases hk : k < n
      · rw [v2 ⟨k, hk⟩, List.getElem?_ofFn, dif_pos hk]
      · rw [List.getElem?_eq_none (by rw [r3, eigs_length]; omega), List.getElem?_eq_none (by simp; omega)]
    exact ⟨_, w, V, by rw [h4, hw], v1, ⟨rfl, rfl, hl⟩, fun ho' => holds_rep hl (v3 ho')⟩
  · left
    rw [if_pos hi] at h4
    exact ⟨h4, lwork, by omega⟩

/-- **C80** A matrix with more rows than columns is refused. -/
theorem diag_tall {f : Heev 𝕜} {isReal : Bool} (hf : HeevDoc f isReal) {m : Mat 𝕜} {r c : Nat} (hm : Shape m r c)
    (hc : 0 < c) (hrc : c < r) (eigs : List ℝ) (option : Char) : diag f isReal m eigs option = throwOut := by
  have hil : ¬ heevLegal isReal option 'U' r c (-1) := by
    rintro ⟨_, _, _, h, _⟩
    omega
  unfold diag
  simp only [hm.nrow, hm.ncol]
  rw [if_neg (by omega), if_neg (by rw [get_some hm (by omega) hc, eigs_length]; simp; omega)]
  unfold heevCall
  rw [if_neg (fun h => hil h.1)]
  simp only [bind, Except.bind]
  rw [if_pos (by have := hf.illegal option 'U' r m.data c (resizeL eigs r 0) (-1) hil; omega)]

/-- **C80** The letter must be known. -/
theorem diag_option {f : Heev 𝕜} {isReal : Bool} (hf : HeevDoc f isReal) {m : Mat 𝕜} {r c : Nat} (hm : Shape m r c)
    (hc : 0 < c) (hr : 0 < r) (eigs : List ℝ) {option : Char} (ho : option ∉ ['N', 'V', 'n', 'v']) :
    diag f isReal m eigs option = throwOut := by
  have hil : ¬ heevLegal isReal option 'U' r c (-1) := fun h => ho h.1
  unfold diag
  simp only [hm.nrow, hm.ncol]
  rw [if_neg (by omega), if_neg (by rw [get_some hm (by omega) hc, eigs_length]; simp; omega)]
  unfold heevCall
  rw [if_neg (fun h => hil h.1)]
  simp only [bind, Except.bind]
  rw [if_pos (by have := hf.illegal option 'U' r m.data c (resizeL eigs r 0) (-1) hil; omega)]

/-- **C80** A matrix with fewer rows than columns is not refused: the numbers are those of the Hermitian matrix whose
upper triangle is found with the wrong distance between columns. -/
theorem diag_wide_fails {f : Heev 𝕜} {isReal : Bool} (hf : HeevDoc f isReal) (x y z : ℝ) (eigs : List ℝ)
    {option : Char} (ho : option ∈ ['N', 'V', 'n', 'v']) :
    (diag f isReal ⟨2, 3, [(x : 𝕜), 0, 0, (y : 𝕜), (z : 𝕜), 0]⟩ eigs option = throwOut ∧
      ∃ lwork, (f option 'U' 2 [(x : 𝕜), 0, 0, (y : 𝕜), (z : 𝕜), 0] 3 (resizeL eigs 2 0) lwork).info > 0) ∨
    ∃ m' w V, diag f isReal ⟨2, 3, [(x : 𝕜), 0, 0, (y : 𝕜), (z : 𝕜), 0]⟩ eigs option = .ok (m', List.ofFn w) ∧
      IsEigen !![(x : 𝕜), (y : 𝕜); (y : 𝕜), (z : 𝕜)] w V := by
  obtain ⟨lwork, h1, h2, h3, h4⟩ := diag_run (m := ⟨2, 3, [(x : 𝕜), 0, 0, (y : 𝕜), (z : 𝕜), 0]⟩) (n := 2) (lda := 3) hf
    ⟨rfl, rfl, rfl⟩ (by omega) (by omega) eigs ho
  obtain ⟨r1, r2, r3, r4⟩ := hf.work option 'U' 2 [(x : 𝕜), 0, 0, (y : 𝕜), (z : 𝕜), 0] 3 (resizeL eigs 2 0) lwork
    !![(x : 𝕜), (y : 𝕜); (y : 𝕜), (z : 𝕜)] h1 h2 h3 (by simp)
    (by ext i j; fin_cases i <;> fin_cases j <;> simp)
    (fun i j hij => by fin_cases i <;> fin_cases j <;> simp_all)
  simp only at h4
  by_cases hi : (f option 'U' (2 : Nat) [(x : 𝕜), 0, 0, (y : 𝕜), (z : 𝕜), 0] (3 : Nat) (resizeL eigs 2 0) lwork).info = 0
  · right
    obtain ⟨w, V, v1, v2, v3⟩ := r4 hi
    rw [if_neg (by rw [hi]; simp)] at h4
    have hw : (f option 'U' (2 : Nat) [(x : 𝕜), 0, 0, (y : 𝕜), (z : 𝕜), 0] (3 : Nat) (resizeL eigs 2 0) lwork).w =
        List.ofFn w := by
      apply List.ext_getElem?
      intro k
      by_cases hk : k < 2
      · rw [v2 ⟨k, hk⟩, List.getElem?_ofFn, dif_pos hk]
      · rw [List.getElem?_eq_none (by rw [r3, eigs_length]; omega), List.getElem?_eq_none (by simp; omega)]
    exact ⟨_, w, V, by rw [h4, hw], v1⟩
  · left
    rw [if_pos hi] at h4
    refine ⟨h4, lwork, ?_⟩
    have : 0 < (f option 'U' (2 : Nat) [(x : 𝕜), 0, 0, (y : 𝕜), (z : 𝕜), 0] (3 : Nat) (resizeL eigs 2 0) lwork).info := by
      omega
    exact this

/-- **C80** An empty matrix: refused if it is real, undefined if it is complex. -/
theorem diag_empty_fails (f : Heev 𝕜) (eigs : List ℝ) (option : Char) :
    diag f true ⟨0, 0, []⟩ eigs option = throwOut ∧ diag f false ⟨0, 0, []⟩ eigs option = ubOut := by
  constructor <;> rfl

/-! ## Exponentials -/

/-- The exponential of a matrix that is found with its eigenvectors. -/
theorem func_spec {f : Heev 𝕜} {isReal : Bool} (hf : HeevDoc f isReal) (e : ℝ → 𝕜) {m : Mat 𝕜} {n : Nat}
    {H : Matrix (Fin n) (Fin n) 𝕜} (hm : Represents m n n H) (hn : 0 < n) (hH : H.conjTranspose = H) (c : 𝕜)
    (hc : ∀ y : ℝ, e y = NormedSpace.exp (c * (y : 𝕜))) :
    (expMat f isReal e m = throwOut ∧ ∃ lwork, (f 'V' 'U' n m.data n (List.replicate n 0) lwork).info > 0) ∨
    ∃ r, expMat f isReal e m = .ok r ∧ Represents r n n (NormedSpace.exp (c • H)).transpose := by
  have hz : resizeL (List.replicate n (0 : ℝ)) n 0 = List.replicate n 0 := by
    simp [resizeL]
  unfold expMat
  rw [hm.nrow]
  rcases diag_spec hf hm hn hH (fun _ _ _ => rfl) (List.replicate n 0) (option := 'V') (by simp) with
    ⟨h, l, hl⟩ | ⟨m', w, V, h, h1, h2, h3⟩
  · left
    rw [h]
    rw [hz] at hl
    exact ⟨rfl, l, hl⟩
  · right
    obtain ⟨r, h4, h5⟩ := funcLoop_spec e (h3 (by simp)) (w := w) (eigs := List.ofFn w)
      (by intro k; rw [List.getElem?_ofFn, dif_pos k.2])
    rw [h]
    simp only [bind, Except.bind]
    rw [h4]
    refine ⟨r, rfl, ?_⟩
    rw [exp_eigen h1 c]
    simpa only [hc] using h5

/-- **C80** `exp` of a real symmetric matrix is its exponential. -/
theorem exp_real_spec {f : Heev ℝ} (hf : HeevDoc f true) {m : Mat ℝ} {n : Nat} {H : Matrix (Fin n) (Fin n) ℝ}
    (hm : Represents m n n H) (hn : 0 < n) (hH : H.transpose = H) :
    (expMat f true expReal m = throwOut ∧ ∃ lwork, (f 'V' 'U' n m.data n (List.replicate n 0) lwork).info > 0) ∨
    ∃ r, expMat f true expReal m = .ok r ∧ Represents r n n (NormedSpace.exp H) := by
  have hH' : H.conjTranspose = H := by
    ext i j
    rw [Matrix.conjTranspose_apply, star_trivial]
    exact congrFun (congrFun hH i) j
  have := func_spec hf expReal hm hn hH' 1 (by
    intro y
    unfold expReal
    rw [one_mul, Real.exp_eq_exp_ℝ]
    rfl)
  rw [one_smul, ← Matrix.exp_transpose, hH] at this
  exact this

/-- **C80** `exp` of a complex Hermitian matrix `H` is the exponential of `i` times its transpose. -/
theorem exp_complex_spec {f : Heev ℂ} (hf : HeevDoc f false) {m : Mat ℂ} {n : Nat} {H : Matrix (Fin n) (Fin n) ℂ}
    (hm : Represents m n n H) (hn : 0 < n) (hH : H.conjTranspose = H) :
    (expMat f false expComplex m = throwOut ∧ ∃ lwork, (f 'V' 'U' n m.data n (List.replicate n 0) lwork).info > 0) ∨
    ∃ r, expMat f false expComplex m = .ok r ∧ Represents r n n (NormedSpace.exp (Complex.I • H.transpose)) := by
  have := func_spec hf expComplex hm hn hH Complex.I (by
    intro y
    unfold expComplex
    change _ = NormedSpace.exp (Complex.I * Complex.ofReal y)
    rw [← Complex.exp_eq_exp_ℂ, mul_comm, Complex.exp_mul_I]
    apply Complex.ext <;> simp [← Complex.ofReal_cos, ← Complex.ofReal_sin])
  rw [← Matrix.exp_transpose, Matrix.transpose_smul] at this
  exact this

/-- **C80** `expIpi` of a complex Hermitian matrix `H` is the exponential of `i π` times its transpose; another one must
be square. -/
theorem expIpi_spec {f : Heev ℂ} (hf : HeevDoc f false) {m : Mat ℂ} {n : Nat} {H : Matrix (Fin n) (Fin n) ℂ}
    (hm : Represents m n n H) (hn : 0 < n) (hH : H.conjTranspose = H) :
    (expIpi f m = throwOut ∧ ∃ lwork, (f 'V' 'U' n m.data n (List.replicate n 0) lwork).info > 0) ∨
    ∃ r, expIpi f m = .ok r ∧ Represents r n n (NormedSpace.exp ((Complex.I * Real.pi) • H.transpose)) := by
  have := func_spec hf (fun y => ⟨Real.cos (y * Real.pi), Real.sin (y * Real.pi)⟩) hm hn hH (Complex.I * Real.pi) (by
    intro y
    change _ = NormedSpace.exp (Complex.I * Complex.ofReal Real.pi * Complex.ofReal y)
    rw [← Complex.exp_eq_exp_ℂ, show Complex.I * Complex.ofReal Real.pi * Complex.ofReal y =
      Complex.ofReal (y * Real.pi) * Complex.I by rw [Complex.ofReal_mul]; ring, Complex.exp_mul_I,
      ← Complex.ofReal_cos, ← Complex.ofReal_sin]
    generalize Real.cos (y * Real.pi) = p
    generalize Real.sin (y * Real.pi) = q
    apply Complex.ext <;> simp)
  rw [← Matrix.exp_transpose, Matrix.transpose_smul] at this
  unfold expIpi
  rw [if_neg (by rw [hm.nrow, hm.ncol]; simp)]
  exact this

/-- **C80** A matrix that is not square is refused by `expIpi`. -/
theorem expIpi_square (f : Heev ℂ) (m : Mat ℂ) (h : m.nrow ≠ m.ncol) : expIpi f m = throwOut := by
  unfold expIpi
  rw [if_pos h]

/-- **C80** So `exp` of a complex matrix is not its exponential: here it is `exp(i)` and not `exp(1)`. -/
theorem exp_complex_fails {f : Heev ℂ} (hf : HeevDoc f false) (r : Mat ℂ)
    (h : expMat f false expComplex ⟨1, 1, [1]⟩ = .ok r) :
    ¬ Represents r 1 1 (NormedSpace.exp (1 : Matrix (Fin 1) (Fin 1) ℂ)) := by
  have hm : Represents (⟨1, 1, [1]⟩ : Mat ℂ) 1 1 1 := ⟨rfl, rfl, rfl, by intro i j; fin_cases i; fin_cases j; rfl⟩
  rcases exp_complex_spec hf hm (by omega) (by simp) with ⟨h', _⟩ | ⟨r', h', h1⟩
  · rw [h] at h'; cases h'
  rw [h] at h'
  cases h'
  intro h2
  have e := (h1.entry 0 0).symm.trans (h2.entry 0 0)
  rw [Matrix.transpose_one, Matrix.smul_one_eq_diagonal, Matrix.exp_diagonal,
    show (1 : Matrix (Fin 1) (Fin 1) ℂ) = Matrix.diagonal fun _ => 1 from Matrix.diagonal_one.symm, Matrix.exp_diagonal,
    Matrix.diagonal_apply_eq, Matrix.diagonal_apply_eq, Pi.exp_def, Pi.exp_def] at e
  simp only [Option.some.injEq] at e
  rw [← Complex.exp_eq_exp_ℂ] at e
  have n1 : ‖Complex.exp Complex.I‖ = 1 := by
    have := Complex.norm_exp_ofReal_mul_I 1
    simpa using this
  have n2 : ‖Complex.exp 1‖ = Real.exp 1 := by
    have := Complex.norm_exp 1
    simpa using this
  rw [e, n2] at n1
  have := Real.add_one_lt_exp (x := 1) (by norm_num)
  linarith

/-- **C80** And `expIpi` is not the exponential of `i π H` when `H` is not symmetric: for a projector, one is the negative
of the other. -/
theorem expIpi_fails {f : Heev ℂ} (hf : HeevDoc f false) (r : Mat ℂ)
    (h : expIpi f ⟨2, 2, [1 / 2, Complex.I / 2, -Complex.I / 2, 1 / 2]⟩ = .ok r) :
    ¬ Represents r 2 2 (NormedSpace.exp ((Complex.I * Real.pi) •
      !![1 / 2, -Complex.I / 2; Complex.I / 2, 1 / 2])) := by
  have hm : Represents (⟨2, 2, [1 / 2, Complex.I / 2, -Complex.I / 2, 1 / 2]⟩ : Mat ℂ) 2 2
      !![1 / 2, -Complex.I / 2; Complex.I / 2, 1 / 2] :=
    ⟨rfl, rfl, rfl, by intro i j; fin_cases i <;> fin_cases j <;> rfl⟩
  have hH : (!![1 / 2, -Complex.I / 2; Complex.I / 2, 1 / 2] : Matrix (Fin 2) (Fin 2) ℂ).conjTranspose =
      !![1 / 2, -Complex.I / 2; Complex.I / 2, 1 / 2] := by
    ext i j
    fin_cases i <;> fin_cases j <;> simp
  rcases expIpi_spec hf hm (by omega) hH with ⟨h', _⟩ | ⟨r', h', h1⟩
  · rw [h] at h'; cases h'
  rw [h] at h'
  cases h'
  intro h2
  have hu : (!![1, 1; Complex.I, -Complex.I] : Matrix (Fin 2) (Fin 2) ℂ) *
      !![1 / 2, -Complex.I / 2; 1 / 2, Complex.I / 2] = 1 := by
    ext i j
    fin_cases i <;> fin_cases j <;> simp [Matrix.mul_apply, Fin.sum_univ_two] <;> ring_nf <;> simp <;> norm_num
  have hi : (!![1, 1; Complex.I, -Complex.I] : Matrix (Fin 2) (Fin 2) ℂ)⁻¹ =
      !![1 / 2, -Complex.I / 2; 1 / 2, Complex.I / 2] := Matrix.inv_eq_right_inv hu
  have hU : IsUnit (!![1, 1; Complex.I, -Complex.I] : Matrix (Fin 2) (Fin 2) ℂ) := by
    rw [Matrix.isUnit_iff_isUnit_det]
    exact Matrix.isUnit_det_of_right_inverse hu
  have hP : (Complex.I * Real.pi) • !![1 / 2, -Complex.I / 2; Complex.I / 2, 1 / 2] =
      (!![1, 1; Complex.I, -Complex.I] : Matrix (Fin 2) (Fin 2) ℂ) *
        Matrix.diagonal ![Complex.I * Real.pi, 0] * (!![1, 1; Complex.I, -Complex.I])⁻¹ := by
    rw [hi]
    ext i j
    rw [Matrix.mul_apply, Fin.sum_univ_two, Matrix.mul_diagonal, Matrix.mul_diagonal]
    have i3 : Complex.I ^ 3 = -Complex.I := Complex.I_pow_three
    fin_cases i <;> fin_cases j <;> simp <;> ring_nf <;> rw [i3] <;> ring
  have hE : NormedSpace.exp ((Complex.I * Real.pi) • !![1 / 2, -Complex.I / 2; Complex.I / 2, 1 / 2]) =
      (!![0, Complex.I; -Complex.I, 0] : Matrix (Fin 2) (Fin 2) ℂ) := by
    rw [hP, Matrix.exp_conj _ _ hU, Matrix.exp_diagonal, hi, Pi.exp_def]
    have e0 : (NormedSpace.exp (Complex.I * Real.pi) : ℂ) = -1 := by
      rw [← Complex.exp_eq_exp_ℂ, mul_comm, Complex.exp_pi_mul_I]
    have e1 : (NormedSpace.exp (0 : ℂ)) = 1 := NormedSpace.exp_zero
    ext i j
    rw [Matrix.mul_apply, Fin.sum_univ_two, Matrix.mul_diagonal, Matrix.mul_diagonal]
    fin_cases i <;> fin_cases j <;> simp [e0] <;> ring_nf <;> simp
  have e := (h1.entry 0 1).symm.trans (h2.entry 0 1)
  rw [← Matrix.transpose_smul, Matrix.exp_transpose, hE] at e
  simp at e
  have := congrArg Complex.im e
  simp at this
  norm_num at this

end Verif.Lapack
