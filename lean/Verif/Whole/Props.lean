import Verif.Whole.Model
import Verif.TextIo.PropsMatFile
import Verif.Crs.Props
import Verif.Krylov.PropsInterlace
import Verif.Extrap.PropsFit
import Verif.Random.Props48
import Mathlib.LinearAlgebra.Vandermonde

/-!
# C126: exact and Lanczos energies of a matrix in a file
-/

namespace Verif.Whole

open Verif.Loop Verif.Dense Verif.TextIo Verif.IoSimple Verif.Krylov Verif.Lapack Matrix

/-! ## The pieces -/

theorem readSquare_spec {N : Type} [Zero N] {pr : N → List Char} {rd : Stream → N → Out (Stream × N)}
    (ht : Through pr rd fun _ _ => True) {n : Nat} {A : Matrix (Fin n) (Fin n) N} {m : Mat N} (h : Represents m n n A) (hn0 : 0 < n)
    (limit : Nat) (hlim : n * n ≤ limit) (hl : n * n < 2 ^ 64) (ws tail : List Char) (hw : White ws) :
    ∃ text, matText pr m = some text ∧ readSquare limit rd ⟨ws ++ text ++ tail, false, false⟩ = .ok m := by
  have hr : n < 2 ^ 64 := lt_of_le_of_lt (Nat.le_mul_of_pos_right _ hn0) hl
  obtain ⟨text, ws', h1, h2, h3⟩ := file_matrix ht h hn0 hn0 limit hlim hl ws tail hw
  refine ⟨text, h1, ?_⟩
  have ht : text = matLines pr A := by
    rw [matText_spec pr h] at h1
    exact (Option.some.inj h1).symm
  obtain ⟨rows, hrows⟩ : ∃ rows, rows = ((List.finRange n).flatMap fun i => ((List.finRange n).flatMap fun j => pr (A i j) ++ [' ']) ++ ['\n']) :=
    ⟨_, rfl⟩
  have e : ws ++ text ++ tail = ws ++ Nat.toDigits 10 n ++ ' ' :: (Nat.toDigits 10 n ++ '\n' :: (rows ++ tail)) := by
    rw [ht, matLines, ← hrows]
    simp
  have e2 : (' ' :: (Nat.toDigits 10 n ++ '\n' :: (rows ++ tail))) = [' '] ++ Nat.toDigits 10 n ++ '\n' :: (rows ++ tail) := by simp
  unfold matFromStream at h3
  rw [e, fresh_ok n hr ws ' ' _ hw rfl, readU64_digits n _ hr ws ' ' _ hw rfl] at h3
  simp only [bind, Except.bind] at h3
  rw [e2, fresh_ok n hr [' '] '\n' _ (white_one rfl) rfl, readU64_digits n _ hr [' '] '\n' _ (white_one rfl) rfl] at h3
  simp only at h3
  rw [if_neg (show ¬ (n = 0 ∨ n = 0) by omega)] at h3
  have hlim' : ¬ n * n % 2 ^ 64 > limit := by rw [Nat.mod_eq_of_lt hl]; omega
  rw [if_neg hlim'] at h3
  unfold readSquare
  rw [e, readU64_digits n _ hr ws ' ' _ hw rfl]
  simp only [bind, Except.bind]
  rw [e2, readU64_digits n _ hr [' '] '\n' _ (white_one rfl) rfl]
  simp only
  rw [if_neg (by simp), if_neg hlim']
  erw [h3]
  rfl

theorem values_rep {N : Type} (val : N → ℂ) {n : Nat} {A : Matrix (Fin n) (Fin n) N} {m : Mat N} (h : Represents m n n A) :
    Represents (values val m) n n (A.map val) :=
  Represents.of_data ⟨h.nrow, h.ncol, by simp [values, h.size]⟩ fun i j => by
    simp [values, h.data]

theorem crsMul_spec {α : Type} [CommRing α] {c : Crs.Crs α} {n : Nat} {A : Matrix (Fin n) (Fin n) α} (h : Crs.Represents c n n A) :
    crsMul c n = (A *ᵥ ·) := by
  funext y i
  unfold crsMul
  have := Crs.matrixVectorProduct_spec h (fun _ => 0) y
  rw [show List.ofFn (fun _ : Fin n => (0 : α)) = List.replicate n 0 by simp] at this
  rw [this]
  simp [List.getD_eq_getElem?_getD]

theorem printed_spec {n : Nat} (w : Fin n → ℝ) : printed (List.ofFn w) n = .ok (List.ofFn w) := by
  unfold printed
  rw [Extrap.mapM_all (g := fun i => (List.ofFn w).getD i 0)]
  · show (Except.ok _ : Out (List ℝ)) = _
    congr 1
    apply List.ext_getElem?
    intro k
    by_cases hk : k < n
    · simp [hk, List.getD_eq_getElem?_getD]
    · rw [List.getElem?_eq_none (by simpa using hk), List.getElem?_eq_none (by simpa using hk)]
  · intro i hi
    have : i < n := by simpa using hi
    simp [this, List.getD_eq_getElem?_getD]

/-! ## All energies -/

/-- With as many steps as rows and a tolerance that is not positive, the energies are the eigenvalues. -/
theorem states_full {𝕜 : Type} [RCLike 𝕜] {n : Nat} (p : SolverP 𝕜 n) (H : Matrix (Fin n) (Fin n) 𝕜) (hp : p.mul = (H *ᵥ ·))
    (hH : H.IsHermitian) (hs : SameSize p) (hd : Diagonalizes p.diag) (ht : p.tolerance ≤ 0) (steps : Nat) (hst : n ≤ steps)
    (init : Fin n → 𝕜) (h2 : 2 ≤ n) (hmin : n ≤ 4 ∨ p.minSteps < n) (hi : Independent H init n) {μ : Fin n → ℝ}
    {W : Matrix (Fin n) (Fin n) 𝕜} (hW : IsEigen H μ W) :
    computeAllStatesBelow p steps [] init n = .ok (List.ofFn μ, [], n) := by
  have hm : min steps n = n := Nat.min_eq_right hst
  have h0 : init ≠ 0 := by
    rintro rfl
    have := hi.ne_zero (⟨0, by omega⟩ : Fin n)
    simp at this
  obtain ⟨r, hr, hrn⟩ := run_full p H hp hH hs ht steps init h0 (by omega) (by rw [hm]; exact hmin) n
  rw [hm] at hrn
  obtain ⟨k, k1, k2, k3, -, k4⟩ := allStates_spec p H hp hH hs hd steps init (by omega) (by rw [hm]; exact hmin) (by rw [hm]; exact hi) n 0
  rw [List.replicate_zero] at k3 k4
  have hk : k = n := by
    by_contra hne
    have := k3 (by omega)
    unfold computeAllStatesBelow at this
    rw [hr] at this
    simp only at this
    rw [if_neg (by omega)] at this
    split at this <;> cases this
  subst hk
  obtain ⟨w, zs, e, hw, hz, -⟩ := k4 (.inr ⟨rfl, by omega⟩)
  obtain rfl : zs = [] := List.length_eq_zero_iff.1 hz
  obtain ⟨-, -, g⟩ := states_interlace p H hp hH hs hd steps init (by omega) (by rw [hm]; exact hmin) (by rw [hm]; exact hi) W μ hW.sorted
    (mul_eq_one_comm.1 hW.unitary) hW.eigen k [] [] _ k e
  rw [e]
  have : w = μ := by
    funext i
    obtain ⟨g1, g2⟩ := g i.1 (le_refl _) i.2 (w i) (by simp)
    have e1 : (⟨k - k + i.1, by omega⟩ : Fin k) = i := Fin.ext (by simp)
    rw [e1] at g2
    exact le_antisymm g2 g1
  rw [this]

/-- A start vector with a part along every eigenvector, and eigenvalues that are all different: the powers are independent. -/
theorem independent_overlap {𝕜 : Type} [RCLike 𝕜] {n : Nat} {H : Matrix (Fin n) (Fin n) 𝕜} {μ : Fin n → ℝ} {W : Matrix (Fin n) (Fin n) 𝕜}
    (hW : IsEigen H μ W) (hμ : StrictMono μ) (init : Fin n → 𝕜) (ho : ∀ k, (Wᴴ *ᵥ init) k ≠ 0) : Independent H init n := by
  have hpow : ∀ i : Nat, Wᴴ *ᵥ (H ^ i *ᵥ init) = diagonal (fun k => (μ k : 𝕜) ^ i) *ᵥ (Wᴴ *ᵥ init) := by
    have hWW : W * Wᴴ = 1 := mul_eq_one_comm.1 hW.unitary
    have hHW : Wᴴ * H = diagonal (fun k => (μ k : 𝕜)) * Wᴴ := by
      calc Wᴴ * H = Wᴴ * (H * W) * Wᴴ := by rw [Matrix.mul_assoc, Matrix.mul_assoc, hWW, Matrix.mul_one]
        _ = (Wᴴ * W) * diagonal (fun k => (μ k : 𝕜)) * Wᴴ := by rw [hW.eigen]; simp only [Matrix.mul_assoc]
        _ = _ := by rw [hW.unitary, Matrix.one_mul]
    intro i
    induction i with
    | zero => simp
    | succ i ih =>
      rw [pow_succ', ← mulVec_mulVec, mulVec_mulVec, hHW, ← mulVec_mulVec, ih, mulVec_mulVec, diagonal_mul_diagonal]
      congr 3
      funext k
      rw [pow_succ']
  unfold Independent
  rw [Fintype.linearIndependent_iff]
  intro g hg
  have hz : ∀ k, ∑ i : Fin n, g i * (μ k : 𝕜) ^ i.1 = 0 := by
    intro k
    have h1 := congrFun (congrArg (Wᴴ *ᵥ ·) hg) k
    simp only [mulVec_sum, mulVec_smul, hpow, mulVec_zero, Finset.sum_apply, Pi.smul_apply, mulVec_diagonal, smul_eq_mul, Pi.zero_apply] at h1
    have h2 : (∑ i : Fin n, g i * (μ k : 𝕜) ^ i.1) * (Wᴴ *ᵥ init) k = 0 := by
      rw [← h1, Finset.sum_mul]
      exact Finset.sum_congr rfl fun i _ => by ring
    exact (mul_eq_zero.1 h2).resolve_right (ho k)
  have hdet : (vandermonde fun k => (μ k : 𝕜)).det ≠ 0 := by
    rw [det_vandermonde_ne_zero_iff]
    intro a b hab
    exact hμ.injective (RCLike.ofReal_injective hab)
  have := Matrix.eq_zero_of_mulVec_eq_zero hdet (v := g) (by
    funext k
    simp only [Matrix.mulVec, dotProduct, vandermonde_apply, Pi.zero_apply]
    rw [← hz k]
    exact Finset.sum_congr rfl fun i _ => mul_comm _ _)
  exact fun i => congrFun this i

/-! ## The program -/

theorem crs_of {m : Mat ℂ} {n : Nat} {A : Matrix (Fin n) (Fin n) ℂ} (hm : Represents m n n A) :
    ∃ c, Crs.ofDense (fun z : ℂ => ‖z‖) m = some c ∧ crsMul c n = (A *ᵥ ·) := by
  obtain ⟨c, h1, h2, -⟩ := Crs.ofDense_spec (fun z : ℂ => ‖z‖) (fun x => by simp) hm
  exact ⟨c, h1, crsMul_spec h2⟩

theorem reortho_on : isReorthoEnabled "reortho".toList true = .ok true := by decide

/-- The program up to the call of the solver. -/
theorem solve_eq {fs : Stedc} {fh : Heev ℂ} (hf : HeevDoc fh false)
    (hc : ∀ jobz uplo n a lda w lwork, (fh jobz uplo n a lda w lwork).info ≤ 0) {rnd : ℚ → ℚ} {now : Int} {n : Nat} (hn : 0 < n)
    {A : Matrix (Fin n) (Fin n) ℂ} {m : Mat ℂ} (hm : Represents m n n A) (hA : A.IsHermitian) {v : List ℝ}
    (hv : Random.fillRandom rnd now n = some v) :
    ∃ w V, IsEigen A w V ∧ solve fs fh rnd now n m = (do
      let r ← computeAllStatesBelow ⟨(A *ᵥ ·), true, -1, 4, eigsOf fs, diagOf fh false⟩ 200 [] (startOf v n) n
      let lanczos ← printed r.1 n
      return (List.ofFn w, lanczos)) := by
  obtain ⟨c, c1, c2⟩ := crs_of hm
  rcases diag_spec hf hm hn (H := A) hA (fun _ _ _ => rfl) (List.replicate n 0) (option := 'V') (by simp) with h | h
  · obtain ⟨_, lwork, h⟩ := h
    exact absurd (hc _ _ _ _ _ _ _) (not_le.2 h)
  · obtain ⟨m', w, V, h1, h2, _, h4⟩ := h
    refine ⟨w, V, h2, ?_⟩
    have hst : start rnd now n = .ok (startOf v n) := by
      unfold start
      rw [hv]
    unfold solve
    rw [c1, reortho_on, hst, h1]
    simp only [bind, Except.bind, acc, printed_spec, c2]

/-- **C126** The text of a Hermitian matrix of 2 to 200 rows, with a start vector whose images under the powers of the matrix are
independent: both lists are the eigenvalues in increasing order, each one as often as it is one. -/
theorem lanczos_file {N : Type} [Zero N] {pr : N → List Char} {rd : Stream → N → Out (Stream × N)}
    (ht : Through pr rd fun _ _ => True) (val : N → ℂ) {n : Nat} {A : Matrix (Fin n) (Fin n) N} {m : Mat N} (h : Represents m n n A)
    (hA : (A.map val).IsHermitian) (h2 : 2 ≤ n) (h200 : n ≤ 200) (limit : Nat) (hlim : n * n ≤ limit) (ws tail : List Char)
    (hw : White ws) {fs : Stedc} (hs : StedcDoc fs) {fh : Heev ℂ} (hf : HeevDoc fh false)
    (hc : ∀ jobz uplo n a lda w lwork, (fh jobz uplo n a lda w lwork).info ≤ 0) (rnd : ℚ → ℚ) (now : Int) (v : List ℝ)
    (hv : Random.fillRandom rnd now n = some v) (hi : Independent (A.map val) (startOf v n) n) :
    ∃ text w V, matText pr m = some text ∧ IsEigen (A.map val) w V ∧
      program limit rd val fs fh rnd now ⟨ws ++ text ++ tail, false, false⟩ = .ok (List.ofFn w, List.ofFn w) := by
  have hnn : n * n < 2 ^ 64 := lt_of_le_of_lt (Nat.mul_le_mul h200 h200) (by norm_num)
  obtain ⟨text, t1, t2⟩ := readSquare_spec ht h (by omega) limit hlim hnn ws tail hw
  obtain ⟨w, V, w1, w2⟩ := solve_eq (fs := fs) hf hc (by omega) (values_rep val h) hA hv
  refine ⟨text, w, V, t1, w1, ?_⟩
  unfold program
  rw [t2]
  simp only [bind, Except.bind]
  rw [h.nrow, w2]
  rw [states_full (⟨((A.map val) *ᵥ ·), true, -1, 4, eigsOf fs, diagOf fh false⟩ : SolverP ℂ n) (A.map val) rfl hA (eigs_same_size hs) (diag_diagonalizes hf hc) (by norm_num) 200 h200 (startOf v n) h2
    (by by_cases h4 : n ≤ 4; exact .inl h4; exact .inr (by simp only; omega)) hi w1]
  simp only [bind, Except.bind, printed_spec]
  rfl

/-- **C126** With more rows than the 200 steps of the solver the program throws, after the exact eigenvalues. -/
theorem lanczos_big_fails {N : Type} [Zero N] {pr : N → List Char} {rd : Stream → N → Out (Stream × N)}
    (ht : Through pr rd fun _ _ => True) (val : N → ℂ) {n : Nat} {A : Matrix (Fin n) (Fin n) N} {m : Mat N} (h : Represents m n n A)
    (hA : (A.map val).IsHermitian) (h200 : 200 < n) (limit : Nat) (hlim : n * n ≤ limit) (hnn : n * n < 2 ^ 64) (ws tail : List Char)
    (hw : White ws) {fs : Stedc} (hs : StedcDoc fs) {fh : Heev ℂ} (hf : HeevDoc fh false)
    (hc : ∀ jobz uplo n a lda w lwork, (fh jobz uplo n a lda w lwork).info ≤ 0) (rnd : ℚ → ℚ) (hr : Random.Rounding rnd) (now : Int) :
    ∃ text, matText pr m = some text ∧ program limit rd val fs fh rnd now ⟨ws ++ text ++ tail, false, false⟩ = throwOut := by
  obtain ⟨v, hv, v1, -, x, v2, v3⟩ := Random.fillRandom_unit rnd hr now n (by omega)
  have h0 : startOf v n ≠ 0 := by
    intro h0
    obtain ⟨i, hi, rfl⟩ := List.getElem_of_mem v2
    have := congrFun h0 ⟨i, by omega⟩
    simp only [startOf, List.getD_eq_getElem?_getD, List.getElem?_eq_getElem hi, Option.getD_some, Pi.zero_apply,
      Complex.ofReal_eq_zero] at this
    exact v3 this
  obtain ⟨text, t1, t2⟩ := readSquare_spec ht h (by omega) limit hlim hnn ws tail hw
  obtain ⟨w, V, w1, w2⟩ := solve_eq (fs := fs) hf hc (by omega) (values_rep val h) hA hv
  refine ⟨text, t1, ?_⟩
  unfold program
  rw [t2]
  simp only [bind, Except.bind]
  rw [h.nrow, w2]
  obtain ⟨r, hr, hrn⟩ := run_full (⟨((A.map val) *ᵥ ·), true, -1, 4, eigsOf fs, diagOf fh false⟩ : SolverP ℂ n) (A.map val) rfl hA
    (eigs_same_size hs) (by norm_num) 200 (startOf v n) h0 (by omega) (.inr (by simp only; omega)) n
  unfold computeAllStatesBelow
  rw [hr]
  simp only [bind, Except.bind]
  rw [if_pos (by omega)]
  rfl

/-! ## Two rows -/

/-- The sum and the product of two eigenvalues. -/
theorem two_eigen {𝕜 : Type} [RCLike 𝕜] {H : Matrix (Fin 2) (Fin 2) 𝕜} {w : Fin 2 → ℝ} {V : Matrix (Fin 2) (Fin 2) 𝕜} (h : IsEigen H w V) :
    (w 0 : 𝕜) + w 1 = H 0 0 + H 1 1 ∧ (w 0 : 𝕜) * w 1 = H 0 0 * H 1 1 - H 0 1 * H 1 0 ∧ w 0 ≤ w 1 := by
  have e : H = V * diagonal (fun k => (w k : 𝕜)) * Vᴴ := by
    rw [← h.eigen, Matrix.mul_assoc, mul_eq_one_comm.1 h.unitary, Matrix.mul_one]
  refine ⟨?_, ?_, h.sorted (by decide)⟩
  · have : H.trace = (diagonal (fun k => (w k : 𝕜))).trace := by
      conv_lhs => rw [e]
      rw [Matrix.mul_assoc, trace_mul_comm, Matrix.mul_assoc, h.unitary, Matrix.mul_one]
    rw [trace_fin_two, trace_fin_two] at this
    rw [this]
    simp
  · have : H.det = (diagonal (fun k => (w k : 𝕜))).det := by
      conv_lhs => rw [e]
      rw [Matrix.mul_assoc, det_mul_comm, Matrix.mul_assoc, h.unitary, Matrix.mul_one]
    rw [det_fin_two, det_diagonal, Fin.prod_univ_two] at this
    exact this.symm

/-- The first two random numbers differ in size. -/
theorem first_two (rnd : ℚ → ℚ) (hr : Random.Rounding rnd) (now : Int) :
    ∃ x y : ℝ, Random.fillRandom rnd now 2 = some [x, y] ∧ x * x - y * y ≠ 0 := by
  obtain ⟨v, hv, hl, hs, -⟩ := Random.fillRandom_unit rnd hr now 2 (by omega)
  obtain ⟨s, h1, -, -⟩ := Random.make48_spec rnd hr now 0 1 (by omega)
  obtain ⟨x, y, rfl⟩ : ∃ x y, v = [x, y] := by
    match v, hl with
    | [x, y], _ => exact ⟨x, y, rfl⟩
  refine ⟨x, y, hv, ?_⟩
  unfold Random.fillRandom at hv
  rw [if_neg (by omega), h1] at hv
  simp only [Option.map_some, Random.drands, Random.drand48, List.map_cons, List.map_nil, Option.some.injEq, List.cons.injEq, and_true] at hv
  obtain ⟨e1, e2⟩ := hv
  generalize 1.0 / Real.sqrt _ = c at e1 e2
  have hc : c ≠ 0 := by
    rintro rfl
    rw [mul_zero] at e1 e2
    subst e1 e2
    simp at hs
  have hodd := Random.first_odd s
  have heven : Random.lcg (Random.lcg (Random.srand48 s)) % 2 = 0 := by
    generalize Random.lcg (Random.srand48 s) = k at hodd
    unfold Random.lcg
    omega
  generalize Random.lcg (Random.srand48 s) = k at hodd heven e1 e2
  generalize Random.lcg k = l at heven e2
  rw [Rat.cast_div, Rat.cast_natCast, Rat.cast_ofNat] at e1 e2
  intro h0
  rw [← e1, ← e2] at h0
  have h3 : (((k : ℝ) - 140737488355328) - ((l : ℝ) - 140737488355328)) * (((k : ℝ) - 140737488355328) + ((l : ℝ) - 140737488355328)) = 0 := by
    have : (281474976710656 : ℝ) ^ 2 / (c * c) * 0 = 0 := mul_zero _
    rw [← h0] at this
    have e5 : (0.5 : ℝ) = 1 / 2 := by norm_num
    rw [e5] at this
    field_simp at this
    linarith
  rcases mul_eq_zero.1 h3 with h4 | h4
  · have h5 : (k : ℝ) = l := by linarith
    have h6 : k = l := by exact_mod_cast h5
    omega
  · have h5 : (k : ℝ) + l = 281474976710656 := by linarith
    have h6 : k + l = 281474976710656 := by exact_mod_cast h5
    omega

/-- The matrix that exchanges two sites, and what the start vector must be. -/
theorem swap_independent {x y : ℝ} (h : x * x - y * y ≠ 0) : Independent !![0, 1; 1, 0] (startOf [x, y] 2) 2 := by
  unfold Independent
  rw [Fintype.linearIndependent_iff]
  intro g hg
  have h0 := congrFun hg 0
  have h1 := congrFun hg 1
  simp [Fin.sum_univ_two, Matrix.mulVec, dotProduct, startOf] at h0 h1
  have hc : ((x : ℂ) * x - y * y) ≠ 0 := by exact_mod_cast h
  have e0 : ((x : ℂ) * x - y * y) * g 0 = 0 := by linear_combination (x : ℂ) * h0 - (y : ℂ) * h1
  have e1 : ((x : ℂ) * x - y * y) * g 1 = 0 := by linear_combination (x : ℂ) * h1 - (y : ℂ) * h0
  intro i
  fin_cases i
  · exact (mul_eq_zero.1 e0).resolve_left hc
  · exact (mul_eq_zero.1 e1).resolve_left hc

instance : Zero Small := ⟨⟨0, Nat.zero_le _⟩⟩

/-- Numbers that are read as an `int`. -/
def readSmall (st : Stream) (old : Small) : Out (Stream × Small) :=
  let r := readInt st
  .ok (r.1, ⟨min ((r.2.getD old.1).toNat) 2147483647, Nat.min_le_right _ _⟩)

/-- The hypotheses of `lanczos_file` are met: the file with the matrix that exchanges two sites.  At whatever time the program is
run, both lists are `-1` and `1`. -/
theorem lanczos_swap {fs : Stedc} (hs : StedcDoc fs) {fh : Heev ℂ} (hf : HeevDoc fh false)
    (hc : ∀ jobz uplo n a lda w lwork, (fh jobz uplo n a lda w lwork).info ≤ 0) (rnd : ℚ → ℚ) (hr : Random.Rounding rnd) (now : Int) :
    program 4 readSmall (fun k => (k.1 : ℂ)) fs fh rnd now (.ofText "2 2\n0 1 \n1 0 \n".toList) = .ok ([-1, 1], [-1, 1]) := by
  obtain ⟨x, y, hv, hxy⟩ := first_two rnd hr now
  have hA : (!![(⟨0, by omega⟩ : Small), ⟨1, by omega⟩; ⟨1, by omega⟩, ⟨0, by omega⟩]).map (fun k : Small => (k.1 : ℂ)) = !![0, 1; 1, 0] := by
    ext i j
    fin_cases i <;> fin_cases j <;> simp
  obtain ⟨text, w, V, t1, t2, t3⟩ := lanczos_file (rd := readSmall) through_small (fun k : Small => (k.1 : ℂ))
    (A := !![(⟨0, by omega⟩ : Small), ⟨1, by omega⟩; ⟨1, by omega⟩, ⟨0, by omega⟩])
    (m := ⟨2, 2, [⟨0, by omega⟩, ⟨1, by omega⟩, ⟨1, by omega⟩, ⟨0, by omega⟩]⟩)
    (Represents.of_data ⟨rfl, rfl, rfl⟩ (by intro i j; fin_cases i <;> fin_cases j <;> rfl))
    (by rw [hA]; ext i j; fin_cases i <;> fin_cases j <;> simp) (le_refl _) (by omega) 4 (by omega) [] [] white_nil hs hf hc rnd now
    [x, y] hv (by rw [hA]; exact swap_independent hxy)
  obtain rfl : "2 2\n0 1 \n1 0 \n".toList = text := by
    rw [← Option.some_inj, ← t1]
    rfl
  rw [hA] at t2
  obtain ⟨w1, w2, w3⟩ := two_eigen t2
  simp at w1 w2
  have w1' : w 0 + w 1 = 0 := by exact_mod_cast w1
  have w2' : w 0 * w 1 = -1 := by exact_mod_cast w2
  have e0 : w 0 = -1 := by nlinarith
  have e1 : w 1 = 1 := by linarith
  have e : List.ofFn w = [-1, 1] := by
    rw [List.ofFn_succ, List.ofFn_succ, List.ofFn_zero]
    simp only [Fin.succ_zero_eq_one, e0, e1]
  rw [e] at t3
  simpa [Stream.ofText] using t3

/-- The run for the matrix `1` with two rows. -/
theorem one_run (tolerance : ℝ) (minSteps : Nat) (eigs : List ℝ → List ℝ → Nat → List ℝ) (he : ∀ a b k, (eigs a b k).length = a.length)
    (diag : Mat ℂ → List ℝ × Mat ℂ) (init : Fin 2 → ℂ) (h0 : init ≠ 0) (steps : Nat) (hst : 2 ≤ steps) :
    ∃ data, decompositionD (⟨((1 : Matrix (Fin 2) (Fin 2) ℂ) *ᵥ ·), true, tolerance, minSteps, eigs, diag⟩ : SolverP ℂ 2) steps init 2 =
      some ⟨2, data, [1, 0], [0, 0]⟩ := by
  obtain ⟨V0, hV⟩ : ∃ V0 : Fin 2 → ℂ, V0 = fun i => init i * ((1 / Real.sqrt (reDot init init) : ℝ) : ℂ) := ⟨_, rfl⟩
  have hpos : 0 < reDot init init := lt_of_le_of_ne (reDot_nonneg init) fun h => h0 ((reDot_eq_zero init).1 h.symm)
  have hr : reDot V0 V0 = 1 := by
    rw [hV, reDot_self]
    rw [reDot_self] at hpos ⊢
    have h1 := Real.sq_sqrt hpos.le
    have h2 : 0 < Real.sqrt (∑ k, ‖init k‖ ^ 2) := Real.sqrt_pos.2 hpos
    simp only [norm_mul, mul_pow, Complex.norm_real, Real.norm_eq_abs, sq_abs]
    rw [← Finset.sum_mul, div_pow, h1, one_pow, mul_one_div_cancel hpos.ne']
  have hz : reDot (0 : Fin 2 → ℂ) 0 = 0 := by simp [reDot]
  have h1 : (fun i => V0 i - ((1 : ℝ) : ℂ) * V0 i) = 0 := by
    ext i
    simp
  have hm : (if steps > 2 then 2 else steps) = 2 := by split <;> omega
  have hn : Krylov.normalize (0 : Fin 2 → ℂ) (Real.sqrt 0) = 0 := by
    unfold Krylov.normalize
    rw [if_neg (by simp)]
  obtain ⟨d, e, hd, -⟩ := deltas_some (min 2 (eigs [1, 0] [0, 0] 2).length) (eigs [1, 0] [0, 0] 2) [0, 0] (Nat.min_le_right _ _) (Nat.min_le_left _ _)
  refine ⟨[V0, 0], ?_⟩
  have hstep : ∃ V2, oneStep ((1 : Matrix (Fin 2) (Fin 2) ℂ) *ᵥ ·) true [V0, 0] V0 0 [1, 0] [0, 0] 1 = some (V2, [1, 0], [0, 0]) := by
    unfold oneStep
    simp only [one_mulVec, hz, setAt, reortho, loopN]
    simp [orthoTo]
  obtain ⟨V2, hs2⟩ := hstep
  have hb1 : setAt (List.replicate 2 (0 : ℝ)) 0 0 = some [0, 0] := rfl
  have hb2 : setAt ([0, 0] : List ℝ) 1 (Real.sqrt 0) = some [0, 0] := by simp [setAt]
  have ha1 : setAt (List.replicate 2 (0 : ℝ)) 0 1 = some [1, 0] := rfl
  have hd1 : setAt (List.replicate 2 (0 : Fin 2 → ℂ)) 0 V0 = some [V0, 0] := rfl
  have hd2 : setAt [V0, 0] 1 (0 : Fin 2 → ℂ) = some [V0, 0] := rfl
  have hfirst : first ((1 : Matrix (Fin 2) (Fin 2) ℂ) *ᵥ ·) 2 init = some (V0, 0, [V0, 0], [1, 0], [0, 0]) := by
    have e : first ((1 : Matrix (Fin 2) (Fin 2) ℂ) *ᵥ ·) 2 init =
        (setAt (List.replicate 2 (0 : ℝ)) 0 0).bind fun b => (setAt (List.replicate 2 (0 : Fin 2 → ℂ)) 0 V0).bind fun data =>
        (setAt (List.replicate 2 (0 : ℝ)) 0 (reDot ((1 : Matrix (Fin 2) (Fin 2) ℂ) *ᵥ V0) V0)).bind fun a =>
        let V1 : Fin 2 → ℂ := fun i => ((1 : Matrix (Fin 2) (Fin 2) ℂ) *ᵥ V0) i - (reDot ((1 : Matrix (Fin 2) (Fin 2) ℂ) *ᵥ V0) V0 : ℂ) * V0 i
        (setAt b 1 (Real.sqrt (reDot V1 V1))).bind fun b =>
        (if 1 < 2 then setAt data 1 (Krylov.normalize V1 (Real.sqrt (reDot V1 V1))) else some data).bind fun data =>
        some (V0, Krylov.normalize V1 (Real.sqrt (reDot V1 V1)), data, a, b) := by
      rw [hV]
      rfl
    rw [e]
    simp only [one_mulVec, hr]
    rw [h1, hz, hn, hb1, ha1, hd1]
    simp only [Option.bind_some]
    rw [hb2, if_pos (by decide)]
    simp only [Option.bind_some, hd2]
  have hl : loopD (⟨((1 : Matrix (Fin 2) (Fin 2) ℂ) *ᵥ ·), true, tolerance, minSteps, eigs, diag⟩ : SolverP ℂ 2) 2 2 1 1 false
      (List.replicate 2 0) V0 0 [V0, 0] [1, 0] [0, 0] = some (1, [V0, 0], [1, 0], [0, 0]) := by
    rw [loopD]
    simp only [one_mulVec] at hs2
    simp only [bind, one_mulVec, hs2, Option.bind_some]
    rw [show (1 : Nat) + 1 = 2 by rfl, show List.replicate 2 (0 : ℝ) = [0, 0] by rfl, hd]
    simp
  rw [decompositionD_split, hm, hfirst]
  simp only [Option.bind_some]
  rw [show 2 - 1 = 1 by rfl, hl]
  rfl

/-- **C126** Two equal eigenvalues: at whatever time the program is run, for the matrix `1` with two rows the Lanczos solver finds
the energies `0` and `1`. -/
theorem lanczos_equal_fails {fs : Stedc} (hs : StedcDoc fs) {fh : Heev ℂ} (hf : HeevDoc fh false)
    (hc : ∀ jobz uplo n a lda w lwork, (fh jobz uplo n a lda w lwork).info ≤ 0) (rnd : ℚ → ℚ) (hr : Random.Rounding rnd) (now : Int) :
    program 4 readSmall (fun k => (k.1 : ℂ)) fs fh rnd now (.ofText "2 2\n1 0 \n0 1 \n".toList) = .ok ([1, 1], [0, 1]) := by
  obtain ⟨x, y, hv, hxy⟩ := first_two rnd hr now
  have hA : (!![(⟨1, by omega⟩ : Small), ⟨0, by omega⟩; ⟨0, by omega⟩, ⟨1, by omega⟩]).map (fun k : Small => (k.1 : ℂ)) = 1 := by
    ext i j
    fin_cases i <;> fin_cases j <;> simp
  have hm : Represents (⟨2, 2, [⟨1, by omega⟩, ⟨0, by omega⟩, ⟨0, by omega⟩, ⟨1, by omega⟩]⟩ : Mat Small) 2 2
      !![(⟨1, by omega⟩ : Small), ⟨0, by omega⟩; ⟨0, by omega⟩, ⟨1, by omega⟩] :=
    Represents.of_data ⟨rfl, rfl, rfl⟩ (by intro i j; fin_cases i <;> fin_cases j <;> rfl)
  obtain ⟨text, t1, t2⟩ := readSquare_spec (rd := readSmall) through_small hm (by omega) 4 (by omega) (by norm_num) [] [] white_nil
  obtain rfl : "2 2\n1 0 \n0 1 \n".toList = text := by
    rw [← Option.some_inj, ← t1]
    rfl
  have hm' := values_rep (fun k : Small => (k.1 : ℂ)) hm
  rw [hA] at hm'
  obtain ⟨w, V, w0, e⟩ := solve_eq (fs := fs) hf hc (by omega) hm' (by simp) hv
  obtain ⟨w1, w2, w3⟩ := two_eigen w0
  simp at w1 w2
  have w1' : w 0 + w 1 = 1 + 1 := by exact_mod_cast w1
  have w2' : w 0 * w 1 = 1 := by exact_mod_cast w2
  have e0 : w 0 = 1 := by nlinarith
  have e1 : w 1 = 1 := by linarith
  have h0 : startOf [x, y] 2 ≠ 0 := by
    intro h0
    have c0 := congrFun h0 0
    have c1 := congrFun h0 1
    simp [startOf] at c0 c1
    subst c0 c1
    simp at hxy
  obtain ⟨data, hd⟩ := one_run (-1) 4 (eigsOf fs) (eigs_same_size hs) (diagOf fh false) (startOf [x, y] 2) h0 200 (by omega)
  have hb : buildDense (fun x : ℝ => (x : ℂ)) [1, 0] [0, 0] ⟨0, 0, []⟩ 0 = some ⟨2, 2, [((1 : ℝ) : ℂ), ((0 : ℝ) : ℂ), ((0 : ℝ) : ℂ), ((0 : ℝ) : ℂ)]⟩ := rfl
  obtain ⟨u, U, d1, d2, d3, d4, d5⟩ := diag_diagonalizes hf hc 2 ⟨2, 2, [((1 : ℝ) : ℂ), ((0 : ℝ) : ℂ), ((0 : ℝ) : ℂ), ((0 : ℝ) : ℂ)]⟩ !![1, 0; 0, 0]
    (Represents.of_data ⟨rfl, rfl, rfl⟩ (by intro i j; fin_cases i <;> fin_cases j <;> simp))
    (by ext i j; fin_cases i <;> fin_cases j <;> simp)
  obtain ⟨u1, u2, u3⟩ := two_eigen ⟨d5, d3, d4⟩
  simp at u1 u2
  have u1' : u 0 + u 1 = 1 := by exact_mod_cast u1
  have f0 : u 0 = 0 := by
    rcases u2 with h | h
    · exact h
    · linarith
  have f1 : u 1 = 1 := by linarith
  have hst : computeAllStatesBelow (⟨((1 : Matrix (Fin 2) (Fin 2) ℂ) *ᵥ ·), true, -1, 4, eigsOf fs, diagOf fh false⟩ : SolverP ℂ 2) 200 []
      (startOf [x, y] 2) 2 = .ok (List.ofFn u, [], 2) := by
    unfold computeAllStatesBelow
    rw [hd]
    simp only [gt_iff_lt, Nat.lt_irrefl, if_false]
    erw [hb]
    simp only [bind, Option.bind_some, d1]
    rfl
  have ew : List.ofFn w = [1, 1] := by
    rw [List.ofFn_succ, List.ofFn_succ, List.ofFn_zero]
    simp only [Fin.succ_zero_eq_one, e0, e1]
  have eu : List.ofFn u = [0, 1] := by
    rw [List.ofFn_succ, List.ofFn_succ, List.ofFn_zero]
    simp only [Fin.succ_zero_eq_one, f0, f1]
  have t2' : readSquare 4 readSmall (.ofText "2 2\n1 0 \n0 1 \n".toList) = .ok ⟨2, 2, [⟨1, by omega⟩, ⟨0, by omega⟩, ⟨0, by omega⟩, ⟨1, by omega⟩]⟩ := by
    simpa [Stream.ofText] using t2
  unfold program
  rw [t2']
  simp only [bind, Except.bind]
  rw [e, hst]
  simp only [bind, Except.bind, printed_spec, ew, eu]
  rfl

/-- **C126** A matrix with one row: `b(1)` of no elements is written. -/
theorem lanczos_one_fails {fs : Stedc} (hs : StedcDoc fs) {fh : Heev ℂ} (hf : HeevDoc fh false)
    (hc : ∀ jobz uplo n a lda w lwork, (fh jobz uplo n a lda w lwork).info ≤ 0) (rnd : ℚ → ℚ) (hr : Random.Rounding rnd) (now : Int)
    {m : Mat ℂ} {A : Matrix (Fin 1) (Fin 1) ℂ} (hm : Represents m 1 1 A) (hA : A.IsHermitian) : solve fs fh rnd now 1 m = ubOut := by
  obtain ⟨v, hv, -⟩ := Random.fillRandom_unit rnd hr now 1 (by omega)
  obtain ⟨w, V, -, e⟩ := solve_eq (fs := fs) hf hc (by omega) hm hA hv
  obtain ⟨close, -, -, hdec⟩ := decompositionD_eq (⟨(A *ᵥ ·), true, -1, 4, eigsOf fs, diagOf fh false⟩ : SolverP ℂ 1) (eigs_same_size hs) 200 (startOf v 1) 1
  rw [e]
  unfold computeAllStatesBelow
  rw [hdec, one_step_fails _ _ _ (by omega)]
  rfl

/-- **C126** Different numbers of rows and of columns are refused. -/
theorem lanczos_shape {N : Type} [Zero N] (limit : Nat) (rd : Stream → N → Out (Stream × N)) (val : N → ℂ) (fs : Stedc) (fh : Heev ℂ)
    (rnd : ℚ → ℚ) (now : Int) (r c : Nat) (hr : r < 2 ^ 64) (hc : c < 2 ^ 64) (hrc : r ≠ c) (ws tail : List Char) (hw : White ws) :
    program limit rd val fs fh rnd now ⟨ws ++ Nat.toDigits 10 r ++ ' ' :: (Nat.toDigits 10 c ++ '\n' :: tail), false, false⟩ = throwOut := by
  have e2 : (' ' :: (Nat.toDigits 10 c ++ '\n' :: tail)) = [' '] ++ Nat.toDigits 10 c ++ '\n' :: tail := by simp
  unfold program readSquare
  rw [readU64_digits r _ hr ws ' ' _ hw rfl]
  simp only [bind, Except.bind]
  rw [e2, readU64_digits c _ hc [' '] '\n' _ (white_one rfl) rfl]
  simp only
  rw [if_pos hrc]
  rfl

/-- The routines of LAPACK exist. -/
example : ∃ (fs : Stedc) (fh : Heev ℂ), ∀ now, program 4 readSmall (fun k => (k.1 : ℂ)) fs fh id now (.ofText "2 2\n0 1 \n1 0 \n".toList) =
    .ok ([-1, 1], [-1, 1]) := by
  obtain ⟨fs, hs, _⟩ := stedc_exists
  obtain ⟨fh, hf, hc⟩ := heev_exists (𝕜 := ℂ) false
  exact ⟨fs, fh, fun now => lanczos_swap hs hf hc id ⟨monotone_id, fun _ _ => rfl⟩ now⟩

end Verif.Whole
