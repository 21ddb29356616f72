import Verif.Lapack.PropsEigen
import Verif.Lapack.PropsInverse
import Mathlib.Analysis.Matrix.Spectrum
import Mathlib.Data.Fin.Tuple.Sort

/-!
# Routines that do what the documentation says exist

So the theorems of C80 are about something.
-/

namespace Verif.Lapack

open Verif.Loop Verif.Dense

variable {𝕜 : Type} [RCLike 𝕜]

theorem eigen_exists {n : Nat} (H : Matrix (Fin n) (Fin n) 𝕜) (hH : H.conjTranspose = H) : ∃ w V, IsEigen H w V := by
  have h : H.IsHermitian := hH
  refine ⟨h.eigenvalues ∘ Tuple.sort h.eigenvalues,
    (h.eigenvectorUnitary : Matrix (Fin n) (Fin n) 𝕜).submatrix id (Tuple.sort h.eigenvalues), Tuple.monotone_sort _, ?_, ?_⟩
  · have : (h.eigenvectorUnitary : Matrix (Fin n) (Fin n) 𝕜).conjTranspose * h.eigenvectorUnitary = 1 :=
      Unitary.coe_star_mul_self h.eigenvectorUnitary
    ext i j
    have key := congrFun (congrFun this (Tuple.sort h.eigenvalues i)) (Tuple.sort h.eigenvalues j)
    rw [Matrix.mul_apply] at key ⊢
    rw [Matrix.one_apply] at key ⊢
    simp only [EmbeddingLike.apply_eq_iff_eq] at key
    exact key
  · ext i j
    have key := congrFun (h.mulVec_eigenvectorBasis (Tuple.sort h.eigenvalues j)) i
    rw [Matrix.mul_diagonal, Matrix.mul_apply]
    rw [Matrix.mulVec, dotProduct] at key
    simp only [Matrix.submatrix_apply, id_eq, Matrix.IsHermitian.eigenvectorUnitary_apply, Function.comp_apply]
    rw [key]
    simp [RCLike.real_smul_eq_coe_mul, mul_comm]

/-- A matrix can be put into an array. -/
theorem put (a : List 𝕜) {r c lda : Nat} (hr : r ≤ lda) (V : Matrix (Fin r) (Fin c) 𝕜)
    (h : ∀ (i : Fin r) (j : Fin c), i.val + j.val * lda < a.length) :
    ∃ a' : List 𝕜, a'.length = a.length ∧ GemmR.Holds .plain a' lda V ∧
      ∀ p, (∀ (i : Fin r) (j : Fin c), p ≠ i.val + j.val * lda) → a'[p]? = a[p]? := by
  refine ⟨a.mapIdx fun p x => if h : p % lda < r ∧ p / lda < c then V ⟨p % lda, h.1⟩ ⟨p / lda, h.2⟩ else x, by simp, ?_, ?_⟩
  · intro i j
    have hp : 0 < lda := by have := i.2; omega
    have e1 : (i.val + j.val * lda) % lda = i.val := by
      rw [Nat.add_mul_mod_self_right, Nat.mod_eq_of_lt (by omega)]
    have e2 : (i.val + j.val * lda) / lda = j.val := by
      rw [Nat.add_mul_div_right _ _ hp, Nat.div_eq_of_lt (by omega), Nat.zero_add]
    rw [List.getElem?_mapIdx, List.getElem?_eq_getElem (h i j)]
    simp only [Option.map_some, e1, e2]
    rw [dif_pos ⟨i.2, j.2⟩]
  · intro p hp
    rw [List.getElem?_mapIdx]
    have : ¬ (p % lda < r ∧ p / lda < c) := by
      rintro ⟨h1, h2⟩
      have := Nat.mod_add_div p lda
      exact hp ⟨_, h1⟩ ⟨_, h2⟩ (by simp only; rw [Nat.mul_comm]; exact this.symm)
    simp [this]

/-- What a call that does work leaves. -/
def GoodHeev (jobz uplo : Char) (n : Nat) (a : List 𝕜) (lda : Nat) (w : List ℝ) (r : HeevRes 𝕜) : Prop :=
  r.info = 0 ∧ r.a.length = a.length ∧ r.w.length = w.length ∧
  (uplo ∈ ['U', 'u'] → ∀ H : Matrix (Fin n) (Fin n) 𝕜, H.conjTranspose = H →
    (∀ i j : Fin n, i ≤ j → a[i.val + j.val * lda]? = some (H i j)) →
    ∃ (e : Fin n → ℝ) (V : Matrix (Fin n) (Fin n) 𝕜), IsEigen H e V ∧ (∀ k : Fin n, r.w[k.val]? = some (e k)) ∧
      (jobz ∈ ['V', 'v'] → GemmR.Holds .plain r.a lda V))

theorem good_exists (jobz uplo : Char) (n : Nat) (a : List 𝕜) (lda : Nat) (w : List ℝ) (hl : n ≤ lda) (hw : n ≤ w.length) :
    ∃ r, GoodHeev jobz uplo n a lda w r := by
  by_cases hex : ∃ H : Matrix (Fin n) (Fin n) 𝕜, H.conjTranspose = H ∧
      (∀ i j : Fin n, i ≤ j → a[i.val + j.val * lda]? = some (H i j))
  · obtain ⟨H, h1, h2⟩ := hex
    obtain ⟨e, V, hV⟩ := eigen_exists H h1
    have hin : ∀ (i j : Fin n), i.val + j.val * lda < a.length := by
      intro i j
      have hn : 0 < n := by have := i.2; omega
      have := (List.getElem?_eq_some_iff.1 (h2 (max i j) (max i j) (le_refl _))).1
      have h3 : (i : Nat) ≤ ((max i j : Fin n) : Nat) := by exact_mod_cast le_max_left i j
      have h4 : (j : Nat) ≤ ((max i j : Fin n) : Nat) := by exact_mod_cast le_max_right i j
      have := Nat.mul_le_mul_right lda h4
      omega
    obtain ⟨a', p1, p2, _⟩ := put a hl V hin
    refine ⟨⟨a', List.ofFn e ++ w.drop n, 1, 0⟩, rfl, p1, by simp; omega, ?_⟩
    intro _ H' h1' h2'
    have : H' = H := by
      ext i j
      rcases le_total i j with h | h
      · exact Option.some.inj ((h2' i j h).symm.trans (h2 i j h))
      · have e1 := Option.some.inj ((h2' j i h).symm.trans (h2 j i h))
        rw [← h1', ← h1, Matrix.conjTranspose_apply, Matrix.conjTranspose_apply, e1]
    rw [this]
    refine ⟨e, V, hV, ?_, fun _ => p2⟩
    intro k
    rw [List.getElem?_append_left (by simp), List.getElem?_ofFn, dif_pos k.2]
  · refine ⟨⟨a, w, 1, 0⟩, rfl, rfl, rfl, ?_⟩
    intro _ H h1 h2
    exact absurd ⟨H, h1, h2⟩ hex

/-- **C80** There are routines that do what the documentation says, and that converge always. -/
theorem heev_exists (isReal : Bool) : ∃ f : Heev 𝕜, HeevDoc f isReal ∧
    ∀ jobz uplo n a lda w lwork, (f jobz uplo n a lda w lwork).info ≤ 0 := by
  classical
  let f : Heev 𝕜 := fun jobz uplo n a lda w lwork =>
    if ¬ heevLegal isReal jobz uplo n lda lwork then ⟨a, w, 0, -1⟩
    else if lwork = -1 then ⟨a, w, 1, 0⟩
    else if h : ∃ r, GoodHeev jobz uplo n.toNat a lda.toNat w r then h.choose
    else ⟨a, w, 0, 0⟩
  refine ⟨f, ⟨?_, ?_, ?_⟩, ?_⟩
  · intro jobz uplo n a lda w lwork h
    simp only [f]
    rw [if_pos h]
    simp
  · intro jobz uplo n a lda w h
    simp only [f]
    rw [if_neg (not_not.2 h)]
    simp
  · intro jobz uplo n a lda w lwork H h1 h2 h3 h4 h5 h6
    have hex : ∃ r, GoodHeev jobz uplo (n : Int).toNat a (lda : Int).toNat w r := by
      rw [Int.toNat_natCast, Int.toNat_natCast]
      refine good_exists jobz uplo n a lda w ?_ (by have := h3.2.1; omega)
      have := h1.2.2.2.1
      omega
    simp only [f]
    rw [if_neg (not_not.2 h1), if_neg h2, dif_pos hex]
    obtain ⟨g1, g2, g3, g4⟩ := hex.choose_spec
    refine ⟨le_of_eq g1.symm, g2, g3, fun _ => ?_⟩
    exact g4 h4 H h5 h6
  · intro jobz uplo n a lda w lwork
    simp only [f]
    split
    · simp
    · split
      · simp
      · split
        · rename_i h
          exact le_of_eq h.choose_spec.1
        · simp

/-- **C80** And for inverses. -/
theorem getr_exists : ∃ g : Getr 𝕜, GetrDoc g := by
  classical
  let good : Nat → List 𝕜 → Nat → GetriRes 𝕜 → Prop := fun n a lda r =>
    ∀ A : Matrix (Fin n) (Fin n) 𝕜, GemmR.Holds .plain a lda A →
      (IsUnit A → r.info = 0 ∧ r.a.length = a.length ∧ GemmR.Holds .plain r.a lda A⁻¹ ∧
        ∀ p, (∀ i j : Fin n, p ≠ i.val + j.val * lda) → r.a[p]? = a[p]?) ∧ (¬ IsUnit A → 0 < r.info)
  have goodEx : ∀ n a lda, n ≤ lda → ∃ r, good n a lda r := by
    intro n a lda hl
    by_cases hex : ∃ A : Matrix (Fin n) (Fin n) 𝕜, GemmR.Holds .plain a lda A
    · obtain ⟨A, hA⟩ := hex
      have uniq : ∀ B, GemmR.Holds .plain a lda B → B = A := by
        intro B hB
        ext i j
        exact Option.some.inj ((hB i j).symm.trans (hA i j))
      by_cases hu : IsUnit A
      · obtain ⟨a', p1, p2, p3⟩ := put a hl A⁻¹ (fun i j => (List.getElem?_eq_some_iff.1 (hA i j)).1)
        refine ⟨⟨a', 0, 0⟩, fun B hB => ?_⟩
        rw [uniq B hB]
        exact ⟨fun _ => ⟨rfl, p1, p2, p3⟩, fun h => absurd hu h⟩
      · refine ⟨⟨a, 0, 1⟩, fun B hB => ?_⟩
        rw [uniq B hB]
        exact ⟨fun h => absurd h hu, fun _ => by simp⟩
    · exact ⟨⟨a, 0, 0⟩, fun A hA => absurd ⟨A, hA⟩ hex⟩
  refine ⟨⟨fun _ _ a _ ipiv => ⟨a, ipiv, 0⟩, fun n a lda _ lwork => if lwork = -1 then ⟨a, n, 0⟩
    else if h : ∃ r, good n.toNat a lda.toNat r then h.choose else ⟨a, 0, 0⟩⟩, ?_, ?_, ?_⟩
  · intro n a lda ipiv
    exact ⟨rfl, rfl⟩
  · intro n a lda ipiv _ _
    simp
  · intro n a lda ipiv lwork A h1 h2 _ h4 h5
    have hex : ∃ r, good (n : Int).toNat a (lda : Int).toNat r := by
      rw [Int.toNat_natCast, Int.toNat_natCast]
      exact goodEx n a lda h1
    have hs := hex.choose_spec
    simp only
    rw [if_neg (by omega), dif_pos hex]
    exact hs A h5

/-- **C80** LAPACK may not converge (`info` positive): `svd` then returns without an exception, and what it returns need
not be a decomposition. -/
theorem svd_info_fails : ∃ (f : SvdRoutine 𝕜) (least : Int → Int → Int), SvdDoc f least ∧
    svd f least 'S' ⟨1, 1, [1]⟩ [] ⟨0, 0, []⟩ = .ok (⟨1, 1, [0]⟩, [0], ⟨1, 1, [0]⟩) := by
  refine ⟨fun _ _ _ a _ s u _ vt _ lwork => ⟨a, s, u, vt, 1, if lwork = -1 then 0 else 1⟩, fun _ _ => 1, ⟨?_, ?_⟩, ?_⟩
  · intro jobz m n a lda s u ldu vt ldvt _
    simp
  · intro jobz m n a lda s u ldu vt ldvt lwork work rwork iwork A _ h _ _
    simp [h]
  · have t1 : toInt 1 = 1 := by unfold toInt; simp
    have call : ∀ (f : SvdRoutine 𝕜) (lwork : Int) (work rwork iwork : Nat), (if lwork = -1 then 1 else lwork) ≤ work →
        10 ≤ rwork → 8 ≤ iwork → svdCall f (fun _ _ => 1) 'S' 1 1 [1] 1 [0] [0] 1 [0] 1 lwork work rwork iwork
          = .ok (f 'S' 1 1 [1] 1 [0] [0] 1 [0] 1 lwork) := by
      intro f lwork work rwork iwork h1 h2 h3
      unfold svdCall
      rw [if_neg]
      rintro ⟨_, h⟩
      apply h
      refine ⟨?_, ?_, ?_, ?_, h1, ?_, ?_⟩ <;> simp [roomFor] <;> omega
    unfold svd
    simp [Mat.resize, ofThrow, Mat.mk0, Mat.get, resizeL, pure, bind, Except.bind, Except.pure, call, t1, throwOut]

/-- **C80** And for singular values, here of a matrix with one row and one column, where this routine converges. -/
theorem svd_exists : ∃ (f : SvdRoutine 𝕜) (least : Int → Int → Int), SvdDoc f least ∧
    ∀ jobz a lda s u ldu vt ldvt lwork, (f jobz 1 1 a lda s u ldu vt ldvt lwork).info = 0 := by
  classical
  let ph : 𝕜 → 𝕜 := fun z => if z = 0 then 1 else z / (‖z‖ : 𝕜)
  let f : SvdRoutine 𝕜 := fun _ m n a _ s u _ vt _ lwork =>
    if lwork = -1 then ⟨a, s, u, vt, 1, 0⟩
    else if m = 1 ∧ n = 1 then ⟨a, s.set 0 ‖a.headD 0‖, u.set 0 (ph (a.headD 0)), vt.set 0 1, 1, 0⟩
    else ⟨a, s, u, vt, 1, 1⟩
  refine ⟨f, fun _ _ => 1, ⟨?_, ?_⟩, ?_⟩
  · intro jobz m n a lda s u ldu vt ldvt _
    simp [f]
  · intro jobz m n a lda s u ldu vt ldvt lwork work rwork iwork A hl h hr hA
    simp only [f]
    rw [if_neg h]
    by_cases hmn : (m : Int) = 1 ∧ (n : Int) = 1
    · rw [if_pos hmn]
      obtain ⟨h1, h2⟩ := hmn
      obtain rfl : m = 1 := by omega
      obtain rfl : n = 1 := by omega
      refine ⟨le_refl _, by simp, by simp, by simp, fun _ => ?_⟩
      have hu : uCols jobz 1 1 = 1 := by unfold uCols; split <;> rfl
      have hv : vRows jobz 1 1 = 1 := by unfold vRows; split <;> rfl
      have a0 : a.headD 0 = A 0 0 := by
        have := hA 0 0
        simp at this
        cases a <;> simp_all
      have ul : 0 < u.length := by
        have := hr.2.2.1
        simp [roomFor] at this
        omega
      have vl : 0 < vt.length := by
        have := hr.2.2.2.1
        simp [roomFor] at this
        omega
      have sl : 0 < s.length := by
        have := hr.2.1
        simp at this
        omega
      have gen : ∀ (uc vr : Nat) (h1 : min 1 1 ≤ uc) (h2 : min 1 1 ≤ vr), uc = 1 → vr = 1 →
          ∃ (U : Matrix (Fin 1) (Fin uc) 𝕜) (e : Fin (min 1 1) → ℝ) (Vt : Matrix (Fin vr) (Fin 1) 𝕜),
            IsSvd A U e Vt h1 h2 ∧ GemmR.Holds .plain (u.set 0 (ph (a.headD 0))) ldu U ∧
            (∀ k : Fin (min 1 1), (s.set 0 ‖a.headD 0‖)[k.val]? = some (e k)) ∧
            GemmR.Holds .plain (vt.set 0 1) ldvt Vt := by
        intro uc vr h1 h2 e1 e2
        subst e1 e2
        rw [a0]
        have hph : star (ph (A 0 0)) * ph (A 0 0) = 1 := by
          simp only [ph]
          by_cases hz : A 0 0 = 0
          · simp [hz]
          · rw [if_neg hz]
            have hn : (‖A 0 0‖ : 𝕜) ≠ 0 := by simpa using hz
            have := RCLike.conj_mul (A 0 0)
            rw [star_div₀, div_mul_div_comm]
            change (starRingEnd 𝕜) (A 0 0) * A 0 0 / ((starRingEnd 𝕜) _ * _) = 1
            rw [this, RCLike.conj_ofReal, ← sq]
            exact div_self (pow_ne_zero 2 hn)
        have hmul : ph (A 0 0) * (‖A 0 0‖ : 𝕜) = A 0 0 := by
          simp only [ph]
          by_cases hz : A 0 0 = 0
          · simp [hz]
          · rw [if_neg hz]
            have hn : (‖A 0 0‖ : 𝕜) ≠ 0 := by simpa using hz
            exact div_mul_cancel₀ _ hn
        refine ⟨Matrix.of fun _ _ => ph (A 0 0), fun _ => ‖A 0 0‖, Matrix.of fun _ _ => 1, ⟨?_, ?_, ?_, ?_, ?_⟩, ?_, ?_, ?_⟩
        · exact fun _ _ _ => le_refl _
        · exact fun _ => norm_nonneg _
        · ext i j
          rw [Matrix.mul_apply, Fin.sum_univ_one, Matrix.conjTranspose_apply, Matrix.of_apply, Matrix.of_apply, hph, Subsingleton.elim i j, Matrix.one_apply_eq]
        · ext i j
          rw [Matrix.mul_apply, Fin.sum_univ_one, Matrix.conjTranspose_apply, Subsingleton.elim i j, Matrix.one_apply_eq]
          simp
        · intro i j
          rw [Subsingleton.elim i 0, Subsingleton.elim j 0]
          change _ = ∑ k : Fin 1, _
          rw [Fin.sum_univ_one, Matrix.of_apply, Matrix.of_apply, hmul, mul_one]
        · intro i j
          rw [Subsingleton.elim i 0, Subsingleton.elim j 0]
          simp [ul]
        · intro k
          have : k.val = 0 := by have := k.2; omega
          rw [this]
          simp [sl]
        · intro i j
          rw [Subsingleton.elim i 0, Subsingleton.elim j 0]
          simp [vl]
      exact gen _ _ (le_uCols jobz 1 1) (le_vRows jobz 1 1) hu hv
    · rw [if_neg hmn]
      exact ⟨by simp, rfl, rfl, rfl, fun h => absurd h (by simp)⟩
  · intro jobz a lda s u ldu vt ldvt lwork
    simp only [f]
    split <;> simp

/-! The hypotheses can be met. -/

/-- `diag` of a matrix whose lower triangle is not used. -/
example : ∃ (f : Heev ℂ) (m : Mat ℂ) (w : Fin 2 → ℝ) (V : Matrix (Fin 2) (Fin 2) ℂ),
    diag f false ⟨2, 2, [1, 7, Complex.I, 1]⟩ [] 'V' = .ok (m, List.ofFn w) ∧
    IsEigen !![1, Complex.I; -Complex.I, 1] w V ∧ Represents m 2 2 V := by
  obtain ⟨f, hf, hc⟩ := heev_exists (𝕜 := ℂ) false
  have hm : Represents (⟨2, 2, [1, 7, Complex.I, 1]⟩ : Mat ℂ) 2 2 !![1, Complex.I; 7, 1] := by
    refine holds_rep (by rfl) ?_
    intro i j
    fin_cases i <;> fin_cases j <;> rfl
  rcases diag_spec hf hm (by omega) (H := !![1, Complex.I; -Complex.I, 1])
    (by ext i j; fin_cases i <;> fin_cases j <;> simp [Matrix.conjTranspose_apply])
    (by intro i j h; fin_cases i <;> fin_cases j <;> first | rfl | exact absurd h (by decide)) [] (option := 'V') (by simp) with h | h
  · obtain ⟨_, lwork, h⟩ := h
    exact absurd (hc 'V' 'U' 2 _ 2 _ lwork) (not_le.2 h)
  · obtain ⟨m', w, V, h1, h2, _, h4⟩ := h
    exact ⟨f, m', w, V, h1, h2, h4 (by simp)⟩

/-- `inverse` of a matrix. -/
example : ∃ (g : Getr ℝ) (r : Mat ℝ), inverse g ⟨2, 2, [1, 0, 2, 1]⟩ = .ok r ∧ Represents r 2 2 !![1, -2; 0, 1] := by
  obtain ⟨g, hg⟩ := getr_exists (𝕜 := ℝ)
  have hm : Represents (⟨2, 2, [1, 0, 2, 1]⟩ : Mat ℝ) 2 2 !![1, 2; 0, 1] := by
    refine holds_rep (by rfl) ?_
    intro i j
    fin_cases i <;> fin_cases j <;> rfl
  have hmul : (!![1, 2; 0, 1] : Matrix (Fin 2) (Fin 2) ℝ) * !![1, -2; 0, 1] = 1 := by
    ext i j
    fin_cases i <;> fin_cases j <;> simp [Matrix.mul_apply, Fin.sum_univ_two]
  obtain ⟨r, h1, h2⟩ := (inverse_spec hg hm (by omega)).2 (IsUnit.of_mul_eq_one _ hmul)
  rw [Matrix.inv_eq_right_inv hmul] at h2
  exact ⟨g, r, h1, h2⟩

/-- `svd` of a matrix. -/
example : ∃ (f : SvdRoutine ℝ) (least : Int → Int → Int) (a' : Mat ℝ) (s' : List ℝ) (vt' : Mat ℝ),
    svd f least 'S' ⟨1, 1, [-3]⟩ [] ⟨0, 0, []⟩ = .ok (a', s', vt') := by
  obtain ⟨f, least, hf, hc⟩ := svd_exists (𝕜 := ℝ)
  have hm : Represents (⟨1, 1, [-3]⟩ : Mat ℝ) 1 1 !![-3] := by
    refine holds_rep (by rfl) ?_
    intro i j
    fin_cases i; fin_cases j; rfl
  obtain ⟨a', s', vt', _, _, _, h, _⟩ := svd_spec hf hm (by omega) (by omega) [] (vt := ⟨0, 0, []⟩) (jobz := 'S')
    (Or.inr rfl) (Or.inl rfl) (fun s u vt lwork => le_of_eq (hc _ _ _ _ _ _ _ _ _))
  exact ⟨f, least, a', s', vt', h⟩

/-- `rotate` with a transformation that is not square. -/
example : rotate (⟨2, 2, [1, 2, 3, 4]⟩ : Mat ℤ) ⟨2, 1, [1, 1]⟩ = .ok ⟨1, 1, [10]⟩ := by decide +kernel

/-! ## Cases of the theorems about eigenvalues, exponentials, inverses and singular values -/

theorem mat2_rep {α : Type} (a b c d : α) : Represents (⟨2, 2, [a, c, b, d]⟩ : Mat α) 2 2 !![a, b; c, d] := by
  refine ⟨rfl, rfl, rfl, ?_⟩
  intro i j
  fin_cases i <;> fin_cases j <;> rfl

/-- A symmetric matrix. -/
example : ∃ (f : Heev ℝ) (r : Mat ℝ), HeevDoc f true ∧ expMat f true expReal ⟨2, 2, [1, 2, 2, 3]⟩ = .ok r ∧
    Represents r 2 2 (NormedSpace.exp !![1, 2; 2, 3]) := by
  obtain ⟨f, hf, hi⟩ := heev_exists (𝕜 := ℝ) true
  rcases exp_real_spec hf (mat2_rep 1 2 2 3) (by decide) (by ext i j; fin_cases i <;> fin_cases j <;> rfl) with ⟨_, l, h⟩ | ⟨r, h1, h2⟩
  · exact absurd h (not_lt.2 (hi _ _ _ _ _ _ _))
  · exact ⟨f, r, hf, h1, h2⟩

theorem pauli_hermitian : (!![0, -Complex.I; Complex.I, 0] : Matrix (Fin 2) (Fin 2) ℂ).conjTranspose = !![0, -Complex.I; Complex.I, 0] := by
  ext i j
  fin_cases i <;> fin_cases j <;> simp

/-- A Hermitian matrix that is not symmetric. -/
example : ∃ (f : Heev ℂ) (r : Mat ℂ), HeevDoc f false ∧ expMat f false expComplex ⟨2, 2, [0, Complex.I, -Complex.I, 0]⟩ = .ok r ∧
    Represents r 2 2 (NormedSpace.exp (Complex.I • (!![0, -Complex.I; Complex.I, 0] : Matrix (Fin 2) (Fin 2) ℂ).transpose)) := by
  obtain ⟨f, hf, hi⟩ := heev_exists (𝕜 := ℂ) false
  rcases exp_complex_spec hf (mat2_rep 0 (-Complex.I) Complex.I 0) (by decide) pauli_hermitian with ⟨_, l, h⟩ | ⟨r, h1, h2⟩
  · exact absurd h (not_lt.2 (hi _ _ _ _ _ _ _))
  · exact ⟨f, r, hf, h1, h2⟩

example : ∃ (f : Heev ℂ) (r : Mat ℂ), HeevDoc f false ∧ expIpi f ⟨2, 2, [0, Complex.I, -Complex.I, 0]⟩ = .ok r ∧
    Represents r 2 2 (NormedSpace.exp ((Complex.I * Real.pi) • (!![0, -Complex.I; Complex.I, 0] : Matrix (Fin 2) (Fin 2) ℂ).transpose)) := by
  obtain ⟨f, hf, hi⟩ := heev_exists (𝕜 := ℂ) false
  rcases expIpi_spec hf (mat2_rep 0 (-Complex.I) Complex.I 0) (by decide) pauli_hermitian with ⟨_, l, h⟩ | ⟨r, h1, h2⟩
  · exact absurd h (not_lt.2 (hi _ _ _ _ _ _ _))
  · exact ⟨f, r, hf, h1, h2⟩

/-- The two wrong exponentials happen. -/
example : ∃ (f : Heev ℂ) (r : Mat ℂ), HeevDoc f false ∧
    expIpi f ⟨2, 2, [1 / 2, Complex.I / 2, -Complex.I / 2, 1 / 2]⟩ = .ok r ∧
    ¬ Represents r 2 2 (NormedSpace.exp ((Complex.I * Real.pi) • !![1 / 2, -Complex.I / 2; Complex.I / 2, 1 / 2])) := by
  obtain ⟨f, hf, hi⟩ := heev_exists (𝕜 := ℂ) false
  rcases expIpi_spec hf (mat2_rep (1 / 2) (-Complex.I / 2) (Complex.I / 2) (1 / 2)) (by decide)
    (by ext i j; fin_cases i <;> fin_cases j <;> simp) with ⟨_, l, h⟩ | ⟨r, h1, h2⟩
  · exact absurd h (not_lt.2 (hi _ _ _ _ _ _ _))
  · exact ⟨f, r, hf, h1, expIpi_fails hf r h1⟩

example : ∃ (f : Heev ℂ) (r : Mat ℂ), HeevDoc f false ∧ expMat f false expComplex ⟨1, 1, [1]⟩ = .ok r ∧
    ¬ Represents r 1 1 (NormedSpace.exp (1 : Matrix (Fin 1) (Fin 1) ℂ)) := by
  obtain ⟨f, hf, hi⟩ := heev_exists (𝕜 := ℂ) false
  rcases exp_complex_spec hf (m := ⟨1, 1, [1]⟩) (n := 1) (H := 1)
    ⟨rfl, rfl, rfl, by intro i j; fin_cases i; fin_cases j; rfl⟩ (by decide) (by simp) with ⟨_, l, h⟩ | ⟨r, h1, h2⟩
  · exact absurd h (not_lt.2 (hi _ _ _ _ _ _ _))
  · exact ⟨f, r, hf, h1, exp_complex_fails hf r h1⟩

/-- A matrix that is not square has no exponential. -/
example (f : Heev ℂ) : expIpi f ⟨1, 2, [3, 4]⟩ = throwOut := expIpi_square f _ (by decide)

/-- A letter LAPACK does not know, and three rows in two columns. -/
example : ∃ f : Heev ℝ, HeevDoc f true ∧ diag f true ⟨2, 2, [1, 2, 2, 3]⟩ [] 'Q' = throwOut ∧
    diag f true ⟨3, 2, [1, 2, 2, 3, 4, 5]⟩ [] 'V' = throwOut := by
  obtain ⟨f, hf, -⟩ := heev_exists (𝕜 := ℝ) true
  exact ⟨f, hf, diag_option hf (r := 2) (c := 2) ⟨rfl, rfl, rfl⟩ (by decide) (by decide) _ (by decide),
    diag_tall hf (r := 3) (c := 2) ⟨rfl, rfl, rfl⟩ (by decide) (by decide) _ _⟩

/-- Two rows in three columns give the eigenvalues of another matrix. -/
example : ∃ (f : Heev ℝ) (m' : Mat ℝ) (w : Fin 2 → ℝ) (V : Matrix (Fin 2) (Fin 2) ℝ), HeevDoc f true ∧
    diag f true ⟨2, 3, [1, 0, 0, 5, 7, 0]⟩ [] 'V' = .ok (m', List.ofFn w) ∧ IsEigen !![1, 5; 5, 7] w V := by
  obtain ⟨f, hf, hi⟩ := heev_exists (𝕜 := ℝ) true
  rcases diag_wide_fails hf 1 5 7 [] (option := 'V') (by decide) with ⟨_, l, h⟩ | ⟨m', w, V, h1, h2⟩
  · exact absurd h (not_lt.2 (hi _ _ _ _ _ _ _))
  · exact ⟨f, m', w, V, hf, by simpa using h1, by simpa using h2⟩

/-- Three rows in two columns have no inverse, and the call reads beyond the end; one row in two columns "has" one. -/
example : ∃ g : Getr ℝ, GetrDoc g ∧ inverse g ⟨3, 2, [1, 2, 2, 3, 4, 5]⟩ = ubOut ∧ inverse g ⟨1, 2, [4, 7]⟩ = .ok ⟨1, 2, [4⁻¹, 7]⟩ := by
  obtain ⟨g, hg⟩ := getr_exists (𝕜 := ℝ)
  exact ⟨g, hg, inverse_tall_fails g (r := 3) (c := 2) ⟨rfl, rfl, rfl⟩ (by decide) (by decide), inverse_wide_fails hg 4 7 (by norm_num)⟩

/-- A transform to one dimension. -/
example : ∃ r, rotate (⟨2, 2, [1, 3, 2, 4]⟩ : Mat ℤ) ⟨2, 1, [5, 6]⟩ = .ok r ∧
    Represents r 1 1 ((!![5; 6] : Matrix (Fin 2) (Fin 1) ℤ).conjTranspose * (!![1, 2; 3, 4] : Matrix (Fin 2) (Fin 2) ℤ) * (!![5; 6] : Matrix (Fin 2) (Fin 1) ℤ)) :=
  rotate_spec (mat2_rep 1 2 3 4)
    (⟨rfl, rfl, rfl, by intro i j; fin_cases i <;> fin_cases j <;> rfl⟩ : Represents (⟨2, 1, [5, 6]⟩ : Mat ℤ) 2 1 !![5; 6])
    (by decide) (by decide)

example (f : SvdRoutine ℝ) (least : Int → Int → Int) : svd f least 'N' ⟨1, 1, [3]⟩ [] ⟨0, 0, []⟩ = throwOut :=
  svd_letter f least _ _ _ (by decide)
example (f : SvdRoutine ℝ) (least : Int → Int → Int) : svd f least 'A' ⟨1, 1, [3]⟩ [] ⟨2, 1, [0, 0]⟩ = throwOut :=
  svd_rows f least _ _ _ (.inl rfl) (by decide)

end Verif.Lapack
