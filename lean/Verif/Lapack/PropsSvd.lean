import Verif.Lapack.PropsDoc
import Mathlib.LinearAlgebra.Matrix.Charpoly.Basic
import Mathlib.LinearAlgebra.Matrix.Rank
import Mathlib.Analysis.InnerProductSpace.PiL2

/-!
# C80, C156: singular values exist and are unique

So routines that find them always do exist, and two different routines find the same.
-/

namespace Verif.Lapack

open Verif.Loop Verif.Dense Matrix

variable {𝕜 : Type} [RCLike 𝕜]

/-! ## Existence -/

/-- Fewer columns and rows. -/
theorem IsSvd.restrict {m n uc vr uc' vr' : Nat} {A : Matrix (Fin m) (Fin n) 𝕜} {U : Matrix (Fin m) (Fin uc) 𝕜} {s : Fin (min m n) → ℝ}
    {Vt : Matrix (Fin vr) (Fin n) 𝕜} {hu : min m n ≤ uc} {hv : min m n ≤ vr} (h : IsSvd A U s Vt hu hv) (hu' : min m n ≤ uc')
    (hv' : min m n ≤ vr') (h1 : uc' ≤ uc) (h2 : vr' ≤ vr) :
    IsSvd A (U.submatrix id (Fin.castLE h1)) s (Vt.submatrix (Fin.castLE h2) id) hu' hv' := by
  refine ⟨h.sorted, h.nonneg, ?_, ?_, ?_⟩
  · ext i j
    have := congrFun (congrFun h.left (Fin.castLE h1 i)) (Fin.castLE h1 j)
    rw [mul_apply] at this ⊢
    simp only [conjTranspose_apply, submatrix_apply, id_eq] at this ⊢
    rw [this, one_apply, one_apply]
    simp
  · ext i j
    have := congrFun (congrFun h.right (Fin.castLE h2 i)) (Fin.castLE h2 j)
    rw [mul_apply] at this ⊢
    simp only [conjTranspose_apply, submatrix_apply, id_eq] at this ⊢
    rw [this, one_apply, one_apply]
    simp
  · intro i j
    rw [h.sum]
    rfl

/-- Every matrix has singular values. -/
theorem full_svd {m n : Nat} (A : Matrix (Fin m) (Fin n) 𝕜) : ∃ (U : Matrix (Fin m) (Fin m) 𝕜) (e : Fin (min m n) → ℝ)
    (Vt : Matrix (Fin n) (Fin n) 𝕜), IsSvd A U e Vt (Nat.min_le_left m n) (Nat.min_le_right m n) := by
  obtain ⟨w, W, hW⟩ := eigen_exists (Aᴴ * A) (by rw [conjTranspose_mul, conjTranspose_conjTranspose])
  obtain ⟨d, hd⟩ : ∃ d : Fin n → ℝ, d = fun k => w (Fin.rev k) := ⟨_, rfl⟩
  obtain ⟨V, hV⟩ : ∃ V : Matrix (Fin n) (Fin n) 𝕜, V = W.submatrix id Fin.rev := ⟨_, rfl⟩
  have hanti : Antitone d := by
    intro a b hab
    rw [hd]
    exact hW.sorted (Fin.rev_le_rev.2 hab)
  have hVV : Vᴴ * V = 1 := by
    rw [hV, conjTranspose_submatrix, submatrix_mul _ _ _ _ _ Function.bijective_id |>.symm, hW.unitary]
    ext i j
    simp [one_apply]
  have hVV' : V * Vᴴ = 1 := mul_eq_one_comm.1 hVV
  have heig : Aᴴ * A * V = V * diagonal fun k => (d k : 𝕜) := by
    ext i j
    have := congrFun (congrFun hW.eigen i) (Fin.rev j)
    rw [mul_diagonal] at this
    rw [mul_diagonal, hV, hd]
    exact this
  obtain ⟨X, hX⟩ : ∃ X, X = A * V := ⟨_, rfl⟩
  have hgram : Xᴴ * X = diagonal fun k => (d k : 𝕜) := by
    rw [hX, conjTranspose_mul, Matrix.mul_assoc, ← Matrix.mul_assoc Aᴴ, heig, ← Matrix.mul_assoc, hVV, Matrix.one_mul]
  have hg : ∀ k l, ∑ i, star (X i k) * X i l = if k = l then (d k : 𝕜) else 0 := by
    intro k l
    have := congrFun (congrFun hgram k) l
    rw [mul_apply, diagonal_apply] at this
    exact this
  have hnorm : ∀ k, d k = ∑ i, ‖X i k‖ ^ 2 := by
    intro k
    have := hg k k
    rw [if_pos rfl] at this
    have e : ∀ i, star (X i k) * X i k = ((‖X i k‖ ^ 2 : ℝ) : 𝕜) := by
      intro i
      have := RCLike.conj_mul (X i k)
      rw [RCLike.star_def, this]
      push_cast
      rfl
    rw [Finset.sum_congr rfl fun i _ => e i, ← RCLike.ofReal_sum] at this
    exact (RCLike.ofReal_injective this).symm
  have hd0 : ∀ k, 0 ≤ d k := fun k => by
    rw [hnorm k]
    positivity
  have hcol : ∀ k, d k = 0 → ∀ i, X i k = 0 := by
    intro k hk i
    rw [hnorm k] at hk
    have := (Finset.sum_eq_zero_iff_of_nonneg fun i _ => by positivity).1 hk i (Finset.mem_univ i)
    simpa using this
  have hbig : ∀ k : Fin n, m ≤ k.1 → d k = 0 := by
    intro k hk
    by_contra hne
    have h1 : (diagonal fun k => (d k : 𝕜)).rank ≤ m := by
      rw [← hgram]
      refine (rank_mul_le_right _ _).trans ?_
      have := X.rank_le_height
      exact this
    rw [rank_diagonal] at h1
    have h2 : Fintype.card (Fin (k.1 + 1)) ≤ Fintype.card {i // (d i : 𝕜) ≠ 0} := by
      refine Fintype.card_le_of_injective (fun i => ⟨⟨i.1, by have := i.2; have := k.2; omega⟩, ?_⟩) ?_
      · have h3 : (⟨i.1, by have := i.2; have := k.2; omega⟩ : Fin n) ≤ k := by
          rw [Fin.le_def]
          have := i.2
          simp only
          omega
        have h4 := hanti h3
        have h5 := lt_of_le_of_ne (hd0 k) (Ne.symm hne)
        exact RCLike.ofReal_ne_zero.2 (lt_of_lt_of_le h5 h4).ne'
      · intro a b hab
        simp only [Subtype.mk.injEq, Fin.mk.injEq] at hab
        exact Fin.ext hab
    rw [Fintype.card_fin] at h2
    omega
  obtain ⟨u, hu⟩ : ∃ u : Fin m → EuclideanSpace 𝕜 (Fin m), u = fun j => if h : j.1 < n then
      WithLp.toLp 2 (fun i => X i ⟨j.1, h⟩ * (((Real.sqrt (d ⟨j.1, h⟩))⁻¹ : ℝ) : 𝕜)) else 0 := ⟨_, rfl⟩
  have hsq : ∀ k, ((Real.sqrt (d k) : ℝ) : 𝕜) * ((Real.sqrt (d k) : ℝ) : 𝕜) = (d k : 𝕜) := by
    intro k
    rw [← RCLike.ofReal_mul, Real.mul_self_sqrt (hd0 k)]
  have hon : Orthonormal 𝕜 (Set.domRestrict {j : Fin m | ∃ h : j.1 < n, d ⟨j.1, h⟩ ≠ 0} u) := by
    rw [orthonormal_iff_ite]
    rintro ⟨a, ha, ha'⟩ ⟨b, hb, hb'⟩
    simp only [Set.domRestrict_apply, hu, dif_pos ha, dif_pos hb]
    rw [EuclideanSpace.inner_eq_star_dotProduct]
    simp only [dotProduct, Pi.star_apply, star_mul', RCLike.star_def, RCLike.conj_ofReal]
    have e : ∀ i, X i ⟨b.1, hb⟩ * (((Real.sqrt (d ⟨b.1, hb⟩))⁻¹ : ℝ) : 𝕜) * ((starRingEnd 𝕜) (X i ⟨a.1, ha⟩) * (((Real.sqrt (d ⟨a.1, ha⟩))⁻¹ : ℝ) : 𝕜)) =
        (((Real.sqrt (d ⟨b.1, hb⟩))⁻¹ : ℝ) : 𝕜) * (((Real.sqrt (d ⟨a.1, ha⟩))⁻¹ : ℝ) : 𝕜) * (star (X i ⟨a.1, ha⟩) * X i ⟨b.1, hb⟩) := by
      intro i
      rw [RCLike.star_def]
      ring
    rw [Finset.sum_congr rfl fun i _ => e i, ← Finset.mul_sum, hg]
    by_cases hab : a = b
    · subst hab
      rw [if_pos rfl, if_pos rfl]
      have hp : Real.sqrt (d ⟨a.1, ha⟩) ≠ 0 := (Real.sqrt_pos.2 (lt_of_le_of_ne (hd0 _) (Ne.symm ha'))).ne'
      rw [← hsq, ← RCLike.ofReal_mul, ← RCLike.ofReal_mul, ← RCLike.ofReal_mul]
      rw [show (Real.sqrt (d ⟨a.1, ha⟩))⁻¹ * (Real.sqrt (d ⟨a.1, ha⟩))⁻¹ * (Real.sqrt (d ⟨a.1, ha⟩) * Real.sqrt (d ⟨a.1, ha⟩)) = 1 by field_simp]
      exact RCLike.ofReal_one
    · rw [if_neg (fun h => hab (Fin.ext (Fin.mk.inj h))), if_neg (fun h => hab (Subtype.mk.inj h)), mul_zero]
  obtain ⟨b, hb⟩ := hon.exists_orthonormalBasis_extension_of_card_eq (by simp)
  refine ⟨Matrix.of fun i j => b j i, fun k => Real.sqrt (d (Fin.castLE (Nat.min_le_right m n) k)), Vᴴ, ?_, fun k => Real.sqrt_nonneg _, ?_, ?_, ?_⟩
  · intro x y hxy
    exact Real.sqrt_le_sqrt (hanti (by simpa using hxy))
  · ext i j
    have := orthonormal_iff_ite.1 b.orthonormal i j
    rw [EuclideanSpace.inner_eq_star_dotProduct] at this
    rw [mul_apply, one_apply, ← this]
    simp only [dotProduct, conjTranspose_apply, Pi.star_apply, of_apply]
    exact Finset.sum_congr rfl fun k _ => mul_comm _ _
  · rw [conjTranspose_conjTranspose, hVV]
  · intro i j
    have h1 : A i j = ∑ k, X i k * Vᴴ k j := by
      have : A = X * Vᴴ := by rw [hX, Matrix.mul_assoc, hVV', Matrix.mul_one]
      conv_lhs => rw [this]
      rw [mul_apply]
    rw [h1]
    symm
    refine Finset.sum_of_injOn (Fin.castLE (Nat.min_le_right m n)) (Fin.castLE_injective _).injOn (fun _ _ => Finset.mem_coe.2 (Finset.mem_univ _)) ?_ ?_
    · intro k _ hk
      have : m ≤ k.1 := by
        by_contra hlt
        refine hk ⟨⟨k.1, by have := k.2; omega⟩, Finset.mem_coe.2 (Finset.mem_univ _), ?_⟩
        rfl
      rw [hcol k (hbig k this), zero_mul]
    · intro k _
      obtain ⟨k', hk'⟩ : ∃ k', k' = Fin.castLE (Nat.min_le_right m n) k := ⟨_, rfl⟩
      have hkn : (Fin.castLE (Nat.min_le_left m n) k).1 < n := by have := k.2; simp only [Fin.val_castLE]; omega
      have hkk : (⟨(Fin.castLE (Nat.min_le_left m n) k).1, hkn⟩ : Fin n) = k' := by rw [hk']; rfl
      rw [← hk']
      by_cases hz : d k' = 0
      · rw [hcol k' hz, hz]
        simp
      · have := hb (Fin.castLE (Nat.min_le_left m n) k) ⟨hkn, by rw [hkk]; exact hz⟩
        rw [of_apply, this, hu]
        simp only [dif_pos hkn, hkk]
        have hp : Real.sqrt (d k') ≠ 0 := (Real.sqrt_pos.2 (lt_of_le_of_ne (hd0 _) (Ne.symm hz))).ne'
        rw [mul_assoc (X i k'), ← RCLike.ofReal_mul, inv_mul_cancel₀ hp, RCLike.ofReal_one, mul_one]

/-- What a call that does work leaves. -/
def GoodSvd (jobz : Char) (m n : Nat) (a : List 𝕜) (lda : Nat) (s : List ℝ) (u : List 𝕜) (ldu : Nat) (vt : List 𝕜) (ldvt : Nat)
    (r : SvdRes 𝕜) : Prop :=
  r.info = 0 ∧ r.s.length = s.length ∧ r.u.length = u.length ∧ r.vt.length = vt.length ∧
    ∀ A : Matrix (Fin m) (Fin n) 𝕜, GemmR.Holds .plain a lda A → ∃ U e Vt,
      IsSvd A U e Vt (le_uCols jobz m n) (le_vRows jobz m n) ∧ GemmR.Holds .plain r.u ldu U ∧
      (∀ k : Fin (min m n), r.s[k.val]? = some (e k)) ∧ GemmR.Holds .plain r.vt ldvt Vt

theorem room_index {a : List 𝕜} {m n lda : Nat} (h : roomFor a m n lda) (i : Fin m) (j : Fin n) : i.val + j.val * lda < a.length := by
  have h1 := i.2
  have h2 := j.2
  have h3 := h (by omega) (by omega)
  have h4 : j.val * lda ≤ (n - 1) * lda := Nat.mul_le_mul_right lda (by omega)
  have e : ((n : Int) - 1) * lda = ((n - 1 : Nat) * lda : Nat) := by
    push_cast [Nat.cast_sub (show 1 ≤ n by omega)]
    ring
  rw [e] at h3
  omega

theorem goodSvd_exists {jobz : Char} {m n : Nat} {a : List 𝕜} {lda : Nat} {s : List ℝ} {u : List 𝕜} {ldu : Nat} {vt : List 𝕜} {ldvt : Nat}
    (hu : m ≤ ldu) (hv : vRows jobz m n ≤ ldvt) (hs : min m n ≤ s.length) (ru : roomFor u m (uCols jobz m n) ldu)
    (rv : roomFor vt (vRows jobz m n) n ldvt) : ∃ r, GoodSvd jobz m n a lda s u ldu vt ldvt r := by
  by_cases hex : ∃ A : Matrix (Fin m) (Fin n) 𝕜, GemmR.Holds .plain a lda A
  · obtain ⟨A, hA⟩ := hex
    obtain ⟨U, e, Vt, h⟩ := full_svd A
    have h' := h.restrict (le_uCols jobz m n) (le_vRows jobz m n) (by unfold uCols; split <;> omega) (by unfold vRows; split <;> omega)
    obtain ⟨u', u1, u2, -⟩ := put u hu _ fun i j => room_index ru i j
    obtain ⟨v', v1, v2, -⟩ := put vt hv _ fun i j => room_index rv i j
    refine ⟨⟨a, List.ofFn e ++ s.drop (min m n), u', v', 1, 0⟩, rfl, by simp; omega, u1, v1, ?_⟩
    intro A' hA'
    have : A' = A := by
      ext i j
      exact Option.some.inj ((hA' i j).symm.trans (hA i j))
    rw [this]
    refine ⟨_, e, _, h', u2, fun k => ?_, v2⟩
    rw [List.getElem?_append_left (by rw [List.length_ofFn]; exact k.2), List.getElem?_ofFn, dif_pos k.2]
  · exact ⟨⟨a, s, u, vt, 1, 0⟩, rfl, rfl, rfl, rfl, fun A hA => absurd ⟨A, hA⟩ hex⟩

/-- **C80** There are routines for singular values that do what the documentation says, and that converge always. -/
theorem svd_always_exists : ∃ (f : SvdRoutine 𝕜) (least : Int → Int → Int), SvdDoc f least ∧
    ∀ jobz m n a lda s u ldu vt ldvt lwork, (f jobz m n a lda s u ldu vt ldvt lwork).info = 0 := by
  classical
  let f : SvdRoutine 𝕜 := fun jobz m n a lda s u ldu vt ldvt lwork =>
    if lwork = -1 then ⟨a, s, u, vt, 1, 0⟩
    else if h : ∃ r, GoodSvd jobz m.toNat n.toNat a lda.toNat s u ldu.toNat vt ldvt.toNat r then h.choose
    else ⟨a, s, u, vt, 1, 0⟩
  refine ⟨f, fun _ _ => 1, ⟨?_, ?_⟩, ?_⟩
  · intro jobz m n a lda s u ldu vt ldvt _
    simp [f]
  · intro jobz m n a lda s u ldu vt ldvt lwork work rwork iwork A hl h hr hA
    obtain ⟨l1, -, -, l4, l5, l6, -⟩ := hl
    obtain ⟨-, r2, r3, r4, -⟩ := hr
    have c1 : (if jobz = 'A' then (m : Int) else min (m : Int) n) = (uCols jobz m n : Nat) := by
      unfold uCols; split <;> simp
    have c2 : (if jobz = 'A' then (n : Int) else min (m : Int) n) = (vRows jobz m n : Nat) := by
      unfold vRows; split <;> simp
    rw [c1] at r3
    rw [c2] at r4 l6
    have hex : ∃ r, GoodSvd jobz (m : Int).toNat (n : Int).toNat a (lda : Int).toNat s u (ldu : Int).toNat vt (ldvt : Int).toNat r := by
      simp only [Int.toNat_natCast]
      exact goodSvd_exists (by omega) (by omega) (by omega) r3 r4
    simp only [f]
    rw [if_neg h, dif_pos hex]
    obtain ⟨g1, g2, g3, g4, g5⟩ := hex.choose_spec
    exact ⟨le_of_eq g1.symm, g2, g3, g4, fun _ => g5 A hA⟩
  · intro jobz m n a lda s u ldu vt ldvt lwork
    simp only [f]
    split
    · rfl
    · split
      · rename_i h
        exact h.choose_spec.1
      · rfl

/-! ## Uniqueness -/

/-- The singular values are the roots of a polynomial of the matrix. -/
theorem IsSvd.charpoly {m n uc vr : Nat} {A : Matrix (Fin m) (Fin n) 𝕜} {U : Matrix (Fin m) (Fin uc) 𝕜} {s : Fin (min m n) → ℝ}
    {Vt : Matrix (Fin vr) (Fin n) 𝕜} {hu : min m n ≤ uc} {hv : min m n ≤ vr} (h : IsSvd A U s Vt hu hv) :
    Polynomial.X ^ (min m n) * (Aᴴ * A).charpoly =
      Polynomial.X ^ n * ∏ k, (Polynomial.X - Polynomial.C ((s k : 𝕜) * (s k : 𝕜))) := by
  have h' := h.restrict (le_refl _) (le_refl _) hu hv
  obtain ⟨P, hP⟩ : ∃ P, P = U.submatrix id (Fin.castLE hu) := ⟨_, rfl⟩
  obtain ⟨Q, hQ⟩ : ∃ Q, Q = Vt.submatrix (Fin.castLE hv) id := ⟨_, rfl⟩
  rw [← hP, ← hQ] at h'
  have hA : A = P * diagonal (fun k => (s k : 𝕜)) * Q := by
    ext i j
    rw [h'.sum, mul_apply]
    refine Finset.sum_congr rfl fun k _ => ?_
    rw [mul_diagonal]
    rfl
  have hD : (diagonal (fun k => (s k : 𝕜)))ᴴ = diagonal fun k => (s k : 𝕜) := by
    rw [diagonal_conjTranspose]
    congr 1
    funext k
    simp
  have e : Aᴴ * A = Qᴴ * (diagonal (fun k => (s k : 𝕜) * (s k : 𝕜)) * Q) := by
    rw [hA, conjTranspose_mul, conjTranspose_mul, hD]
    calc Qᴴ * (diagonal (fun k => (s k : 𝕜)) * Pᴴ) * (P * diagonal (fun k => (s k : 𝕜)) * Q)
        = Qᴴ * (diagonal (fun k => (s k : 𝕜)) * (Pᴴ * P) * diagonal (fun k => (s k : 𝕜)) * Q) := by simp only [Matrix.mul_assoc]
      _ = _ := by rw [h'.left, Matrix.mul_one, diagonal_mul_diagonal]
  have := charpoly_mul_comm' Qᴴ (diagonal (fun k => (s k : 𝕜) * (s k : 𝕜)) * Q)
  rw [← e, Matrix.mul_assoc, h'.right, Matrix.mul_one, charpoly_diagonal, Fintype.card_fin, Fintype.card_fin] at this
  exact this

/-- Two decompositions of one matrix have the same singular values. -/
theorem IsSvd.unique {m n uc vr uc' vr' : Nat} {A : Matrix (Fin m) (Fin n) 𝕜} {U : Matrix (Fin m) (Fin uc) 𝕜} {s : Fin (min m n) → ℝ}
    {Vt : Matrix (Fin vr) (Fin n) 𝕜} {hu : min m n ≤ uc} {hv : min m n ≤ vr} (h : IsSvd A U s Vt hu hv) {U' : Matrix (Fin m) (Fin uc') 𝕜}
    {s' : Fin (min m n) → ℝ} {Vt' : Matrix (Fin vr') (Fin n) 𝕜} {hu' : min m n ≤ uc'} {hv' : min m n ≤ vr'}
    (h' : IsSvd A U' s' Vt' hu' hv') : s = s' := by
  have h1 := h.charpoly.symm.trans h'.charpoly
  have h2 := mul_left_cancel₀ (pow_ne_zero n Polynomial.X_ne_zero) h1
  have h3 : (Finset.univ.val.map fun k => (s k : 𝕜) * (s k : 𝕜)) = Finset.univ.val.map fun k => (s' k : 𝕜) * (s' k : 𝕜) := by
    have e : ∀ t : Fin (min m n) → 𝕜, (∏ k, (Polynomial.X - Polynomial.C (t k))).roots = Finset.univ.val.map t := by
      intro t
      have := Polynomial.roots_multiset_prod_X_sub_C (Finset.univ.val.map t)
      rw [Multiset.map_map] at this
      exact this
    have := congrArg Polynomial.roots h2
    rwa [e fun k => (s k : 𝕜) * (s k : 𝕜), e fun k => (s' k : 𝕜) * (s' k : 𝕜)] at this
  have h4 : Finset.univ.val.map s = Finset.univ.val.map s' := by
    have := congrArg (Multiset.map fun z : 𝕜 => Real.sqrt (RCLike.re z)) h3
    rw [Multiset.map_map, Multiset.map_map] at this
    have e : ∀ (t : Fin (min m n) → ℝ), (∀ k, 0 ≤ t k) → ((fun z : 𝕜 => Real.sqrt (RCLike.re z)) ∘ fun k => (t k : 𝕜) * (t k : 𝕜)) = t := by
      intro t ht
      funext k
      simp only [Function.comp_apply]
      rw [← RCLike.ofReal_mul, RCLike.ofReal_re, Real.sqrt_mul_self (ht k)]
    rwa [e s h.nonneg, e s' h'.nonneg] at this
  have h5 : (List.ofFn s).Perm (List.ofFn s') := by
    rw [← Multiset.coe_eq_coe]
    simpa [List.ofFn_eq_map] using h4
  have hs : ∀ {t : Fin (min m n) → ℝ}, Antitone t → (List.ofFn t).Pairwise (· ≥ ·) := by
    intro t ht
    rw [List.pairwise_ofFn]
    exact fun _ _ hij => ht hij.le
  exact List.ofFn_injective (h5.eq_of_pairwise' (hs h.sorted) (hs h'.sorted))

/-- **C156** The two routines, whatever the letters and whatever is in `s` and `vt` before, find the same singular values of any matrix. -/
theorem svd_fallback {f g : SvdRoutine 𝕜} {least least' : Int → Int → Int} (hf : SvdDoc f least) (hg : SvdDoc g least') {a : Mat 𝕜} {m n : Nat}
    {A : Matrix (Fin m) (Fin n) 𝕜} (ha : Represents a m n A) (hm : 0 < m) (hn : 0 < n) (s t : List ℝ) {vt wt : Mat 𝕜}
    {jobz jobz' : Char} (hj : jobz = 'A' ∨ jobz = 'S') (hj' : jobz' = 'A' ∨ jobz' = 'S') (hv : vt.nrow = 0 ∨ vt.nrow = vRows jobz m n)
    (hv' : wt.nrow = 0 ∨ wt.nrow = vRows jobz' m n)
    (hc : ∀ s u vt lwork, (f jobz m n a.data m s u m vt (vRows jobz m n) lwork).info ≤ 0)
    (hc' : ∀ s u vt lwork, (g jobz' m n a.data m s u m vt (vRows jobz' m n) lwork).info ≤ 0) :
    ∃ u v u' v' e, svd f least jobz a s vt = .ok (u, e, v) ∧ svd g least' jobz' a t wt = .ok (u', e, v') := by
  obtain ⟨u, e, v, U, w, Vt, r1, -, r3, -, r5⟩ := svd_spec hf ha hm hn s hj hv hc
  obtain ⟨u', e', v', U', w', Vt', q1, -, q3, -, q5⟩ := svd_spec hg ha hm hn t hj' hv' hc'
  refine ⟨u, v, u', v', e, r1, ?_⟩
  rw [q1, r3, q3, r5.unique q5]

end Verif.Lapack
