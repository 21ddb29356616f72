import Verif.Lapack.Lemmas
import Verif.GemmR.Props
import Mathlib.Tactic.FinCases
import Mathlib.Tactic.NormNum

/-!
# Inverses, singular values and rotations of matrices

C80.
-/

namespace Verif.Lapack

open Verif.Loop Verif.Dense

variable {𝕜 : Type} [RCLike 𝕜]

/-! ## Inverses -/

/-- A leading block of `n` rows and columns is in the array. -/
theorem block_room {a : List 𝕜} {n lda : Nat} (hn : 0 < n) {A : Matrix (Fin n) (Fin n) 𝕜} (h : GemmR.Holds .plain a lda A) :
    roomFor a n n lda := by
  intro _ _
  have := (List.getElem?_eq_some_iff.1 (h ⟨n - 1, by omega⟩ ⟨n - 1, by omega⟩)).1
  simp only at this
  have e : ((n : Int) - 1) + ((n : Int) - 1) * lda = ((n - 1 + (n - 1) * lda : Nat) : Int) := by
    push_cast [Nat.cast_sub (show 1 ≤ n from hn)]
    ring
  rw [e]
  omega

/-- With at least as many columns as rows. -/
theorem inverse_block {g : Getr 𝕜} (hg : GetrDoc g) {m : Mat 𝕜} {n c : Nat} (hm : Shape m n c) (hn : 0 < n) (hc : n ≤ c)
    {A : Matrix (Fin n) (Fin n) 𝕜} (hA : GemmR.Holds .plain m.data n A) :
    (¬ IsUnit A → inverse g m = throwOut) ∧
    (IsUnit A → ∃ d, inverse g m = .ok ⟨n, c, d⟩ ∧ d.length = m.data.length ∧ GemmR.Holds .plain d n A⁻¹ ∧
      ∀ p, (∀ i j : Fin n, p ≠ i.val + j.val * n) → d[p]? = m.data[p]?) := by
  obtain ⟨t1, t2⟩ := hg.trf n m.data n (List.replicate n 0)
  obtain ⟨t, ht⟩ : ∃ t, g.trf n n m.data n (List.replicate n 0) = t := ⟨_, rfl⟩
  rw [ht] at t1 t2
  obtain ⟨q1, q2⟩ := hg.query n t.a n t.ipiv (Nat.le_refl n) hn
  obtain ⟨q, hq⟩ : ∃ q, g.tri n t.a n t.ipiv (-1) = q := ⟨_, rfl⟩
  rw [hq] at q1 q2
  have hlw : (n : Int) ≤ toInt q.work0 := toInt_ge (by omega) (by exact_mod_cast q2)
  have hw := hg.work n m.data n (List.replicate n 0) (toInt q.work0) A (Nat.le_refl n) hn (by simp) hlw hA
  rw [ht] at hw
  have hroom : ∀ a : List 𝕜, a.length = m.data.length → roomFor a n n n := by
    intro a ha
    have := block_room hn hA
    unfold roomFor at this ⊢
    rw [ha]
    exact this
  have run : inverse g m = if (g.tri n t.a n t.ipiv (toInt q.work0)).info ≠ 0 then throwOut
      else .ok ⟨n, c, (g.tri n t.a n t.ipiv (toInt q.work0)).a⟩ := by
    unfold inverse
    simp only [hm.nrow, hm.ncol]
    rw [if_neg (by rw [get_some hm hn (by omega)]; simp; omega)]
    unfold trfCall
    rw [if_neg (fun h => h.2 ⟨hroom _ rfl, by simp⟩), ht]
    simp only [bind, Except.bind]
    unfold triCall
    rw [if_neg (fun h => h.2 ⟨hroom _ t1, by rw [t2]; simp, by simp⟩), hq]
    simp only []
    rw [if_neg (fun h => h.2 ⟨hroom _ (by rw [q1]; exact t1), by rw [t2]; simp, by split <;> omega⟩), q1]
    rfl
  constructor
  · intro h
    rw [run, if_pos (by have := hw.2 h; omega)]
  · intro h
    obtain ⟨w1, w2, w3, w4⟩ := hw.1 h
    rw [if_neg (by rw [w1]; simp)] at run
    exact ⟨_, run, w2, w3, w4⟩

/-- **C80** `inverse` gives the inverse of a square matrix, and throws if it has none. -/
theorem inverse_spec {g : Getr 𝕜} (hg : GetrDoc g) {m : Mat 𝕜} {n : Nat} {A : Matrix (Fin n) (Fin n) 𝕜}
    (hm : Represents m n n A) (hn : 0 < n) :
    (¬ IsUnit A → inverse g m = throwOut) ∧ (IsUnit A → ∃ r, inverse g m = .ok r ∧ Represents r n n A⁻¹) := by
  obtain ⟨h1, h2⟩ := inverse_block hg hm.shape hn (Nat.le_refl n) (rep_holds hm)
  refine ⟨h1, fun h => ?_⟩
  obtain ⟨d, h3, h4, h5, _⟩ := h2 h
  exact ⟨_, h3, holds_rep (by rw [h4, hm.size]) h5⟩

/-- **C80** A matrix with fewer rows than columns is not refused: its first columns become their inverse and the others
stay. -/
theorem inverse_wide_fails {g : Getr 𝕜} (hg : GetrDoc g) (x y : 𝕜) (hx : x ≠ 0) :
    inverse g ⟨1, 2, [x, y]⟩ = .ok ⟨1, 2, [x⁻¹, y]⟩ := by
  have hA : GemmR.Holds .plain [x, y] 1 !![x] := by
    intro i j
    fin_cases i; fin_cases j; rfl
  have hd : IsUnit (!![x] : Matrix (Fin 1) (Fin 1) 𝕜) := by
    rw [Matrix.isUnit_iff_isUnit_det]
    simpa using hx
  obtain ⟨d, h1, h2, h3, h4⟩ := (inverse_block (m := ⟨1, 2, [x, y]⟩) (n := 1) (c := 2) hg ⟨rfl, rfl, rfl⟩ (by omega) (by omega) hA).2 hd
  rw [h1]
  have e0 := h3 0 0
  have e1 := h4 1 (by intro i j; fin_cases i; fin_cases j; simp)
  simp only [List.length_cons, List.length_nil] at h2
  obtain ⟨a, b, rfl⟩ : ∃ a b, d = [a, b] := by
    match d, h2 with
    | [a, b], _ => exact ⟨a, b, rfl⟩
  simp at e0 e1
  have hi : (!![x] : Matrix (Fin 1) (Fin 1) 𝕜)⁻¹ = !![x⁻¹] := by
    apply Matrix.inv_eq_right_inv
    ext i j
    fin_cases i; fin_cases j
    simp [Matrix.mul_apply, hx]
  rw [e0, e1]

/-- **C80** With more rows than columns LAPACK is given an array that is too short. -/
theorem inverse_tall_fails (g : Getr 𝕜) {m : Mat 𝕜} {r c : Nat} (hm : Shape m r c) (hc : 0 < c) (hr : c < r) :
    inverse g m = ubOut := by
  unfold inverse
  simp only [hm.nrow, hm.ncol]
  rw [if_neg (by rw [get_some hm (by omega) hc]; simp; omega)]
  unfold trfCall
  rw [if_pos]
  · rfl
  refine ⟨⟨by omega, by omega, by omega⟩, fun h => ?_⟩
  have := h.1 (by omega) (by omega)
  rw [hm.size] at this
  have e : ((r : Int) - 1) + ((r : Int) - 1) * r = ((r * r : Nat) : Int) - 1 := by push_cast; ring
  have h1 : r * (c + 1) ≤ r * r := Nat.mul_le_mul_left r (by omega)
  rw [Nat.mul_add] at h1
  omega

/-- **C80** So it is with an empty matrix. -/
theorem inverse_empty_fails (g : Getr 𝕜) : inverse g (⟨0, 0, []⟩ : Mat 𝕜) = ubOut := rfl

/-! ## Singular values -/

theorem vt_resize {vt : Mat 𝕜} {r c : Nat} (h : vt.nrow = 0 ∨ vt.nrow = r) :
    ∃ v, vt.resize r c = some v ∧ Shape v r c := by
  unfold Mat.resize
  rw [if_neg (by omega)]
  exact ⟨_, rfl, rfl, rfl, resizeL_length _ _ _⟩

theorem roomFor_shape {m : Mat 𝕜} {r c : Nat} (h : Shape m r c) : roomFor m.data r c r := by
  intro h1 h2
  rw [h.size]
  have := idx_lt (show r - 1 < r by omega) (show c - 1 < c by omega)
  have e : ((r : Int) - 1) + ((c : Int) - 1) * r = ((r - 1 + (c - 1) * r : Nat) : Int) := by
    push_cast [Nat.cast_sub (show 1 ≤ r by omega), Nat.cast_sub (show 1 ≤ c by omega)]
    ring
  rw [e]
  omega

/-- **C80** Singular values: `a` becomes `U`, and `U`, `s` and `vt` are a decomposition of `a` if LAPACK converges; the
letter must be `A` or `S`, and `vt` must be empty or have the right number of rows. -/
theorem svd_spec {f : SvdRoutine 𝕜} {least : Int → Int → Int} (hf : SvdDoc f least) {a : Mat 𝕜} {m n : Nat}
    {A : Matrix (Fin m) (Fin n) 𝕜} (ha : Represents a m n A) (hm : 0 < m) (hn : 0 < n) (s : List ℝ) {vt : Mat 𝕜}
    {jobz : Char} (hj : jobz = 'A' ∨ jobz = 'S') (hv : vt.nrow = 0 ∨ vt.nrow = vRows jobz m n)
    (hc : ∀ s u vt lwork, (f jobz m n a.data m s u m vt (vRows jobz m n) lwork).info ≤ 0) :
    ∃ a' s' vt' U e Vt, svd f least jobz a s vt = .ok (a', s', vt') ∧ Represents a' m (uCols jobz m n) U ∧
      s' = List.ofFn e ∧ Represents vt' (vRows jobz m n) n Vt ∧ IsSvd A U e Vt (le_uCols jobz m n) (le_vRows jobz m n) := by
  obtain ⟨v, hv1, hv2⟩ := vt_resize (c := n) hv
  have hmin : (if m < n then m else n) = min m n := by split <;> omega
  have hvr : 0 < vRows jobz m n := lt_of_lt_of_le (by omega) (le_vRows jobz m n)
  have huc : 0 < uCols jobz m n := lt_of_lt_of_le (by omega) (le_uCols jobz m n)
  have hs : (resizeL s (min m n) 0).length = min m n := resizeL_length _ _ _
  have hu : Shape (Mat.mk0 m (uCols jobz m n) : Mat 𝕜) m (uCols jobz m n) := shape_mk0 _ _
  have legal : ∀ lwork : Int, lwork = -1 ∨ least m n ≤ lwork → svdLegal least jobz m n m m (vRows jobz m n) lwork := by
    intro lwork hl
    refine ⟨by simpa using hj, by omega, by omega, by omega, by omega, ?_, hl⟩
    unfold vRows at hvr ⊢
    split at hvr <;> rename_i h <;> simp only [h, if_true, if_false] <;> omega
  have room : ∀ (lwork : Int) (work : Nat), (if lwork = -1 then 1 else lwork) ≤ work →
      svdRoom jobz m n a.data m (resizeL s (min m n) 0) (Mat.mk0 m (uCols jobz m n) : Mat 𝕜).data m v.data
        (vRows jobz m n) lwork work (2 * min m n * max (5 * min m n + 7) (2 * max m n + 2 * min m n + 1)) (8 * min m n) := by
    intro lwork work hl
    have c1 : (if jobz = 'A' then (m : Int) else min (m : Int) n) = (uCols jobz m n : Nat) := by
      unfold uCols; split <;> simp
    have c2 : (if jobz = 'A' then (n : Int) else min (m : Int) n) = (vRows jobz m n : Nat) := by
      unfold vRows; split <;> simp
    refine ⟨roomFor_shape ha.shape, by rw [hs]; simp, by rw [c1]; exact roomFor_shape hu, ?_, hl, ?_, by simp⟩
    · rw [c2]
      exact roomFor_shape hv2
    · have e1 : min (m : Int) n = (min m n : Nat) := by simp
      have e2 : max (m : Int) n = (max m n : Nat) := by simp
      rw [e1, e2]
      generalize min m n = p
      generalize max m n = q
      have h1 : 5 * p * p + 5 * p ≤ 2 * p * max (5 * p + 7) (2 * q + 2 * p + 1) := by
        calc 5 * p * p + 5 * p ≤ 2 * p * (5 * p + 7) := by nlinarith
          _ ≤ _ := Nat.mul_le_mul_left _ (le_max_left _ _)
      have h2 : 2 * q * p + 2 * p * p + p ≤ 2 * p * max (5 * p + 7) (2 * q + 2 * p + 1) := by
        calc 2 * q * p + 2 * p * p + p ≤ 2 * p * (2 * q + 2 * p + 1) := by nlinarith
          _ ≤ _ := Nat.mul_le_mul_left _ (le_max_right _ _)
      exact max_le (by exact_mod_cast h1) (by exact_mod_cast h2)
  obtain ⟨q1, q2, q3, q4, q5, q6⟩ := hf.query jobz m n a.data m (resizeL s (min m n) 0)
    (Mat.mk0 m (uCols jobz m n) : Mat 𝕜).data m v.data (vRows jobz m n) (legal (-1) (.inl rfl))
  obtain ⟨q, hq⟩ : ∃ q, f jobz m n a.data m (resizeL s (min m n) 0) (Mat.mk0 m (uCols jobz m n) : Mat 𝕜).data m v.data
    (vRows jobz m n) (-1) = q := ⟨_, rfl⟩
  rw [hq] at q1 q2 q3 q4 q5 q6
  have hlw : max 1 (least m n) ≤ toInt q.work0 := toInt_ge (by omega) q6
  obtain ⟨lw, hlw'⟩ : ∃ lw, toInt q.work0 + ((m : Int) + n) * 256 = lw := ⟨_, rfl⟩
  have l1 : lw ≠ -1 := by omega
  have l2 : least m n ≤ lw := by omega
  have hw := hf.work jobz m n a.data m (resizeL s (min m n) 0) (Mat.mk0 m (uCols jobz m n) : Mat 𝕜).data m v.data
    (vRows jobz m n) lw (lw + 10).toNat _ _ A (legal lw (.inr l2)) l1 (room lw (lw + 10).toNat (by split <;> omega))
    (rep_holds ha)
  obtain ⟨r, hr⟩ : ∃ r, f jobz m n a.data m (resizeL s (min m n) 0) (Mat.mk0 m (uCols jobz m n) : Mat 𝕜).data m v.data
    (vRows jobz m n) lw = r := ⟨_, rfl⟩
  have hconv := hc (resizeL s (min m n) 0) (Mat.mk0 m (uCols jobz m n) : Mat 𝕜).data v.data lw
  rw [hr] at hw hconv
  obtain ⟨w1, w2, w3, w4, w5⟩ := hw
  obtain ⟨U, e, Vt, u1, u2, u3, u4⟩ := w5 (by omega)
  have run : svd f least jobz a s vt = .ok (⟨m, uCols jobz m n, r.u⟩, r.s, ⟨vRows jobz m n, n, r.vt⟩) := by
    unfold svd
    simp only [ha.nrow, ha.ncol, hmin]
    rw [if_neg (by rcases hj with h | h <;> simp [h])]
    have d1 : (if jobz = 'A' then m else min m n) = uCols jobz m n := rfl
    have d2 : (if jobz = 'A' then n else min m n) = vRows jobz m n := rfl
    rw [d1, d2, hv1]
    simp only [ofThrow, bind, Except.bind]
    rw [if_neg (by
      rw [get_some ha.shape hm hn, hs, get_some hu hm huc, get_some hv2 hvr hn]
      simp
      omega)]
    unfold svdCall
    rw [if_neg (fun h => h.2 (room (-1) 100 (by simp))), hq]
    simp only []
    rw [if_neg (by rw [q1]; simp), hlw', q2, q3, q4, q5,
      if_neg (fun h => h.2 (room lw (lw + 10).toNat (by split <;> omega))), hr]
    simp only []
    rw [if_neg (by omega)]
    rfl
  refine ⟨_, _, _, U, e, Vt, run, holds_rep (by rw [w3, hu.size]) u2, ?_, holds_rep (by rw [w4, hv2.size]) u4, u1⟩
  apply List.ext_getElem?
  intro k
  by_cases hk : k < min m n
  · rw [u3 ⟨k, hk⟩, List.getElem?_ofFn, dif_pos hk]
  · rw [List.getElem?_eq_none (by rw [w2, hs]; omega), List.getElem?_eq_none (by rw [List.length_ofFn]; omega)]

/-- **C80** Other letters are refused. -/
theorem svd_letter (f : SvdRoutine 𝕜) (least : Int → Int → Int) (a : Mat 𝕜) (s : List ℝ) (vt : Mat 𝕜) {jobz : Char}
    (h : jobz ≠ 'A' ∧ jobz ≠ 'S') : svd f least jobz a s vt = throwOut := by
  unfold svd
  rw [if_pos h]

/-- **C80** And so is `vt` with other rows. -/
theorem svd_rows (f : SvdRoutine 𝕜) (least : Int → Int → Int) (a : Mat 𝕜) (s : List ℝ) (vt : Mat 𝕜) {jobz : Char}
    (hj : jobz = 'A' ∨ jobz = 'S') (hv : ¬ (vt.nrow = 0 ∨ vt.nrow = vRows jobz a.nrow a.ncol)) :
    svd f least jobz a s vt = throwOut := by
  unfold svd
  rw [if_neg (by rcases hj with h | h <;> simp [h])]
  have hmin : (if a.nrow < a.ncol then a.nrow else a.ncol) = min a.nrow a.ncol := by split <;> omega
  simp only [hmin]
  have d2 : (if jobz = 'A' then a.ncol else min a.nrow a.ncol) = vRows jobz a.nrow a.ncol := rfl
  rw [d2]
  unfold Mat.resize
  rw [if_pos (by omega)]
  rfl

/-! ## Rotations -/

section

variable {R : Type} [CommRing R] [StarRing R]

theorem holds_rep' {d : List R} {r c : Nat} {A : Matrix (Fin r) (Fin c) R} (hl : d.length = r * c)
    (h : GemmR.Holds .plain d r A) : Represents ⟨r, c, d⟩ r c A := by
  refine ⟨rfl, rfl, hl, ?_⟩
  intro i j
  have hs : Shape (⟨r, c, d⟩ : Mat R) r c := ⟨rfl, rfl, hl⟩
  rw [hs.get i.2 j.2]
  exact h i j

theorem rep_holds' {m : Mat R} {r c : Nat} {A : Matrix (Fin r) (Fin c) R} (h : Represents m r c A) :
    GemmR.Holds .plain m.data r A := by
  intro i j
  rw [← h.entry i j, h.shape.get i.2 j.2]

theorem rep_conj {m : Mat R} {r c : Nat} {A : Matrix (Fin r) (Fin c) R} (h : Represents m r c A) :
    GemmR.Holds .conj m.data r A.conjTranspose := by
  intro i j
  exact ⟨A j i, rep_holds' h j i, rfl⟩

theorem isSome_get {m : Mat R} {r c : Nat} (h : Shape m r c) (hr : 0 < r) (hc : 0 < c) : (m.get 0 0).isNone = false := by
  rw [h.get hr hc]
  have : 0 + 0 * r < m.data.length := by rw [h.size]; exact idx_lt hr hc
  rw [List.getElem?_eq_getElem this]
  rfl

/-- A product by BLAS. -/
theorem gemm_spec (g : GemmR.Args R) (fA fB : GemmR.Form) (hv : GemmR.Sensible g fA fB) (a : Matrix (Fin g.m) (Fin g.k) R)
    (b : Matrix (Fin g.k) (Fin g.n) R) (ha : GemmR.Holds fA g.A g.ldA a) (hb : GemmR.Holds fB g.B g.ldB b)
    (C : List R) (c : Matrix (Fin g.m) (Fin g.n) R) (hc : GemmR.Holds .plain C g.ldC c) :
    ∃ C', gemm g C = .ok C' ∧ C'.length = C.length ∧ GemmR.Holds .plain C' g.ldC (g.alpha • (a * b) + g.beta • c) := by
  obtain ⟨l, C', h1, h2, h3, h4⟩ := GemmR.blas_spec g fA fB hv a b ha hb C c hc
  refine ⟨C', ?_, h3, h4⟩
  simp only [gemm, h1, bind, Except.bind, GemmR.runSteps, h2]

/-- **C80** `rotate` gives the product of the adjoint of the transformation, the matrix and the transformation. -/
theorem rotate_spec {m t : Mat R} {n k : Nat} {M : Matrix (Fin n) (Fin n) R} {T : Matrix (Fin n) (Fin k) R}
    (hm : Represents m n n M) (ht : Represents t n k T) (hn : 0 < n) (hk : 0 < k) :
    ∃ r, rotate m t = .ok r ∧ Represents r k k (T.conjTranspose * M * T) := by
  have hc : Shape (Mat.mk0 k n : Mat R) k n := shape_mk0 k n
  have hr : Shape (Mat.mk0 k k : Mat R) k k := shape_mk0 k k
  have zero : ∀ a b : Nat, GemmR.Holds .plain (Mat.mk0 a b : Mat R).data a (0 : Matrix (Fin a) (Fin b) R) := by
    intro a b i j
    have := shape_mk0_get (α := R) i.2 j.2
    rw [(shape_mk0 a b).get i.2 j.2] at this
    exact this
  obtain ⟨cd, c1, c2, c3⟩ := gemm_spec (⟨'C', 'N', k, n, n, 1, t.data, n, m.data, n, 0, k⟩ : GemmR.Args R) .conj .plain
    ⟨by simp [GemmR.Form.letters], by simp [GemmR.Form.letters], ⟨hk, hn⟩, ⟨hn, Nat.le_refl n⟩, ⟨hn, Nat.le_refl n⟩,
      Nat.le_refl k⟩
    T.conjTranspose M (rep_conj ht) (rep_holds' hm) (Mat.mk0 k n : Mat R).data 0 (zero k n)
  simp only [one_smul, smul_zero, add_zero] at c3
  obtain ⟨rd, r1, r2, r3⟩ := gemm_spec (⟨'N', 'N', k, k, n, 1, cd, k, t.data, n, 0, k⟩ : GemmR.Args R) .plain .plain
    ⟨by simp [GemmR.Form.letters], by simp [GemmR.Form.letters], ⟨hk, hk⟩, ⟨hk, Nat.le_refl k⟩, ⟨hn, Nat.le_refl n⟩,
      Nat.le_refl k⟩
    (T.conjTranspose * M) T c3 (rep_holds' ht) (Mat.mk0 k k : Mat R).data 0 (zero k k)
  simp only [one_smul, smul_zero, add_zero] at r3
  refine ⟨⟨k, k, rd⟩, ?_, holds_rep' (by rw [r2, hr.size]) r3⟩
  unfold rotate
  simp only [hm.nrow, hm.ncol, ht.nrow, ht.ncol]
  rw [if_neg (by rw [isSome_get ht.shape hn hk, isSome_get hm.shape hn hn, isSome_get hc hk hn]; simp)]
  simp only [hc.nrow]
  rw [c1]
  simp only [bind, Except.bind]
  rw [if_neg (by rw [isSome_get hr hk hk]; simp)]
  simp only [hr.nrow]
  rw [r1]
  rfl

end

end Verif.Lapack
