import Verif.Whole.ModelSmall
import Verif.Base64.Props
import Verif.Random.Props48
import Verif.Lapack.PropsEigen
import Verif.Lapack.PropsDoc

/-!
# C157: the programs examples/base64test.cpp, examples/randomTest.cpp and examples/testLapack.cpp
-/

namespace Verif.Whole.Small

open Verif.Loop Verif.Dense Verif.Lapack

/-! ## examples/base64test.cpp -/

/-- **C157** For every text, the second line printed has the text itself, and the first one its code of four letters for each three
bytes begun. -/
theorem base64_prints (s : List UInt8) : ∃ code : List Char, code.length = 4 * ((s.length + 2) / 3) ∧
    base64 s = .ok ("encoded: ".toList.map byteOf ++ code.map byteOf ++ [10] ++ ("decoded: ".toList.map byteOf ++ s ++ [10])) := by
  obtain ⟨code, h1, h2⟩ := Base64.base64_roundtrip s
  obtain ⟨_, _, _, _, _, h3, _⟩ := Base64.base64_shape s code h1
  exact ⟨code, h3, by unfold base64; rw [h1]; simp only [h2]⟩

/-- The text of the program. -/
example : text.length = 79 ∧ ∃ code : List Char, code.length = 108 ∧
    base64 text = .ok ("encoded: ".toList.map byteOf ++ code.map byteOf ++ [10] ++ ("decoded: ".toList.map byteOf ++ text ++ [10])) := by
  have h : text.length = 79 := by decide +kernel
  obtain ⟨code, h1, h2⟩ := base64_prints text
  exact ⟨h, code, by rw [h1, h], h2⟩

/-! ## examples/randomTest.cpp -/

/-- **C157, violated part** The program is meant to print a random number that depends on the argument.  It prints the same number, one
from zero to one, whatever integer the argument is and whatever numbers have been drawn before; without an argument the behaviour is
undefined. -/
theorem random_same_fails (rnd : ℚ → ℚ) (hr : Random.Rounding rnd) (pr : ℚ → List Char) : ∃ x : ℚ, 0 ≤ x ∧ x < 1 ∧
    ∀ x0 arg more, (∃ i, Host.atoi arg = some i) → random rnd pr x0 (arg :: more) = .ok ("x=".toList ++ pr x ++ ['\n']) := by
  obtain ⟨s, h1, -, -⟩ := Random.make48_spec rnd hr 100 0 1 (by omega)
  have hx := Random.drand48_range 1 (Random.srand48 s) (Random.drand48 (Random.srand48 s)).1 (by simp [Random.drands])
  refine ⟨(Random.drand48 (Random.srand48 s)).1, hx.1, hx.2.1, ?_⟩
  rintro x0 arg more ⟨i, hi⟩
  simp [random, orUb, Random.call48, h1, hi, bind, Except.bind, pure, Except.pure]

/-- **C157, violated part** Without an argument the behaviour is undefined. -/
theorem random_none_fails (rnd : ℚ → ℚ) (hr : Random.Rounding rnd) (pr : ℚ → List Char) (x0 : Nat) : random rnd pr x0 [] = ubOut := by
  obtain ⟨s, h1, -, -⟩ := Random.make48_spec rnd hr 100 0 1 (by omega)
  simp [random, orUb, Random.call48, h1, bind, Except.bind, ubOut]

example (pr : ℚ → List Char) : random id pr 0 ["7".toList] = random id pr 5 ["-12".toList] := by
  obtain ⟨x, -, -, h⟩ := random_same_fails id Random.exact_rounding pr
  rw [h 0 "7".toList [] ⟨7, by decide⟩, h 5 "-12".toList [] ⟨-12, by decide⟩]

/-! ## examples/testLapack.cpp -/

/-- After the loops, the element in row `i` and column `j` is the one that was below the diagonal. -/
theorem symmetrize_spec {α : Type} (n : Nat) (m : List α) (hm : m.length = n * n) :
    ∃ m', symmetrize n m = some m' ∧ m'.length = n * n ∧
      ∀ i j, i < n → j < n → m'[i + j * n]? = m[max i j + min i j * n]? := by
  obtain ⟨m', h1, h2, h3⟩ := loopN_inv
    (fun k (s : List α) => s.length = n * n ∧ ∀ i j, i < n → j < n →
      s[i + j * n]? = if i < j ∧ i < k then m[j + i * n]? else m[i + j * n]?)
    n (fun i m => loopFrom (i + 1) n (fun j m => do
      let x ← m[j + i * n]?
      setAt m (i + j * n) x) m) m ⟨hm, fun i j _ _ => by simp⟩ (by
    rintro k s hk ⟨hl, hs⟩
    obtain ⟨s', e1, e2, e3⟩ := loopFrom_inv
      (fun l (t : List α) => t.length = n * n ∧ ∀ i j, i < n → j < n →
        t[i + j * n]? = if i < j ∧ (i < k ∨ i = k ∧ j < l) then m[j + i * n]? else m[i + j * n]?)
      (k + 1) n hk (fun j m => do
        let x ← m[j + k * n]?
        setAt m (k + j * n) x) s
      ⟨hl, fun i j hi hj => by
        rw [hs i j hi hj]
        congr 1
        apply propext
        constructor
        · rintro ⟨a, b⟩; exact ⟨a, Or.inl b⟩
        · rintro ⟨a, b | ⟨b, c⟩⟩
          · exact ⟨a, b⟩
          · omega⟩ (by
      rintro l t h1 h2 ⟨ht, hv⟩
      have hx := hv l k h2 hk
      rw [if_neg (by omega)] at hx
      have hlt : l + k * n < m.length := by rw [hm]; exact idx_lt h2 hk
      have hlt2 : k + l * n < t.length := by rw [ht]; exact idx_lt hk h2
      refine ⟨t.set (k + l * n) m[l + k * n], ?_, by simp [ht], ?_⟩
      · rw [hx, List.getElem?_eq_getElem hlt]
        exact setAt_some hlt2
      · intro i j hi hj
        by_cases he : i = k ∧ j = l
        · obtain ⟨rfl, rfl⟩ := he
          rw [List.getElem?_set_self hlt2, if_pos ⟨by omega, Or.inr ⟨rfl, by omega⟩⟩, List.getElem?_eq_getElem hlt]
        · rw [List.getElem?_set_ne (by
            intro h
            obtain ⟨a, b⟩ := idx_inj hk hi h
            exact he ⟨a.symm, b.symm⟩), hv i j hi hj]
          congr 1
          apply propext
          constructor
          · rintro ⟨a, b | ⟨b, c⟩⟩
            · exact ⟨a, Or.inl b⟩
            · exact ⟨a, Or.inr ⟨b, by omega⟩⟩
          · rintro ⟨a, b | ⟨b, c⟩⟩
            · exact ⟨a, Or.inl b⟩
            · refine ⟨a, Or.inr ⟨b, ?_⟩⟩
              by_contra hc
              exact he ⟨b, by omega⟩)
    refine ⟨s', e1, e2, fun i j hi hj => ?_⟩
    rw [e3 i j hi hj]
    congr 1
    apply propext
    constructor
    · rintro ⟨a, b | ⟨b, c⟩⟩ <;> exact ⟨a, by omega⟩
    · rintro ⟨a, b⟩
      refine ⟨a, ?_⟩
      by_cases h : i < k
      · exact Or.inl h
      · exact Or.inr ⟨by omega, hj⟩)
  refine ⟨m', h1, h2, fun i j hi hj => ?_⟩
  rw [h3 i j hi hj]
  by_cases h : i < j
  · rw [if_pos ⟨h, hi⟩, max_eq_right (by omega), min_eq_left (by omega)]
  · rw [if_neg (fun h' => h h'.1), max_eq_left (by omega), min_eq_right (by omega)]

/-- The matrix of the program: row `i` and column `j` of a symmetric matrix have five times the random number number
`max i j + min i j * n`. -/
noncomputable def target (n x0 : Nat) : Matrix (Fin n) (Fin n) ℝ :=
  fun i j => 5 * ((Random.lcg^[max i.1 j.1 + min i.1 j.1 * n + 1] x0 : ℕ) / 281474976710656 : ℝ)

theorem target_symm (n x0 : Nat) : (target n x0).conjTranspose = target n x0 := by
  ext i j
  simp only [Matrix.conjTranspose_apply, target, max_comm, min_comm, star_trivial]

theorem fill_get (n x0 : Nat) (k : Nat) (hk : k < n * n) :
    (fill n x0)[k]? = some (5 * ((Random.lcg^[k + 1] x0 : ℕ) / 281474976710656 : ℝ)) := by
  unfold fill
  rw [List.getElem?_map, Random.drands_get _ _ k hk]
  simp

/-- **C157** With any LAPACK that does what its documentation says (a query gives a size of work that is enough), nothing undefined
happens, and the program ends with status one just if LAPACK does not converge; with status zero the numbers are the eigenvalues, in increasing
order, of the symmetric matrix of random numbers, and the array has orthonormal eigenvectors of it in its columns. -/
theorem lapack_diagonalizes {f : Heev ℝ} (hf : HeevDoc f true)
    (hq : ∀ jobz uplo n a lda w, heevLegal true jobz uplo n lda (-1) → (3 * n - 1 : ℝ) ≤ (f jobz uplo n a lda w (-1)).work0)
    (n x0 : Nat) (hn : 0 < n) :
    ∃ m eigs, (lapack f n x0 = .ok (1, m, eigs) ∧ ∃ a w lwork, 0 < (f 'V' 'U' n a n w lwork).info) ∨
      (lapack f n x0 = .ok (0, m, eigs) ∧ ∃ (e : Fin n → ℝ) (V : Matrix (Fin n) (Fin n) ℝ), IsEigen (target n x0) e V ∧
        eigs = List.ofFn e ∧ m.length = n * n ∧ ∀ i j : Fin n, m[i.1 + j.1 * n]? = some (V i j)) := by
  have hfl : (fill n x0).length = n * n := by simp [fill, Random.drands_length]
  obtain ⟨m, h1, h2, h3⟩ := symmetrize_spec n (fill n x0) hfl
  have hT : ∀ i j : Fin n, m[i.1 + j.1 * n]? = some (target n x0 i j) := by
    intro i j
    rw [h3 i j i.2 j.2, fill_get _ _ _ (idx_lt (by omega) (by omega))]
    rfl
  have hleg := legal_first (isReal := true) (option := 'V') (by simp) hn (Nat.le_refl n)
  obtain ⟨q1, q2, q3⟩ := hf.query 'V' 'U' n m n (List.replicate n 0) hleg
  have hq0 := hq 'V' 'U' n m n (List.replicate n 0) hleg
  have hroom : (n - 1) + (n - 1) * n < m.length := by
    rw [h2]
    exact idx_lt (by omega) (by omega)
  have room : ∀ (lwork : Int) (work : Nat), (if lwork = -1 then 1 else lwork) ≤ work →
      heevRoom true n m n (List.replicate n (0 : ℝ)) lwork work 0 := by
    intro lwork work hk
    obtain ⟨a, b, c, -⟩ := room_any true hn m (List.replicate n 0) hroom (by simp) hk
    exact ⟨a, b, c, fun h => by cases h⟩
  obtain ⟨lwork, hlw⟩ : ∃ lwork, toInt (f 'V' 'U' n m n (List.replicate n 0) (-1)).work0 + 1 = lwork := ⟨_, rfl⟩
  have hn1 : (1 : ℝ) ≤ n := by exact_mod_cast hn
  have hpos : 3 * (n : Int) ≤ lwork := by
    rw [← hlw]
    unfold toInt
    push_cast at hq0
    rw [if_pos (by linarith)]
    have : 3 * (n : Int) - 1 ≤ ⌊(f 'V' 'U' n m n (List.replicate n 0) (-1)).work0⌋ := Int.le_floor.2 (by push_cast; exact hq0)
    omega
  have run : lapack f n x0 = if (f 'V' 'U' n m n (List.replicate n 0) lwork).info ≠ 0 then
      .ok (1, (f 'V' 'U' n m n (List.replicate n 0) lwork).a, (f 'V' 'U' n m n (List.replicate n 0) lwork).w)
      else .ok (0, (f 'V' 'U' n m n (List.replicate n 0) lwork).a, (f 'V' 'U' n m n (List.replicate n 0) lwork).w) := by
    unfold lapack
    simp only [h1, orUb, bind, Except.bind]
    rw [call_ok f (room (-1) 3 (by simp))]
    simp only []
    rw [if_neg (by rw [q1]; simp), q2, q3, hlw, call_ok f (room lwork (lwork + 1).toNat (by split <;> omega))]
    rfl
  have hl : heevLegal true 'V' 'U' n n lwork := by
    refine ⟨by simp, by simp, by omega, by omega, Or.inr ?_⟩
    unfold minWork
    simp only [if_true]
    omega
  obtain ⟨r1, r2, r3, r4⟩ := hf.work 'V' 'U' n m n (List.replicate n 0) lwork (target n x0) hl (by omega)
    (room_any true hn m (List.replicate n 0) hroom (by simp) (by split <;> omega)) (by simp) (target_symm n x0)
    (fun i j _ => hT i j)
  by_cases hi : (f 'V' 'U' n m n (List.replicate n 0) lwork).info = 0
  · rw [if_neg (by rw [hi]; simp)] at run
    obtain ⟨e, V, v1, v2, v3⟩ := r4 hi
    refine ⟨_, _, Or.inr ⟨run, e, V, v1, ?_, by rw [r2, h2], v3 (by simp)⟩⟩
    apply List.ext_getElem?
    intro k
    by_cases hk : k < n
    · rw [v2 ⟨k, hk⟩, List.getElem?_ofFn, dif_pos hk]
    · rw [List.getElem?_eq_none (by rw [r3]; simp; omega), List.getElem?_eq_none (by simp; omega)]
  · rw [if_pos hi] at run
    exact ⟨_, _, Or.inl ⟨run, m, List.replicate n 0, lwork, by omega⟩⟩

/-- There are such routines, and with them the program ends with status zero. -/
theorem lapack_exists : ∃ f : Heev ℝ, HeevDoc f true ∧
    (∀ jobz uplo n a lda w, heevLegal true jobz uplo n lda (-1) → (3 * n - 1 : ℝ) ≤ (f jobz uplo n a lda w (-1)).work0) ∧
    ∀ n x0, 0 < n → ∃ m eigs, lapack f n x0 = .ok (0, m, eigs) := by
  obtain ⟨g, hg, hc⟩ := heev_exists (𝕜 := ℝ) true
  let f : Heev ℝ := fun jobz uplo n a lda w lwork => { g jobz uplo n a lda w lwork with work0 := 3 * n - 1 }
  have hf : HeevDoc f true := ⟨hg.illegal, hg.query, hg.work⟩
  have hq : ∀ jobz uplo n a lda w, heevLegal true jobz uplo n lda (-1) → (3 * n - 1 : ℝ) ≤ (f jobz uplo n a lda w (-1)).work0 :=
    fun _ _ _ _ _ _ _ => le_refl _
  refine ⟨f, hf, hq, fun n x0 hn => ?_⟩
  obtain ⟨m, eigs, ⟨-, a, w, lwork, h⟩ | ⟨h, -⟩⟩ := lapack_diagonalizes hf hq n x0 hn
  · exact absurd (hc 'V' 'U' n a n w lwork) (not_le.2 h)
  · exact ⟨m, eigs, h⟩

/-- The program, which has 100 rows. -/
example : ∃ (f : Heev ℝ) (m eigs : List ℝ), HeevDoc f true ∧ lapack f 100 0 = .ok (0, m, eigs) ∧
    ∃ (e : Fin 100 → ℝ) (V : Matrix (Fin 100) (Fin 100) ℝ), IsEigen (target 100 0) e V ∧ eigs = List.ofFn e := by
  obtain ⟨f, hf, hq, h⟩ := lapack_exists
  obtain ⟨m', eigs', h'⟩ := h 100 0 (by decide)
  obtain ⟨m, eigs, ⟨h1, -⟩ | ⟨h1, e, V, h2, h3, -⟩⟩ := lapack_diagonalizes hf hq 100 0 (by decide)
  · rw [h'] at h1
    cases h1
  · exact ⟨f, m, eigs, hf, h1, e, V, h2, h3⟩

end Verif.Whole.Small
