import Verif.Spectral.Model
import Mathlib.LinearAlgebra.Matrix.NonsingularInverse
import Mathlib.LinearAlgebra.Matrix.Hermitian
import Mathlib.Tactic.Ring
import Mathlib.Tactic.Linarith
import Mathlib.Tactic.NormNum
import Mathlib.Tactic.FieldSimp
import Mathlib.Tactic.FinCases
import Mathlib.LinearAlgebra.Matrix.Determinant.Basic

/-!
# C62: spectral functions
-/

namespace Verif.Spectral

open Verif.Loop

/-- The sum over the poles. -/
noncomputable def green (c : CF) (z : ℂ) : ℂ :=
  c.weight * ((c.intensity.zip c.eigs).map fun x => (x.1 : ℂ) / (z - (c.isign : ℂ) * ((c.eg - x.2 : ℝ) : ℂ))).sum

/-- **C62** `iOfOmega` is the weight times the sum of the intensities over the distances to the poles. -/
theorem iOfOmega_spec (c : CF) (z : ℂ) (h : c.weight = 0 ∨ c.intensity.length = c.eigs.length) :
    iOfOmega c z c.eg c.isign = some (green c z) := by
  unfold iOfOmega green
  by_cases hw : c.weight = 0
  · rw [if_pos hw, hw, zero_mul]
  · rw [if_neg hw]
    have hl := h.resolve_left hw
    obtain ⟨s, e, hs⟩ := loopN_inv (fun k s => s = (((c.intensity.zip c.eigs).take k).map fun x =>
        (x.1 : ℂ) / (z - (c.isign : ℂ) * ((c.eg - x.2 : ℝ) : ℂ))).sum) c.intensity.length
      (fun l sum => do
        let i ← c.intensity[l]?
        let e ← c.eigs[l]?
        return sum + (i : ℂ) / (z - (c.isign : ℂ) * ((c.eg - e : ℝ) : ℂ))) 0 (by simp)
      (fun l s hl' hs => by
        have h1 : c.intensity[l]? = some c.intensity[l] := List.getElem?_eq_getElem hl'
        have h2 : c.eigs[l]? = some (c.eigs[l]'(by omega)) := List.getElem?_eq_getElem (by omega)
        refine ⟨s + (c.intensity[l] : ℂ) / (z - (c.isign : ℂ) * ((c.eg - c.eigs[l]'(by omega) : ℝ) : ℂ)), by rw [h1, h2]; rfl, ?_⟩
        have hz : (c.intensity.zip c.eigs)[l]? = some (c.intensity[l], c.eigs[l]'(by omega)) := by
          rw [List.getElem?_zip_eq_some]; exact ⟨h1, h2⟩
        rw [List.take_succ, hz, hs]
        simp)
    simp only [bind, pure] at e ⊢
    rw [e, Option.bind_some, hs, List.take_of_length_le (by simp), mul_comm]

/-- **C62** With the eigenvalues and eigenvectors of the tridiagonal matrix, it is the first element of the resolvent. -/
theorem iOfOmega_resolvent (c : CF) (k : Nat) (U T : Matrix (Fin (k + 1)) (Fin (k + 1)) ℝ) (e : Fin (k + 1) → ℝ)
    (hU : U * U.transpose = 1) (hT : T = U * Matrix.diagonal e * U.transpose) (z : ℂ)
    (hz : ∀ l, z - (c.isign : ℂ) * ((c.eg - e l : ℝ) : ℂ) ≠ 0) :
    iOfOmega (diagonalize c (List.ofFn e) (List.ofFn fun l => U 0 l)) z c.eg c.isign =
      some (c.weight * ((z - (c.isign : ℂ) * (c.eg : ℂ)) • (1 : Matrix (Fin (k + 1)) (Fin (k + 1)) ℂ) +
        (c.isign : ℂ) • T.map ((↑) : ℝ → ℂ))⁻¹ 0 0) := by
  by_cases hw : c.weight = 0
  · simp [diagonalize, iOfOmega, hw]
  · have hd : diagonalize c (List.ofFn e) (List.ofFn fun l => U 0 l) =
        ⟨c.matsubara, c.eg, c.weight, c.isign, List.ofFn e, List.ofFn fun l => U 0 l * U 0 l⟩ := by
      simp [diagonalize, hw, List.map_ofFn, Function.comp_def]
    rw [hd]
    have := iOfOmega_spec ⟨c.matsubara, c.eg, c.weight, c.isign, List.ofFn e, List.ofFn fun l => U 0 l * U 0 l⟩ z (.inr (by simp))
    simp only at this
    rw [this]
    congr 1
    simp only [green]
    congr 1
    set D : Fin (k + 1) → ℂ := fun l => z - (c.isign : ℂ) * ((c.eg - e l : ℝ) : ℂ) with hD
    set Uc := U.map ((↑) : ℝ → ℂ) with hUc
    have hUU : Uc * Uc.transpose = 1 := by
      have := congrArg (fun M : Matrix (Fin (k + 1)) (Fin (k + 1)) ℝ => M.map (Complex.ofRealHom)) hU
      simp only [Matrix.map_mul, Matrix.map_one _ (map_zero Complex.ofRealHom) (map_one Complex.ofRealHom)] at this
      exact this
    have hUU' : Uc.transpose * Uc = 1 := mul_eq_one_comm.1 hUU
    have hM : (z - (c.isign : ℂ) * (c.eg : ℂ)) • (1 : Matrix (Fin (k + 1)) (Fin (k + 1)) ℂ) + (c.isign : ℂ) • T.map ((↑) : ℝ → ℂ) =
        Uc * Matrix.diagonal D * Uc.transpose := by
      have hTc : T.map ((↑) : ℝ → ℂ) = Uc * Matrix.diagonal (fun l => (e l : ℂ)) * Uc.transpose := by
        have := congrArg (fun M : Matrix (Fin (k + 1)) (Fin (k + 1)) ℝ => M.map (Complex.ofRealHom)) hT
        simp only [Matrix.map_mul] at this
        have hdg : (Matrix.diagonal e).map Complex.ofRealHom = Matrix.diagonal (fun l => (e l : ℂ)) := by
          rw [Matrix.diagonal_map (map_zero _)]; rfl
        rw [hdg] at this
        exact this
      have hDd : Matrix.diagonal D = (z - (c.isign : ℂ) * (c.eg : ℂ)) • (1 : Matrix (Fin (k + 1)) (Fin (k + 1)) ℂ) +
          (c.isign : ℂ) • Matrix.diagonal (fun l => (e l : ℂ)) := by
        ext i j
        by_cases hij : i = j
        · subst hij; simp [hD]; ring
        · simp [hij]
      rw [hDd, Matrix.mul_add, Matrix.add_mul, hTc, Matrix.mul_smul, Matrix.smul_mul, Matrix.mul_one, hUU, Matrix.mul_smul,
        Matrix.smul_mul]
    have hinv : (Uc * Matrix.diagonal D * Uc.transpose)⁻¹ = Uc * Matrix.diagonal (fun l => (D l)⁻¹) * Uc.transpose := by
      refine Matrix.inv_eq_right_inv ?_
      have hdd : Matrix.diagonal D * Matrix.diagonal (fun l => (D l)⁻¹) = 1 := by
        rw [Matrix.diagonal_mul_diagonal, ← Matrix.diagonal_one]
        congr 1
        funext l
        exact mul_inv_cancel₀ (hz l)
      calc Uc * Matrix.diagonal D * Uc.transpose * (Uc * Matrix.diagonal (fun l => (D l)⁻¹) * Uc.transpose)
          = Uc * Matrix.diagonal D * (Uc.transpose * Uc) * Matrix.diagonal (fun l => (D l)⁻¹) * Uc.transpose := by
            simp only [Matrix.mul_assoc]
        _ = Uc * (Matrix.diagonal D * Matrix.diagonal (fun l => (D l)⁻¹)) * Uc.transpose := by
            rw [hUU', Matrix.mul_one]; simp only [Matrix.mul_assoc]
        _ = 1 := by rw [hdd, Matrix.mul_one, hUU]
    rw [hM, hinv]
    have hzip : (List.ofFn fun l => U 0 l * U 0 l).zip (List.ofFn e) = List.ofFn fun l => (U 0 l * U 0 l, e l) := by
      apply List.ext_getElem
      · simp
      · intro i h1 h2; rw [List.getElem_zip, List.getElem_ofFn, List.getElem_ofFn, List.getElem_ofFn]
    rw [hzip, List.map_ofFn, List.sum_ofFn]
    rw [Matrix.mul_apply]
    simp only [Matrix.mul_diagonal, Matrix.transpose_apply, Function.comp]
    refine Finset.sum_congr rfl fun l _ => ?_
    simp only [hUc, Matrix.map_apply, hD]
    push_cast
    rw [div_eq_mul_inv]; ring

/-- **C62** And if the Lanczos vectors span a subspace that `H` maps to itself, it is the element of the resolvent of `H` for the
start vector. -/
theorem green_lanczos {n k : Nat} (H : Matrix (Fin n) (Fin n) ℂ) (V : Matrix (Fin n) (Fin (k + 1)) ℂ)
    (T : Matrix (Fin (k + 1)) (Fin (k + 1)) ℂ) (hV : V.conjTranspose * V = 1) (hHV : H * V = V * T) (w s : ℂ)
    (hH : IsUnit (w • (1 : Matrix (Fin n) (Fin n) ℂ) + s • H).det)
    (hT : IsUnit (w • (1 : Matrix (Fin (k + 1)) (Fin (k + 1)) ℂ) + s • T).det) :
    (w • (1 : Matrix (Fin (k + 1)) (Fin (k + 1)) ℂ) + s • T)⁻¹ 0 0 =
      (V.conjTranspose * (w • (1 : Matrix (Fin n) (Fin n) ℂ) + s • H)⁻¹ * V) 0 0 := by
  set A := w • (1 : Matrix (Fin n) (Fin n) ℂ) + s • H with hA
  set B := w • (1 : Matrix (Fin (k + 1)) (Fin (k + 1)) ℂ) + s • T with hB
  have hAB : A * V = V * B := by
    rw [hA, hB, Matrix.add_mul, Matrix.mul_add, Matrix.smul_mul, Matrix.smul_mul, Matrix.mul_smul, Matrix.mul_smul, Matrix.one_mul,
      Matrix.mul_one, hHV]
  have h1 : A⁻¹ * V = V * B⁻¹ := by
    have : A⁻¹ * (A * V) * B⁻¹ = A⁻¹ * (V * B) * B⁻¹ := by rw [hAB]
    rw [← Matrix.mul_assoc, Matrix.nonsing_inv_mul A hH, Matrix.one_mul] at this
    rw [this, Matrix.mul_assoc, Matrix.mul_assoc, Matrix.mul_nonsing_inv B hT, Matrix.mul_one]
  rw [Matrix.mul_assoc, h1, ← Matrix.mul_assoc, hV, Matrix.one_mul]

/-! ## Plots -/

theorem realLoop_spec (g : ℝ → Option ℂ) (f : ℝ → ℂ) (hg : ∀ x, g x = some (f x)) (w1 w2 d : ℝ) (n : Nat) (hd : 0 < d)
    (hn : (n : ℝ) * d ≤ w2 - w1) :
    ∀ fuel k result, k < n → result.length = n → n < fuel + k →
      (∀ i < k, result[i]? = some (w1 + i * d, f (w1 + i * d))) →
      ∃ r, realLoop g w2 d fuel (w1 + k * d) k result = some r ∧ r.length = n ∧
        ∀ i < n, r[i]? = some (w1 + i * d, f (w1 + i * d)) := by
  intro fuel
  induction fuel with
  | zero => intro k result h1 h2 h3; omega
  | succ fuel ih =>
    intro k result hk hl hf hr
    have hlt : w1 + k * d < w2 := by
      have h1 : (k : ℝ) + 1 ≤ n := by exact_mod_cast hk
      have h2 : ((k : ℝ) + 1) * d ≤ n * d := mul_le_mul_of_nonneg_right h1 hd.le
      nlinarith
    have hr' : ∀ i < k + 1, (result.set k (w1 + k * d, f (w1 + k * d)))[i]? = some (w1 + i * d, f (w1 + i * d)) := by
      intro i hi
      by_cases hik : k = i
      · subst hik; rw [List.getElem?_set_self (by omega)]
      · rw [List.getElem?_set_ne hik]; exact hr i (by omega)
    rw [realLoop, if_pos hlt, hg]
    simp only [bind, Option.bind_some]
    rw [setAt_some (by omega), Option.bind_some, List.length_set, hl]
    by_cases hend : n ≤ k + 1
    · rw [if_pos hend]
      exact ⟨_, rfl, by simpa using hl, fun i hi => hr' i (by omega)⟩
    · rw [if_neg hend]
      have := ih (k + 1) (result.set k (w1 + k * d, f (w1 + k * d))) (by omega) (by simpa using hl) (by omega) hr'
      have e : w1 + k * d + d = w1 + ((k + 1 : Nat) : ℝ) * d := by push_cast; ring
      rw [e]; exact this

/-- The frequencies of a plot. -/
noncomputable def grid (p : PlotP) (mats : Bool) : List ℝ :=
  if mats = true ∨ p.matsubaras > 0 then (List.range p.matsubaras).map fun i : Nat => (2 * (i : ℝ) + 1) * Real.pi / p.beta
  else (List.range ⌊(p.omega2 - p.omega1) / p.deltaOmega⌋₊).map fun i : Nat => p.omega1 + (i : ℝ) * p.deltaOmega

/-- The complex number for a frequency. -/
noncomputable def point (p : PlotP) (mats : Bool) (x : ℝ) : ℂ :=
  open Classical in if mats = true ∨ p.matsubaras > 0 then ⟨p.delta, x⟩ else ⟨x, p.delta⟩

/-- The parameters of a plot over real frequencies are such that there is at least one point. -/
def Sane (p : PlotP) : Prop := 0 < p.deltaOmega ∧ p.deltaOmega ≤ p.omega2 - p.omega1

/-- **C62** `plot` on an empty vector gives the function on the grid. -/
theorem plot_spec (c : CF) (p : PlotP) (hc : c.weight = 0 ∨ c.intensity.length = c.eigs.length)
    (hp : c.matsubara = true ∨ p.matsubaras > 0 ∨ Sane p) :
    plot c p [] = some ((grid p c.matsubara).map fun x => (x, green c (point p c.matsubara x))) := by
  classical
  by_cases hm : c.matsubara = true ∨ p.matsubaras > 0
  · have key : ∀ fuel k result, result.length = p.matsubaras → fuel + k = p.matsubaras →
        (∀ i < k, result[i]? = some (matsubara i p, green c ⟨p.delta, matsubara i p⟩)) →
        ∃ r, matsubaraLoop c p fuel k result = some r ∧ r.length = p.matsubaras ∧
          ∀ i < p.matsubaras, r[i]? = some (matsubara i p, green c ⟨p.delta, matsubara i p⟩) := by
      intro fuel
      induction fuel with
      | zero =>
        intro k result hl hf hr
        exact ⟨result, rfl, hl, fun i hi => hr i (by omega)⟩
      | succ fuel ih =>
        intro k result hl hf hr
        rw [matsubaraLoop, iOfOmega_spec c _ hc]
        simp only [bind, Option.bind_some]
        rw [setAt_some (by omega), Option.bind_some, List.length_set, hl]
        have hr' : ∀ i < k + 1, (result.set k (matsubara k p, green c ⟨p.delta, matsubara k p⟩))[i]? =
            some (matsubara i p, green c ⟨p.delta, matsubara i p⟩) := by
          intro i hi
          by_cases hik : k = i
          · subst hik; rw [List.getElem?_set_self (by omega)]
          · rw [List.getElem?_set_ne hik]; exact hr i (by omega)
        by_cases hend : p.matsubaras ≤ k + 1
        · rw [if_pos hend]
          exact ⟨_, rfl, by simpa using hl, fun i hi => hr' i (by omega)⟩
        · rw [if_neg hend]
          exact ih (k + 1) _ (by simpa using hl) (by omega) hr'
    obtain ⟨r, e, hl, hr⟩ := key p.matsubaras 0 (List.replicate p.matsubaras (0, 0)) (by simp) (by omega) (fun i hi => by omega)
    unfold plot
    rw [if_pos hm]
    unfold plotMatsubara
    simp only [List.length_nil, if_true]
    rw [e]
    congr 1
    apply List.ext_getElem?
    intro i
    simp only [grid, if_pos hm, List.map_map, List.getElem?_map]
    by_cases hi : i < p.matsubaras
    · rw [hr i hi, List.getElem?_range hi]
      simp [point, hm, matsubara]
    · rw [List.getElem?_eq_none (by omega), List.getElem?_eq_none (by simp; omega)]; rfl
  · obtain ⟨h1, h2⟩ : Sane p := by
      rcases hp with h | h | h
      · exact absurd (.inl h) hm
      · exact absurd (.inr h) hm
      · exact h
    set n := ⌊(p.omega2 - p.omega1) / p.deltaOmega⌋₊ with hn
    have hq : 1 ≤ (p.omega2 - p.omega1) / p.deltaOmega := by rw [le_div_iff₀ h1]; linarith
    have hn1 : 0 < n := Nat.floor_pos.2 hq
    have hnd : (n : ℝ) * p.deltaOmega ≤ p.omega2 - p.omega1 := by
      have := Nat.floor_le (by linarith : 0 ≤ (p.omega2 - p.omega1) / p.deltaOmega)
      rwa [le_div_iff₀ h1] at this
    obtain ⟨r, e, hl, hr⟩ := realLoop_spec (fun omega => iOfOmega c ⟨omega, p.delta⟩ c.eg c.isign) (fun x => green c ⟨x, p.delta⟩)
      (fun x => iOfOmega_spec c _ hc) p.omega1 p.omega2 p.deltaOmega n h1 hnd (n + 1) 0 (List.replicate n (0, 0)) hn1 (by simp)
      (by omega) (fun i hi => by omega)
    unfold plot
    rw [if_neg hm]
    unfold plotReal
    rw [if_neg (by
      rintro (h | h)
      · exact h1.ne' h
      · linarith)]
    simp only [List.length_nil, if_true, List.length_replicate, ← hn]
    simp only [CharP.cast_eq_zero, zero_mul, add_zero] at e
    rw [e]
    congr 1
    apply List.ext_getElem?
    intro i
    simp only [grid, if_neg hm, List.map_map, List.getElem?_map, ← hn]
    by_cases hi : i < n
    · rw [hr i hi, List.getElem?_range hi]
      simp [point, hm]
    · rw [List.getElem?_eq_none (by omega), List.getElem?_eq_none (by simp; omega)]; rfl

/-- An interval shorter than the step: the only point is written past the end. -/
theorem plot_short_fails (c : CF) (p : PlotP) (hc : c.weight = 0 ∨ c.intensity.length = c.eigs.length) (hm : c.matsubara = false)
    (h0 : p.matsubaras = 0) (h1 : p.omega1 < p.omega2) (h2 : p.omega2 - p.omega1 < p.deltaOmega) : plot c p [] = none := by
  classical
  have hd : 0 < p.deltaOmega := by linarith
  have hq0 : 0 ≤ (p.omega2 - p.omega1) / p.deltaOmega := div_nonneg (by linarith) hd.le
  have hq : (p.omega2 - p.omega1) / p.deltaOmega < 1 := by rw [div_lt_one hd]; exact h2
  have hn : ⌊(p.omega2 - p.omega1) / p.deltaOmega⌋₊ = 0 := Nat.floor_eq_zero.2 hq
  unfold plot
  rw [if_neg (by simp [hm, h0])]
  unfold plotReal
  rw [if_neg (by
    rintro (h | h)
    · exact hd.ne' h
    · linarith)]
  simp only [List.length_nil, if_true, hn, List.replicate_zero]
  rw [realLoop, if_pos h1, iOfOmega_spec c _ hc]
  simp [setAt]

/-- An interval that goes backwards by a step or more: the number of points is a negative number converted to an unsigned type. -/
theorem plot_backwards_fails (c : CF) (p : PlotP) (hm : c.matsubara = false) (h0 : p.matsubaras = 0) (hd : 0 < p.deltaOmega)
    (h1 : p.omega2 + p.deltaOmega ≤ p.omega1) (res : List (ℝ × ℂ)) : plot c p res = none := by
  classical
  unfold plot
  rw [if_neg (by simp [hm, h0])]
  unfold plotReal
  rw [if_pos (Or.inr (by rw [div_le_iff₀ hd]; linarith))]

/-! ## Collections -/

theorem addLoop_spec (g : List ℝ) (f1 f2 : ℝ → ℂ) :
    addLoop (g.map fun x => (x, f1 x)) (g.map fun x => (x, f2 x)) = .ok (g.map fun x => (x, f1 x + f2 x)) := by
  induction g with
  | nil => rfl
  | cons x g ih =>
    simp only [List.map_cons, addLoop, ih]
    rw [if_neg (by simp)]
    rfl

/-- **C62** `accumulate` adds the values of two functions on the same grid. -/
theorem accumulate_spec (g : List ℝ) (f1 f2 : ℝ → ℂ) :
    accumulate (g.map fun x => (x, f1 x)) (g.map fun x => (x, f2 x)) = .ok (g.map fun x => (x, f1 x + f2 x)) := by
  unfold accumulate
  cases g with
  | nil => simp
  | cons x g => rw [if_neg (by simp), if_neg (by simp)]; exact addLoop_spec _ _ _

/-- **C62** An empty vector becomes a copy. -/
theorem accumulate_nil (v : List (ℝ × ℂ)) : accumulate [] v = .ok v := rfl

/-- **C62** Two vectors on different grids are refused; those on the same one are not. -/
theorem accumulate_throws (v1 v2 : List (ℝ × ℂ)) (h : v1 ≠ []) :
    accumulate v1 v2 = throwOut ↔ v1.map Prod.fst ≠ v2.map Prod.fst := by
  unfold accumulate
  rw [if_neg (by simpa using h)]
  by_cases hl : v1.length = v2.length
  · rw [if_neg (by simpa using hl)]
    clear h
    induction v1 generalizing v2 with
    | nil =>
      cases v2 with
      | nil => simp [addLoop, throwOut]
      | cons b v2 => simp at hl
    | cons a v1 ih =>
      cases v2 with
      | nil => simp at hl
      | cons b v2 =>
        rw [addLoop]
        by_cases hab : a.1 = b.1
        · rw [if_neg (by simpa using hab)]
          have := ih v2 (by simpa using hl)
          simp only [List.map_cons, hab, ne_eq, List.cons.injEq, true_and]
          rw [← ne_eq, ← this]
          cases h : addLoop v1 v2 with
          | error e => cases e <;> simp [bind, Except.bind, throwOut]
          | ok r => simp [bind, Except.bind, throwOut, pure, Except.pure]
        · rw [if_pos (by simpa using hab)]
          simp [hab]
  · rw [if_pos (by simpa using hl)]
    simp only [true_iff]
    intro he
    exact hl (by simpa using congrArg List.length he)

/-- **C62** The plot of a collection is the sum of the plots of its members, for any number of members. -/
theorem plotAll_spec (c : CF) (data : List CF) (p : PlotP) (mats : Bool)
    (hd : ∀ x ∈ c :: data, x.matsubara = mats ∧ (x.weight = 0 ∨ x.intensity.length = x.eigs.length))
    (hp : mats = true ∨ p.matsubaras > 0 ∨ Sane p) :
    plotAll (c :: data) p [] = .ok ((grid p mats).map fun x => (x, ((c :: data).map fun d => green d (point p mats x)).sum)) := by
  have hplot : ∀ x ∈ c :: data, plot x p [] = some ((grid p mats).map fun w => (w, green x (point p mats w))) := by
    intro x hx
    obtain ⟨h1, h2⟩ := hd x hx
    have := plot_spec x p h2 (by rw [h1]; exact hp)
    rw [h1] at this
    exact this
  have key : ∀ (data : List CF) (f : ℝ → ℂ), (∀ x ∈ data, plot x p [] = some ((grid p mats).map fun w => (w, green x (point p mats w)))) →
      plotAll data p ((grid p mats).map fun w => (w, f w)) =
        .ok ((grid p mats).map fun x => (x, f x + (data.map fun d => green d (point p mats x)).sum)) := by
    intro data
    induction data with
    | nil => intro f _; simp [plotAll, pure, Except.pure]
    | cons a data ih =>
      intro f h
      unfold plotAll
      rw [List.foldlM_cons, h a (by simp)]
      simp only [bind, Except.bind, accumulate_spec]
      have := ih (fun w => f w + green a (point p mats w)) (fun x hx => h x (by simp [hx]))
      unfold plotAll at this
      simp only [bind, Except.bind] at this
      rw [this]
      simp only [List.map_cons, List.sum_cons, add_assoc]
  unfold plotAll
  rw [List.foldlM_cons, hplot c (by simp)]
  simp only [bind, Except.bind, accumulate_nil]
  have := key data (fun w => green c (point p mats w)) (fun x hx => hplot x (by simp [hx]))
  unfold plotAll at this
  simp only [bind, Except.bind] at this
  rw [this]
  simp only [List.map_cons, List.sum_cons]

/-! ## Examples -/

example : Sane ⟨0, 1, 1 / 4, 1 / 10, 1, 0⟩ := by constructor <;> norm_num

example : green ⟨false, 0, 2, 1, [1], [1]⟩ 3 = 2 * (1 / 4) := by simp [green]; norm_num

/-- The hypotheses of `iOfOmega_resolvent` hold for a rotation that is not the identity. -/
example : let U : Matrix (Fin 2) (Fin 2) ℝ := !![3 / 5, 4 / 5; -4 / 5, 3 / 5]
    U * U.transpose = 1 ∧ ∀ l, (⟨0, 1⟩ : ℂ) - ((1 : ℤ) : ℂ) * (((2 : ℝ) - (![1, 3] : Fin 2 → ℝ) l : ℝ) : ℂ) ≠ 0 := by
  refine ⟨?_, fun l h => ?_⟩
  · ext i j
    fin_cases i <;> fin_cases j <;> norm_num [Matrix.mul_apply, Fin.sum_univ_two, Matrix.transpose_apply]
  · have := congrArg Complex.im h
    simp at this

/-- Those of `green_lanczos` hold for a matrix that is not diagonal. -/
example : let H : Matrix (Fin 2) (Fin 2) ℂ := !![0, 1; 1, 0]
    (1 : Matrix (Fin 2) (Fin 2) ℂ).conjTranspose * 1 = 1 ∧ H * 1 = 1 * H ∧
      IsUnit ((3 : ℂ) • (1 : Matrix (Fin 2) (Fin 2) ℂ) + (1 : ℂ) • H).det := by
  refine ⟨by simp, by simp, ?_⟩
  rw [Matrix.det_fin_two]
  simp [Matrix.one_apply]
  norm_num

end Verif.Spectral
