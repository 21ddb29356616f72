import Verif.Numeric.SpecGradient

/-!
# C153: what the minimizer hands to the function
-/

namespace Verif.Numeric.Gradient

open Verif.Loop

variable {α β : Type}

theorem copy_ok {v : GslVec α} {xs : List α} (h : Holds v xs) (h1 : v.stride = 1) : copy v = some xs := by
  obtain ⟨hs, hd⟩ := h
  rw [h1] at hd
  have hlen : xs.length ≤ v.data.length := by
    by_contra hc
    have := hd (xs.length - 1) (by omega)
    rw [List.getElem?_eq_none (by omega)] at this
    cases this
  unfold copy
  rw [hs, if_pos hlen]
  congr 1
  apply List.ext_getElem
  · simp [hlen]
  · intro i h2 h3
    have := hd i h3
    rw [Nat.mul_one, List.getElem?_eq_getElem (by omega)] at this
    simpa using this

theorem copy_len {v : GslVec α} {xs : List α} (h : Holds v xs) (h1 : 0 < v.stride) : ∃ ys, copy v = some ys ∧ ys.length = xs.length := by
  obtain ⟨hs, hd⟩ := h
  have hlen : xs.length ≤ v.data.length := by
    by_contra hc
    have h2 : xs.length - 1 < xs.length := by omega
    have h3 := hd (xs.length - 1) h2
    have : xs.length - 1 ≤ (xs.length - 1) * v.stride := Nat.le_mul_of_pos_right _ h1
    rw [List.getElem?_eq_none (by omega)] at h3
    cases h3
  refine ⟨v.data.take v.size, ?_, ?_⟩
  · unfold copy
    rw [hs, if_pos hlen]
  · rw [hs]
    simp [hlen]

/-- **C153** The function gets the entries of the vector, if these are next to each other. -/
theorem function_at (f : List α → β) {v : GslVec α} {xs : List α} (h : Holds v xs) (h1 : v.stride = 1) : myFunction f v = some (f xs) := by
  unfold myFunction
  rw [copy_ok h h1]
  rfl

/-- **C153** The function gets other numbers, if they are not: the stride is not looked at. -/
theorem function_stride_fails : ∃ (v : GslVec ℤ) (xs : List ℤ), Holds v xs ∧ v.stride = 2 ∧ myFunction List.sum v ≠ some xs.sum :=
  ⟨⟨[1, 10, 2, 20], 2, 2⟩, [1, 2], ⟨rfl, by decide⟩, rfl, by decide⟩

/-- The loop that stores the gradient. -/
theorem store_loop (g : GslVec α) (ys zs : List α) (hg : Holds g ys) (hs : 0 < g.stride) (hz : zs.length = ys.length) :
    ∀ n, n ≤ ys.length → ∃ g', loopN n (fun ind g => do
      let a ← zs[ind]?
      GslVec.set g ind a) g = some g' ∧ g'.size = g.size ∧ g'.stride = g.stride ∧ g'.data.length = g.data.length ∧
      (∀ i (h : i < n) (hi : i < zs.length), g'.data[i * g.stride]? = some zs[i]) ∧
      ∀ k, (∀ i, i < n → k ≠ i * g.stride) → g'.data[k]? = g.data[k]? := by
  intro n
  induction n with
  | zero => intro _; exact ⟨g, rfl, rfl, rfl, rfl, by intro i h; omega, by intro k _; rfl⟩
  | succ n ih =>
    intro hn
    obtain ⟨g', e, e1, e2, e3, e4, e5⟩ := ih (by omega)
    have hin : n * g.stride < g.data.length := by
      by_contra hc
      have := hg.2 n (by omega)
      rw [List.getElem?_eq_none (by omega)] at this
      cases this
    refine ⟨{ g' with data := g'.data.set (n * g.stride) (zs[n]'(by omega)) }, ?_, e1, e2, ?_, ?_, ?_⟩
    · rw [loopN, e]
      simp only [bind, Option.bind_some]
      rw [List.getElem?_eq_getElem (by omega)]
      simp only [Option.bind_some]
      unfold GslVec.set
      rw [if_pos ⟨by rw [e1, hg.1]; omega, by rw [e2, e3]; exact hin⟩, e2]
    · simp [e3]
    · intro i h hi
      simp only [List.getElem?_set]
      by_cases hin' : i = n
      · subst hin'
        rw [if_pos rfl, if_pos (by rw [e3]; exact hin)]
      · rw [if_neg (by
          intro hc
          exact hin' (Nat.eq_of_mul_eq_mul_right hs hc.symm))]
        exact e4 i (by omega) hi
    · intro k hk
      simp only [List.getElem?_set]
      rw [if_neg (fun hc => hk n (by omega) hc.symm)]
      exact e5 k (fun i hi => hk i (by omega))

/-- **C153** The gradient is stored in the vector for it, whatever this had before and however its entries lie; the memory between them is left
as it was. -/
theorem gradient_at {df : List α → List α → List α} {grad : List α → List α} {n : Nat} (hdf : Computes df grad n) {v g : GslVec α}
    {xs ys : List α} (hv : Holds v xs) (h1 : v.stride = 1) (hx : xs.length = n) (hg : Holds g ys) (hs : 0 < g.stride) (hy : ys.length = n) :
    ∃ g', myDfunction df v g = some g' ∧ Holds g' (grad xs) ∧ g'.stride = g.stride ∧ g'.data.length = g.data.length ∧
      ∀ k, (∀ i, i < n → k ≠ i * g.stride) → g'.data[k]? = g.data[k]? := by
  obtain ⟨ds, e, hd⟩ := copy_len hg hs
  obtain ⟨h2, h3⟩ := hdf ds xs (by omega) hx
  obtain ⟨g', k1, k2, k3, k4, k5, k6⟩ := store_loop g ys (grad xs) hg hs (by omega) n (by omega)
  refine ⟨g', ?_, ⟨by rw [k2, hg.1]; omega, ?_⟩, k3, k4, k6⟩
  · unfold myDfunction
    rw [copy_ok hv h1, e]
    simp only [bind, Option.bind_some, h2]
    rw [hg.1, hy]
    exact k1
  · intro i hi
    rw [k3]
    exact k5 i (by omega) hi

/-- **C153** Both at once. -/
theorem both_at (f : List α → β) {df : List α → List α → List α} {grad : List α → List α} {n : Nat} (hdf : Computes df grad n) {v g : GslVec α}
    {xs ys : List α} (hv : Holds v xs) (h1 : v.stride = 1) (hx : xs.length = n) (hg : Holds g ys) (hs : 0 < g.stride) (hy : ys.length = n) :
    ∃ g', myFdFunction f df v g = some (f xs, g') ∧ myDfunction df v g = some g' ∧ Holds g' (grad xs) := by
  obtain ⟨g', e, h, _⟩ := gradient_at hdf hv h1 hx hg hs hy
  refine ⟨g', ?_, e, h⟩
  unfold myFdFunction
  rw [function_at f hv h1, e]
  rfl

/-- **C153** `gradientNorm` is the length of the gradient, whatever the memory had; so it is zero just where the gradient vanishes. -/
theorem gradientNorm_spec {df : List ℝ → List ℝ → List ℝ} {grad : List ℝ → List ℝ} {n : Nat} (hdf : Computes df grad n) (fresh : Nat → ℝ)
    {v : GslVec ℝ} {xs : List ℝ} (hv : Holds v xs) (h1 : v.stride = 1) (hx : xs.length = n) :
    ∃ r, gradientNorm df n fresh v = some r ∧ 0 ≤ r ∧ r ^ 2 = ((grad xs).map fun x => x ^ 2).sum ∧ (r = 0 ↔ ∀ x ∈ grad xs, x = 0) := by
  have hg : Holds (⟨(List.range n).map fresh, n, 1⟩ : GslVec ℝ) ((List.range n).map fresh) := by
    refine ⟨by simp, ?_⟩
    intro i h
    simp at h
    simp [h]
  obtain ⟨g', e, ⟨hs, hd⟩, h2, _, _⟩ := gradient_at hdf hv h1 hx hg (by simp) (by simp)
  have hloop : ∀ k, k ≤ (grad xs).length → loopN k (fun i sum => do
      let tmp ← g'.get i
      return sum + tmp * tmp) 0 = some (((grad xs).take k).map fun x => x ^ 2).sum := by
    intro k
    induction k with
    | zero => intro _; simp [loopN]
    | succ k ih =>
      intro hk
      rw [loopN, ih (by omega)]
      simp only [bind, Option.bind_some, pure]
      unfold GslVec.get
      rw [if_pos (by omega), hd k (by omega), List.take_succ_eq_append_getElem (by omega)]
      simp only [Option.bind_some, List.map_append, List.sum_append, List.map_cons, List.map_nil, List.sum_cons, List.sum_nil, pow_two, add_zero]
  have hnn : ∀ l : List ℝ, 0 ≤ (l.map fun x => x ^ 2).sum := fun l => List.sum_nonneg (by
    intro x hx
    obtain ⟨y, _, rfl⟩ := List.mem_map.1 hx
    positivity)
  have hz : ∀ l : List ℝ, (l.map fun x => x ^ 2).sum = 0 ↔ ∀ x ∈ l, x = 0 := by
    intro l
    induction l with
    | nil => simp
    | cons a l ih =>
      simp only [List.map_cons, List.sum_cons, List.mem_cons, forall_eq_or_imp]
      rw [add_eq_zero_iff_of_nonneg (by positivity) (hnn l), ih]
      simp
  refine ⟨Real.sqrt ((grad xs).map fun x => x ^ 2).sum, ?_, Real.sqrt_nonneg _, Real.sq_sqrt (hnn _), ?_⟩
  · unfold gradientNorm
    rw [e]
    simp only [bind, Option.bind_some]
    have := hloop _ le_rfl
    simp only [List.take_length] at this
    rw [hs]
    simp only [bind] at this
    rw [this]
    rfl
  · rw [Real.sqrt_eq_zero (hnn _), hz]

/-! ## Cases -/

/-- The gradient of the sum of squares. -/
example : Computes (fun _ (xs : List ℤ) => xs.map (2 * ·)) (fun xs => xs.map (2 * ·)) 2 := fun _ _ _ h => ⟨rfl, by simpa using h⟩

/-- Two entries, and a gradient that is stored with a gap. -/
example : (myDfunction (fun _ (xs : List ℤ) => xs.map (2 * ·)) ⟨[3, 4], 2, 1⟩ ⟨[7, 8, 9], 2, 2⟩).map GslVec.data = some [6, 8, 8] := by decide

example : Holds (⟨[3, 4], 2, 1⟩ : GslVec ℤ) [3, 4] ∧ Holds (⟨[7, 8, 9], 2, 2⟩ : GslVec ℤ) [7, 9] := ⟨⟨rfl, by decide⟩, rfl, by decide⟩

example : ∃ r, gradientNorm (fun _ xs => xs.map (2 * ·)) 2 (fun _ => 5) ⟨[3, 4], 2, 1⟩ = some r ∧ 0 ≤ r ∧ r ^ 2 = 100 := by
  obtain ⟨r, h1, h2, h3, _⟩ := gradientNorm_spec (df := fun _ xs => xs.map (2 * ·)) (grad := fun xs : List ℝ => xs.map (2 * ·)) (n := 2)
    (fun _ _ _ h => ⟨rfl, by simpa using h⟩) (fun _ => 5) (v := ⟨[3, 4], 2, 1⟩) (xs := [3, 4]) ⟨rfl, by
      intro i h
      match i, h with
      | 0, _ => rfl
      | 1, _ => rfl⟩ rfl rfl
  exact ⟨r, h1, h2, by rw [h3]; norm_num⟩

end Verif.Numeric.Gradient
