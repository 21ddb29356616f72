import Verif.Krylov.Lemmas
import Mathlib.LinearAlgebra.Matrix.NonsingularInverse
import Mathlib.LinearAlgebra.Matrix.Notation
import Mathlib.Tactic.FinCases
import Mathlib.Tactic.NormNum

/-!
# C56: the Lanczos decomposition
-/

namespace Verif.Krylov

open Verif.Loop Matrix

variable {𝕜 : Type} [RCLike 𝕜] {n : Nat}

/-- The state of the loop before step `j`. -/
structure Inv (H : Matrix (Fin n) (Fin n) 𝕜) (maxn j : Nat) (V0 V1 : Fin n → 𝕜) (data : List (Fin n → 𝕜))
    (a b : List ℝ) : Prop where
  hd : data.length = maxn
  ha : a.length = maxn
  hb : b.length = maxn
  v0 : data.getD (j - 1) 0 = V0
  v1 : data.getD j 0 = V1
  chain : Chain H (fun i => data.getD i 0) (fun i => a.getD i 0) (fun i => b.getD i 0) j

theorem oneStep_spec {H : Matrix (Fin n) (Fin n) 𝕜} (hH : H.IsHermitian) {maxn j : Nat} {V0 V1 : Fin n → 𝕜}
    {data : List (Fin n → 𝕜)} {a b : List ℝ} (h : Inv H maxn j V0 V1 data a b) (hj : 1 ≤ j) (hlt : j < maxn) (enabled : Bool) :
    ∃ V2 a' b', oneStep (H *ᵥ ·) enabled data V0 V1 a b j = some (V2, a', b') ∧
      a' = a.set j (reDot (H *ᵥ V1) V1) ∧ (j + 1 = maxn → b' = b) ∧
      (j + 1 < maxn → Inv H maxn (j + 1) V1 V2 (data.set (j + 1) V2) a' b') ∧
      b'.length = maxn ∧ (∀ i ≤ j, b'.getD i 0 = b.getD i 0) := by
  have hd := h.hd
  have ha := h.ha
  have hb := h.hb
  have hbj : b[j]? = some (b.getD j 0) := by
    simp [List.getD_eq_getElem?_getD, List.getElem?_eq_getElem (by omega : j < b.length)]
  set at' := reDot (H *ᵥ V1) V1 with hat
  set W : Fin n → 𝕜 := fun h => (H *ᵥ V1) h - (at' : 𝕜) * V1 h - ((b.getD j 0 : ℝ) : 𝕜) * V0 h with hW
  set bt := Real.sqrt (reDot W W) with hbt
  obtain ⟨V2, hV2⟩ := reortho_some enabled data (normalize W bt) j (by omega)
  set b' := if j + 1 < maxn then b.set (j + 1) bt else b with hb'
  have hset : (if j + 1 < (a.set j at').length then setAt b (j + 1) bt else some b) = some b' := by
    rw [List.length_set, ha, hb']
    split
    · rename_i hx
      exact setAt_some (by omega)
    · rfl
  have hlen' : b'.length = maxn := by rw [hb']; split <;> simp [hb]
  have hbi : ∀ i ≤ j, b'.getD i 0 = b.getD i 0 := by
    intro i hi
    rw [hb']
    split
    · exact getD_set_ne _ _ _ (by omega)
    · rfl
  refine ⟨V2, a.set j at', b', ?_, rfl, ?_, ?_, hlen', hbi⟩
  · unfold oneStep
    simp only [bind, setAt_some (by omega : j < a.length), Option.bind_some, hbj]
    simp only [← hat, ← hW, ← hbt] at hset ⊢
    rw [hset, Option.bind_some, hV2]
    rfl
  · intro e; rw [hb', if_neg (by omega)]
  · intro hj1
    have ebj1 : b'.getD (j + 1) 0 = bt := by
      rw [hb', if_pos hj1]; exact getD_set_self _ _ _ _ (by omega)
    have edj : ∀ i ≤ j, (data.set (j + 1) V2).getD i 0 = data.getD i 0 := fun i hi => getD_set_ne _ _ _ (by omega)
    have eaj : ∀ i < j, (a.set j at').getD i 0 = a.getD i 0 := fun i hi => getD_set_ne _ _ _ (by omega)
    have eajj : (a.set j at').getD j 0 = at' := getD_set_self _ _ _ _ (by omega)
    refine ⟨by simpa using hd, by simpa using ha, hlen', ?_, getD_set_self _ _ _ _ (by omega), ?_⟩
    · rw [Nat.add_sub_cancel, edj j le_rfl]; exact h.v1
    · have hc : Chain H (fun i => (data.set (j + 1) V2).getD i 0) (fun i => (a.set j at').getD i 0) (fun i => b'.getD i 0) j :=
        h.chain.congr edj eaj hbi
      have hres : res H (fun i => (data.set (j + 1) V2).getD i 0) (fun i => (a.set j at').getD i 0) (fun i => b'.getD i 0) j = W := by
        funext x
        simp only [res, edj j le_rfl, edj (j - 1) (by omega), h.v0, h.v1, eajj, hbi j le_rfl]
        simp only [hW, Pi.sub_apply, Pi.smul_apply, smul_eq_mul]
      have halpha : (a.set j at').getD j 0 = reDot (H *ᵥ (data.set (j + 1) V2).getD j 0) ((data.set (j + 1) V2).getD j 0) := by
        rw [eajj, edj j le_rfl, h.v1]
      refine ⟨hc.b0, hc.unit0, ?_, ?_, ?_⟩
      · intro i hi
        rcases (by omega : i < j ∨ i = j) with h' | rfl
        · exact hc.alpha i h'
        · exact halpha
      · intro i hi
        rcases (by omega : i < j ∨ i = j) with h' | rfl
        · exact hc.beta i h'
        · rw [hres]; exact ebj1
      · intro i hi hnb
        rcases (by omega : i < j ∨ i = j) with h' | rfl
        · exact hc.next i h' hnb
        · rw [hres]
          have hne : bt ≠ 0 := by
            have := hnb (i + 1) (by omega) le_rfl
            simpa only [ebj1] using this
          have ho := chain_orth hH hc i le_rfl (hnb.mono (by omega))
          have hro := res_orth hH hc (hnb.mono (by omega)) ho halpha
          rw [hres] at hro
          have hnW : normalize W bt = ((1 / bt : ℝ) : 𝕜) • W := normalize_eq hbt hne
          have hid := reortho_id enabled data (normalize W bt) i (by omega)
            (fun l hl => by
              have := hro l hl
              rw [edj l hl] at this
              rw [hnW, dotProduct_smul, this, smul_zero])
            (by rw [hnW]; exact normalized hbt hne)
          rw [hV2] at hid
          have e2 : V2 = normalize W bt := Option.some.inj hid
          show (data.set (i + 1) V2).getD (i + 1) 0 = ((1 / b'.getD (i + 1) 0 : ℝ) : 𝕜) • W
          rw [getD_set_self _ _ _ _ (by omega), ebj1, e2, hnW]

/-- What the loop leaves. -/
def Done (p : Params 𝕜 n) (H : Matrix (Fin n) (Fin n) 𝕜) (maxn : Nat) (j0 : Nat) (flag0 : Bool)
    (r : Nat × List (Fin n → 𝕜) × List ℝ × List ℝ) : Prop :=
  r.1 < maxn ∧ j0 ≤ r.1 ∧ r.2.1.length = maxn ∧ r.2.2.1.length = maxn ∧ r.2.2.2.length = maxn ∧
  Chain H (fun i => r.2.1.getD i 0) (fun i => r.2.2.1.getD i 0) (fun i => r.2.2.2.getD i 0) r.1 ∧
  r.2.2.1.getD r.1 0 = reDot (H *ᵥ r.2.1.getD r.1 0) (r.2.1.getD r.1 0) ∧
  (flag0 = true ∨ r.1 = maxn - 1 ∨ ∃ i, j0 ≤ i ∧ i ≤ r.1 ∧ p.close i = true) ∧ (n ≤ 4 ∨ p.minSteps ≤ r.1) ∧
  (∀ i, j0 ≤ i → i < r.1 → p.close i = true ∨ flag0 = true → ¬ (n ≤ 4 ∨ p.minSteps ≤ i))

theorem loop_spec (p : Params 𝕜 n) (H : Matrix (Fin n) (Fin n) 𝕜) (hp : p.mul = (H *ᵥ ·)) (hH : H.IsHermitian) (maxn : Nat)
    (hmin : n ≤ 4 ∨ p.minSteps < maxn) :
    ∀ fuel j flag V0 V1 data a b, fuel = maxn - j → 1 ≤ j → j < maxn → Inv H maxn j V0 V1 data a b →
      ∃ r, loop p maxn fuel j flag V0 V1 data a b = some r ∧ Done p H maxn j flag r := by
  intro fuel
  induction fuel with
  | zero => intro j flag V0 V1 data a b hf h1 h2; omega
  | succ fuel ih =>
    intro j flag V0 V1 data a b hf h1 h2 hI
    obtain ⟨V2, a', b', e, ea, ebn, hI', hlb, hbi⟩ := oneStep_spec hH hI h1 h2 p.enabled
    rw [loop, hp, e]
    simp only [bind, Option.bind_some]
    have hstop : ∀ f : Bool, f = (flag || p.close j || decide (j = maxn - 1)) → f = true → (n ≤ 4 ∨ p.minSteps ≤ j) →
        Done p H maxn j flag (j, data, a', b') := by
      intro f hf' hft hm
      refine ⟨h2, le_rfl, hI.hd, by rw [ea]; simpa using hI.ha, hlb, ?_, ?_, ?_, hm, ?_⟩
      · exact hI.chain.congr (fun i hi => rfl) (fun i hi => by simp only [ea]; exact getD_set_ne _ _ _ (by omega)) hbi
      · simp only [ea, hI.v1]
        exact getD_set_self _ _ _ _ (by have := hI.ha; omega)
      · rw [hft] at hf'
        simp only [Bool.true_eq, Bool.or_eq_true, decide_eq_true_eq] at hf'
        rcases hf' with (h | h) | h
        · exact .inl h
        · exact .inr (.inr ⟨j, le_rfl, le_rfl, h⟩)
        · exact .inr (.inl h)
      · intro i hi1 hi2; simp only at hi2; omega
    by_cases c1 : (flag || p.close j || decide (j = maxn - 1)) = true
    · by_cases c2 : n ≤ 4 ∨ p.minSteps ≤ j
      · refine ⟨(j, data, a', b'), ?_, hstop _ rfl c1 c2⟩
        simp only [c1, Bool.true_and, decide_eq_true_eq]
        by_cases c3 : n ≤ 4
        · rw [if_pos c3]
        · rw [if_neg c3, if_pos (c2.resolve_left c3)]
      · have hc3 : ¬ n ≤ 4 := fun h => c2 (.inl h)
        have hc4 : ¬ p.minSteps ≤ j := fun h => c2 (.inr h)
        have hj1 : j + 1 < maxn := by
          rcases hmin with h | h
          · exact absurd h hc3
          · omega
        simp only [c1, Bool.true_and, decide_eq_true_eq]
        rw [if_neg hc3, if_neg hc4, setAt_some (by rw [hI.hd]; omega), Option.bind_some]
        obtain ⟨r, e1, d1, d2, d3, d4, d5, d6, d7, d8, d9, d10⟩ := ih (j + 1) true V1 V2 _ a' b' (by omega) (by omega) hj1 (hI' hj1)
        refine ⟨r, e1, d1, by omega, d3, d4, d5, d6, d7, ?_, d9, ?_⟩
        · simp only [Bool.or_eq_true, decide_eq_true_eq] at c1
          rcases c1 with (h | h) | h
          · exact .inl h
          · exact .inr (.inr ⟨j, le_rfl, by omega, h⟩)
          · omega
        · intro i hi1 hi2 hi3
          rcases (by omega : i = j ∨ j + 1 ≤ i) with rfl | h
          · exact c2
          · exact d10 i h hi2 (.inr rfl)
    · have c1' : (flag || p.close j || decide (j = maxn - 1)) = false := by simpa using c1
      simp only [Bool.or_eq_false_iff, decide_eq_false_iff_not] at c1'
      have hj1 : j + 1 < maxn := by omega
      have c1'' : (flag || p.close j || decide (j = maxn - 1)) = false := by simpa using c1
      simp only [c1'', Bool.false_and]
      rw [if_neg (by simp), if_neg (by simp), setAt_some (by rw [hI.hd]; omega), Option.bind_some]
      obtain ⟨r, e1, d1, d2, d3, d4, d5, d6, d7, d8, d9, d10⟩ := ih (j + 1) false V1 V2 _ a' b' (by omega) (by omega) hj1 (hI' hj1)
      refine ⟨r, e1, d1, by omega, d3, d4, d5, d6, d7, ?_, d9, ?_⟩
      · rcases d8 with h | h | ⟨i, h3, h4, h5⟩
        · simp at h
        · exact .inr (.inl h)
        · exact .inr (.inr ⟨i, by omega, h4, h5⟩)
      · intro i hi1 hi2 hi3
        rcases (by omega : i = j ∨ j + 1 ≤ i) with rfl | h
        · rcases hi3 with h | h
          · rw [c1'.1.2] at h; simp at h
          · rw [c1'.1.1] at h; simp at h
        · exact d10 i h hi2 (hi3.imp id fun h => by rw [c1'.1.1] at h; simp at h)

theorem decomposition_done (p : Params 𝕜 n) (H : Matrix (Fin n) (Fin n) 𝕜) (hp : p.mul = (H *ᵥ ·)) (hH : H.IsHermitian)
    (steps : Nat) (init : Fin n → 𝕜) (h0 : init ≠ 0) (h2 : 2 ≤ min steps n) (hmin : n ≤ 4 ∨ p.minSteps < min steps n) :
    ∃ r, Done p H (min steps n) 1 false r ∧
      r.2.1.getD 0 0 = (fun i => init i * ((1 / Real.sqrt (reDot init init) : ℝ) : 𝕜)) ∧
      decomposition p steps init =
        some ⟨r.1 + 1, r.2.1.take (r.1 + 1), r.2.2.1.take (r.1 + 1), r.2.2.2.take (r.1 + 1)⟩ := by
  set maxn := min steps n with hm
  have hmaxn : (if steps > n then n else steps) = maxn := by rw [hm]; split <;> omega
  set V0 : Fin n → 𝕜 := fun i => init i * ((1 / Real.sqrt (reDot init init) : ℝ) : 𝕜) with hV0
  set at' := reDot (H *ᵥ V0) V0 with hat
  set W : Fin n → 𝕜 := fun i => (H *ᵥ V0) i - (at' : 𝕜) * V0 i with hW
  set bt := Real.sqrt (reDot W W) with hbt
  set V1 := normalize W bt with hV1
  set data := ((List.replicate maxn (0 : Fin n → 𝕜)).set 0 V0).set 1 V1 with hdata
  set a := (List.replicate maxn (0 : ℝ)).set 0 at' with ha
  set b := ((List.replicate maxn (0 : ℝ)).set 0 0).set 1 bt with hb
  have d0 : data.getD 0 0 = V0 := by
    rw [hdata, getD_set_ne _ _ _ (by omega), getD_set_self _ _ _ _ (by simp; omega)]
  have d1 : data.getD 1 0 = V1 := by rw [hdata, getD_set_self _ _ _ _ (by simp; omega)]
  have b0 : b.getD 0 0 = 0 := by
    rw [hb, getD_set_ne _ _ _ (by omega), getD_set_self _ _ _ _ (by simp; omega)]
  have b1 : b.getD 1 0 = bt := by rw [hb, getD_set_self _ _ _ _ (by simp; omega)]
  have a0 : a.getD 0 0 = at' := by rw [ha, getD_set_self _ _ _ _ (by simp; omega)]
  have hres : res H (fun i => data.getD i 0) (fun i => a.getD i 0) (fun i => b.getD i 0) 0 = W := by
    funext x
    simp only [res, d0, a0, b0]
    simp only [hW, Pi.sub_apply, Pi.smul_apply, smul_eq_mul, RCLike.ofReal_zero, zero_mul, sub_zero]
  have hI : Inv H maxn 1 V0 V1 data a b := by
    refine ⟨by simp [hdata], by simp [ha], by simp [hb], d0, d1, b0, ?_, ?_, ?_, ?_⟩
    · show star (data.getD 0 0) ⬝ᵥ data.getD 0 0 = 1
      rw [d0]
      have hne : Real.sqrt (reDot init init) ≠ 0 := by
        intro h
        rw [Real.sqrt_eq_zero (reDot_nonneg init)] at h
        exact h0 ((reDot_eq_zero init).1 h)
      have := normalized (V := init) rfl hne
      have e : V0 = ((1 / Real.sqrt (reDot init init) : ℝ) : 𝕜) • init := by
        funext i; simp [hV0, mul_comm]
      rw [e]; exact this
    · intro i hi
      obtain rfl : i = 0 := by omega
      simp only [a0, d0]; exact hat
    · intro i hi
      obtain rfl : i = 0 := by omega
      rw [hres]; exact b1
    · intro i hi hnb
      obtain rfl : i = 0 := by omega
      rw [hres]
      have hne : bt ≠ 0 := by
        have := hnb 1 le_rfl le_rfl
        simpa only [b1] using this
      show data.getD 1 0 = ((1 / b.getD 1 0 : ℝ) : 𝕜) • W
      rw [d1, b1, hV1, normalize_eq hbt hne]
  obtain ⟨r, e, hD⟩ := loop_spec p H hp hH maxn hmin (maxn - 1) 1 false V0 V1 data a b rfl le_rfl (by omega) hI
  refine ⟨r, hD, ?_, ?_⟩
  · -- the first vector is never written again
    have : ∀ fuel j flag V0 V1 (data : List (Fin n → 𝕜)) a b r, 1 ≤ j →
        loop p maxn fuel j flag V0 V1 data a b = some r → r.2.1.getD 0 0 = data.getD 0 0 := by
      intro fuel
      induction fuel with
      | zero =>
        intro j flag V0 V1 data a b r _ h
        rw [loop] at h
        rw [← Option.some.inj h]
      | succ fuel ih =>
        intro j flag V0 V1 data a b r hj h
        rw [loop] at h
        cases hs : oneStep p.mul p.enabled data V0 V1 a b j with
        | none => rw [hs] at h; simp at h
        | some x =>
          rw [hs] at h
          simp only [bind, Option.bind_some] at h
          split at h
          · rw [← Option.some.inj h]
          · split at h
            · rw [← Option.some.inj h]
            · cases ht : setAt data (j + 1) x.1 with
              | none => rw [ht] at h; simp at h
              | some d' =>
                rw [ht, Option.bind_some] at h
                rw [ih (j + 1) _ _ _ _ _ _ _ (by omega) h]
                unfold setAt at ht
                split at ht
                · rw [← Option.some.inj ht, getD_set_ne _ _ _ (by omega)]
                · simp at ht
    rw [this _ _ _ _ _ _ _ _ _ le_rfl e, d0]
  · have hr1 := hD.1
    unfold decomposition
    simp only [bind, hmaxn, hp]
    rw [setAt_some (by simp; omega), Option.bind_some, setAt_some (by simp; omega), Option.bind_some,
      setAt_some (by simp; omega), Option.bind_some]
    rw [setAt_some (by simp; omega), Option.bind_some, if_pos (by omega), setAt_some (by simp; omega), Option.bind_some]
    have e' := e
    simp only [hdata, hb, ha, hV1, hbt, hW, hat, hV0] at e'
    rw [e', Option.bind_some]
    obtain ⟨j, dd, aa, bb⟩ := r
    simp only at hr1 ⊢
    rw [if_pos hr1]
    rfl

/-- **C56** For a Hermitian matrix and a start vector that is not zero, `decomposition` finishes for every maximum number of
steps, every sequence of answers of the test of convergence, with or without orthogonalizing again.  The first vector is the
start vector over its norm.  As long as no `b` is zero, the vectors are orthonormal, they obey the recurrence of three terms
and the matrix between any two of them is the tridiagonal matrix of the coefficients; at the first `b` that is zero they
span a subspace that the matrix maps to itself. -/
theorem lanczos_spec (p : Params 𝕜 n) (H : Matrix (Fin n) (Fin n) 𝕜) (hp : p.mul = (H *ᵥ ·)) (hH : H.IsHermitian)
    (steps : Nat) (init : Fin n → 𝕜) (h0 : init ≠ 0) (h2 : 2 ≤ min steps n) (hmin : n ≤ 4 ∨ p.minSteps < min steps n) :
    ∃ r, decomposition p steps init = some r ∧ 2 ≤ r.steps ∧ r.steps ≤ min steps n ∧
      r.data.length = r.steps ∧ r.a.length = r.steps ∧ r.b.length = r.steps ∧
      r.data[0]? = some (fun i => init i * ((1 / Real.sqrt (∑ k, ‖init k‖ ^ 2) : ℝ) : 𝕜)) ∧
      ∀ v : Nat → Fin n → 𝕜, ∀ a b : Nat → ℝ, (∀ i < r.steps, r.data[i]? = some (v i) ∧ r.a[i]? = some (a i) ∧ r.b[i]? = some (b i)) →
        ∀ m < r.steps, (∀ l, 1 ≤ l → l ≤ m → b l ≠ 0) →
          (cols v (m + 1))ᴴ * cols v (m + 1) = 1 ∧
          (cols v (m + 1))ᴴ * H * cols v (m + 1) = tri (fun i => (a i : 𝕜)) (fun i => (b i : 𝕜)) (m + 1) ∧
          (∀ i < m, H *ᵥ v i = (b i : 𝕜) • (if i = 0 then 0 else v (i - 1)) + (a i : 𝕜) • v i + (b (i + 1) : 𝕜) • v (i + 1)) ∧
          (m + 1 < r.steps → b (m + 1) = 0 → H *ᵥ v m = (b m : 𝕜) • (if m = 0 then 0 else v (m - 1)) + (a m : 𝕜) • v m) := by
  obtain ⟨⟨j, dd, aa, bb⟩, ⟨d1, d2, d3, d4, d5, d6, d7, d8⟩, e0, e⟩ := decomposition_done p H hp hH steps init h0 h2 hmin
  simp only at d1 d2 d3 d4 d5 d6 d7 e0 e
  refine ⟨_, e, by simp only; omega, by simp only; omega, ?_, ?_, ?_, ?_, ?_⟩
  · simp [d3]; omega
  · simp [d4]; omega
  · simp [d5]; omega
  · have : 0 < (dd.take (j + 1)).length := by simp [d3]; omega
    rw [← reDot_self, ← e0]
    simp [List.getD_eq_getElem?_getD, List.getElem?_eq_getElem (by omega : 0 < dd.length)]
  · intro v a b hvab m hm hnb
    simp only at hvab hm
    have hv : ∀ i ≤ j, v i = dd.getD i 0 := by
      intro i hi
      have := (hvab i (by omega)).1
      rw [← getD_take dd (k := j + 1) 0 (by omega), List.getD_eq_getElem?_getD, this]; rfl
    have ha : ∀ i ≤ j, a i = aa.getD i 0 := by
      intro i hi
      have := (hvab i (by omega)).2.1
      rw [← getD_take aa (k := j + 1) 0 (by omega), List.getD_eq_getElem?_getD, this]; rfl
    have hb : ∀ i ≤ j, b i = bb.getD i 0 := by
      intro i hi
      have := (hvab i (by omega)).2.2
      rw [← getD_take bb (k := j + 1) 0 (by omega), List.getD_eq_getElem?_getD, this]; rfl
    have hc : Chain H v a b j := d6.congr hv (fun i hi => ha i (by omega)) hb
    have halpha : ∀ i ≤ m, a i = reDot (H *ᵥ v i) (v i) := by
      intro i hi
      rcases (by omega : i < j ∨ i = j) with h | rfl
      · exact hc.alpha i h
      · rw [ha i le_rfl, d7, hv i le_rfl]
    have ho := chain_orth hH hc m (by omega) hnb
    have hrec : ∀ i < m, H *ᵥ v i = (b i : 𝕜) • v (i - 1) + (a i : 𝕜) • v i + (b (i + 1) : 𝕜) • v (i + 1) := fun i hi =>
      chain_step hc (by omega) (fun l h1 h2 => hnb l h1 (by omega))
    refine ⟨?_, ?_, ?_, ?_⟩
    · ext i l
      have := ho i l (by omega) (by omega)
      simp only [Matrix.mul_apply, conjTranspose_apply, cols, Matrix.one_apply, Fin.ext_iff]
      exact this
    · have hlow : ∀ i l, i ≤ m → l < m → star (v i) ⬝ᵥ (H *ᵥ v l) =
          if i = l then (a i : 𝕜) else if i + 1 = l then (b l : 𝕜) else if i = l + 1 then (b i : 𝕜) else 0 := by
        intro i l hi hl
        rw [hrec l hl]
        simp only [dotProduct_add, dotProduct_smul, smul_eq_mul]
        rw [ho i (l - 1) hi (by omega), ho i l hi (by omega), ho i (l + 1) hi (by omega)]
        by_cases e1 : i = l
        · subst e1
          by_cases e2 : i = i - 1
          · have : i = 0 := by omega
            subst this
            rw [hc.b0]; simp
          · simp [e2]
        · by_cases e2 : i + 1 = l
          · have : i = l - 1 := by omega
            have h' : ¬ i = l + 1 := by omega
            rw [if_pos this, if_neg e1, if_neg h', if_neg e1, if_pos e2]; simp
          · by_cases e3 : i = l + 1
            · have : ¬ i = l - 1 := by omega
              rw [if_neg this, if_neg e1, if_pos e3, if_neg e1, if_neg e2, if_pos e3, e3]; simp
            · by_cases e4 : i = l - 1
              · have : l = 0 := by omega
                subst this
                omega
              · simp [e1, e2, e3, e4]
      ext i l
      have hi : i.val ≤ m := by omega
      have hl : l.val ≤ m := by omega
      have e1 : ((cols v (m + 1))ᴴ * H * cols v (m + 1)) i l = star (v i) ⬝ᵥ (H *ᵥ v l) := by
        rw [Matrix.mul_assoc, Matrix.mul_apply]
        simp only [dotProduct, conjTranspose_apply, cols, Pi.star_apply]
        refine Finset.sum_congr rfl fun x _ => ?_
        congr 1
      rw [e1]
      simp only [tri, Fin.ext_iff, RCLike.star_def, RCLike.conj_ofReal]
      rcases (by omega : l.val < m ∨ l.val = m) with h | h
      · rw [hlow i l hi h]
        by_cases c1 : i.val = l.val
        · simp [c1]
        · by_cases c2 : l.val = i.val + 1
          · simp [c2]
          · have c2' : ¬ i.val + 1 = l.val := fun e => c2 e.symm
            simp [c1, c2, c2']
      · rcases (by omega : i.val < m ∨ i.val = m) with h' | h'
        · rw [dot_mulVec hH, ← star_dot, hlow l i hl h']
          by_cases c1 : i.val = l.val
          · omega
          · have c1' : ¬ l.val = i.val := fun e => c1 e.symm
            by_cases c2 : l.val = i.val + 1
            · have : ¬ i.val + 1 + 1 = i.val := by omega
              have h3 : ¬ i.val = i.val + 1 := by omega
              simp [c2, this]
            · have c3 : ¬ i.val = l.val + 1 := by omega
              have c4 : ¬ l.val + 1 = i.val := by omega
              simp [c1, c1', c2, c3, c4]
        · rw [h, h', dot_energy hH, ← halpha m le_rfl]
          simp
    · intro i hi
      rw [hrec i hi]
      by_cases hi0 : i = 0
      · subst hi0
        rw [hc.b0]; simp
      · rw [if_neg hi0]
    · intro hm1 hb0
      have hr : res H v a b m = 0 := by
        have := hc.beta m (by simp only at hm1; omega)
        rw [hb0] at this
        exact (reDot_eq_zero _).1 ((Real.sqrt_eq_zero (reDot_nonneg _)).1 this.symm)
      have h1 : H *ᵥ v m = (b m : 𝕜) • v (m - 1) + (a m : 𝕜) • v m := by
        have : H *ᵥ v m = res H v a b m + ((b m : 𝕜) • v (m - 1) + (a m : 𝕜) • v m) := by simp only [res]; abel
        rw [this, hr, zero_add]
      rw [h1]
      by_cases hi0 : m = 0
      · subst hi0
        rw [hc.b0]; simp
      · rw [if_neg hi0]

/-- **C56** When it stops: at the maximum, or once the test of convergence has been passed; then after at least `minSteps`
steps, unless the matrix is small, and at the first such step. -/
theorem lanczos_stops (p : Params 𝕜 n) (H : Matrix (Fin n) (Fin n) 𝕜) (hp : p.mul = (H *ᵥ ·)) (hH : H.IsHermitian)
    (steps : Nat) (init : Fin n → 𝕜) (h0 : init ≠ 0) (h2 : 2 ≤ min steps n) (hmin : n ≤ 4 ∨ p.minSteps < min steps n) :
    ∃ r, decomposition p steps init = some r ∧
      (r.steps = min steps n ∨ ∃ i, 1 ≤ i ∧ i < r.steps ∧ p.close i = true) ∧ (n ≤ 4 ∨ p.minSteps < r.steps) ∧
      (∀ i, 1 ≤ i → p.close i = true → n ≤ 4 ∨ p.minSteps ≤ i → r.steps ≤ i + 1) := by
  obtain ⟨⟨j, dd, aa, bb⟩, ⟨d1, d2, d3, d4, d5, d6, d7, d8, d9, d10⟩, e0, e⟩ := decomposition_done p H hp hH steps init h0 h2 hmin
  simp only at d1 d2 d8 d9 d10
  refine ⟨_, e, ?_, ?_, ?_⟩
  · simp only
    rcases d8 with h | h | ⟨i, h1, h3, h4⟩
    · simp at h
    · exact .inl (by omega)
    · exact .inr ⟨i, h1, by omega, h4⟩
  · exact d9.imp id fun h => by simp only; omega
  · intro i hi1 hi2 hi3
    simp only
    by_contra hlt
    exact d10 i hi1 (by omega) (.inl hi2) hi3

/-- **C56** `excitedVector` adds the combination of the vectors. -/
theorem excitedVector_spec (data : List (Fin n → 𝕜)) (v : Nat → Fin n → 𝕜) (hv : ∀ i < data.length, data[i]? = some (v i))
    (y : Nat → 𝕜) (z : Fin n → 𝕜) :
    excitedVector data y z = some (z + cols v data.length *ᵥ fun j => y j) := by
  unfold excitedVector
  obtain ⟨w, e, hw⟩ := loopN_inv (fun k w => w = fun i => z i + ∑ j ∈ Finset.range k, y j * v j i) data.length
    (fun j z => (data[j]?).map fun d i => z i + y j * d i) z (by simp)
    (fun j s hj hs => ⟨_, by rw [hv j hj]; rfl, by
      funext i; rw [hs, Finset.sum_range_succ]; ring⟩)
  rw [e, hw]
  congr 1
  funext i
  simp only [Pi.add_apply, mulVec, dotProduct, cols]
  rw [Finset.sum_range]
  congr 1
  exact Finset.sum_congr rfl fun x _ => mul_comm _ _

/-- **C56** Ritz vectors: for an eigenvector of the tridiagonal matrix, `H z - θ z` is orthogonal to all Lanczos vectors,
and if there are as many vectors as rows then `z` is an eigenvector of `H`. -/
theorem ritz_spec (H : Matrix (Fin n) (Fin n) 𝕜) (k : Nat) (V : Matrix (Fin n) (Fin k) 𝕜) (T : Matrix (Fin k) (Fin k) 𝕜)
    (hV : Vᴴ * V = 1) (hT : Vᴴ * H * V = T) (y : Fin k → 𝕜) (θ : 𝕜) (hy : T *ᵥ y = θ • y) :
    Vᴴ *ᵥ (H *ᵥ (V *ᵥ y) - θ • (V *ᵥ y)) = 0 ∧ (k = n → H *ᵥ (V *ᵥ y) = θ • (V *ᵥ y)) := by
  have h1 : Vᴴ *ᵥ (H *ᵥ (V *ᵥ y) - θ • (V *ᵥ y)) = 0 := by
    rw [mulVec_sub, mulVec_smul, mulVec_mulVec, mulVec_mulVec, mulVec_mulVec, hV, hT, hy, one_mulVec, sub_self]
  refine ⟨h1, ?_⟩
  rintro rfl
  have h2 : V * Vᴴ = 1 := mul_eq_one_comm.1 hV
  have := congrArg (V *ᵥ ·) h1
  simp only [mulVec_mulVec, h2, one_mulVec, mulVec_zero] at this
  rw [mulVec_mulVec]
  exact sub_eq_zero.1 this

/-! ## What goes wrong -/

/-- A matrix with one row, or one step: `b(1)` does not exist. -/
theorem one_step_fails (p : Params 𝕜 n) (steps : Nat) (init : Fin n → 𝕜) (h : min steps n ≤ 1) :
    decomposition p steps init = none := by
  have hmaxn : (if steps > n then n else steps) = min steps n := by split <;> omega
  unfold decomposition
  simp only [bind, hmaxn]
  rcases (by omega : min steps n = 0 ∨ min steps n = 1) with e | e <;> rw [e] <;> simp [setAt]

/-- If `minSteps` is not smaller than the maximum, the last vector is stored past the end. -/
theorem min_steps_fails (p : Params 𝕜 n) (steps : Nat) (init : Fin n → 𝕜) (hn : 4 < n) (hm : min steps n ≤ p.minSteps) :
    decomposition p steps init = none := by
  have hmaxn : (if steps > n then n else steps) = min steps n := by split <;> omega
  set maxn := min steps n with hmx
  -- the loop never leaves early
  have key : ∀ fuel j flag V0 V1 (data : List (Fin n → 𝕜)) a b, fuel = maxn - j → j < maxn → data.length = maxn →
      loop p maxn fuel j flag V0 V1 data a b = none := by
    intro fuel
    induction fuel with
    | zero => intro j _ _ _ _ _ _ hf hj; omega
    | succ fuel ih =>
      intro j flag V0 V1 data a b hf hj hd
      rw [loop]
      cases hs : oneStep p.mul p.enabled data V0 V1 a b j with
      | none => rfl
      | some x =>
        simp only [bind, Option.bind_some]
        rw [if_neg (by simp; omega), if_neg (by simp; omega)]
        by_cases hj1 : j + 1 < maxn
        · rw [setAt_some (by omega), Option.bind_some]
          exact ih (j + 1) _ _ _ _ _ _ (by omega) hj1 (by simpa using hd)
        · have : setAt data (j + 1) x.1 = none := by unfold setAt; rw [if_neg (by omega)]
          rw [this]; rfl
  by_cases h1 : maxn ≤ 1
  · exact one_step_fails p steps init h1
  · unfold decomposition
    simp only [bind, hmaxn]
    rw [setAt_some (by simp; omega), Option.bind_some, setAt_some (by simp; omega), Option.bind_some,
      setAt_some (by simp; omega), Option.bind_some, setAt_some (by simp; omega), Option.bind_some,
      if_pos (by omega), setAt_some (by simp; omega), Option.bind_some]
    rw [key _ _ _ _ _ _ _ _ rfl (by omega) (by simp)]
    rfl

/-! ## Examples -/

/-- The hypotheses are met by a matrix of two rows. -/
example : ∃ r, decomposition (⟨((!![1, 2; 2, 3] : Matrix (Fin 2) (Fin 2) ℝ) *ᵥ ·), true, fun _ => false, 4⟩ : Params ℝ 2) 10
    ![1, 0] = some r ∧ 2 ≤ r.steps := by
  obtain ⟨r, h, h2, _⟩ := lanczos_spec (⟨((!![1, 2; 2, 3] : Matrix (Fin 2) (Fin 2) ℝ) *ᵥ ·), true, fun _ => false, 4⟩ : Params ℝ 2)
    !![1, 2; 2, 3] rfl (by ext i j; fin_cases i <;> fin_cases j <;> simp) 10 ![1, 0]
    (by intro h; have := congrFun h 0; simp at this) (by decide) (.inl (by decide))
  exact ⟨r, h, h2⟩

end Verif.Krylov
