import Verif.Krylov.Spec
import Verif.Dense.Spec
import Mathlib.Tactic.Ring
import Mathlib.Tactic.Linarith
import Mathlib.Tactic.FieldSimp

/-!
# The recurrence of three terms
-/

namespace Verif.Krylov

open Verif.Loop Matrix

variable {𝕜 : Type} [RCLike 𝕜] {n : Nat}

/-! ## Products -/

theorem reDot_eq (x y : Fin n → 𝕜) : reDot x y = RCLike.re (star y ⬝ᵥ x) := by
  simp only [reDot, dotProduct, Pi.star_apply, map_sum]
  exact Finset.sum_congr rfl fun i _ => by rw [mul_comm]

theorem reDot_self (x : Fin n → 𝕜) : reDot x x = ∑ i, ‖x i‖ ^ 2 := by
  simp only [reDot]
  refine Finset.sum_congr rfl fun i _ => ?_
  have := RCLike.mul_conj (x i)
  simp only [RCLike.star_def, this]
  norm_cast

theorem dot_self (x : Fin n → 𝕜) : star x ⬝ᵥ x = ((reDot x x : ℝ) : 𝕜) := by
  rw [reDot_self]
  simp only [dotProduct, Pi.star_apply, RCLike.star_def]
  push_cast
  exact Finset.sum_congr rfl fun i _ => RCLike.conj_mul (x i)

theorem reDot_nonneg (x : Fin n → 𝕜) : 0 ≤ reDot x x := by
  rw [reDot_self]; exact Finset.sum_nonneg fun i _ => by positivity

theorem reDot_eq_zero (x : Fin n → 𝕜) : reDot x x = 0 ↔ x = 0 := by
  rw [reDot_self, Finset.sum_eq_zero_iff_of_nonneg (fun i _ => by positivity)]
  constructor
  · intro h; funext i
    have := h i (Finset.mem_univ i)
    simpa using this
  · rintro rfl i _; simp

theorem star_dot (x y : Fin n → 𝕜) : star (star x ⬝ᵥ y) = star y ⬝ᵥ x := by
  rw [star_dotProduct, star_star]

theorem dot_mulVec {H : Matrix (Fin n) (Fin n) 𝕜} (hH : H.IsHermitian) (x y : Fin n → 𝕜) :
    star x ⬝ᵥ (H *ᵥ y) = star (H *ᵥ x) ⬝ᵥ y := by
  rw [dotProduct_mulVec, star_mulVec, hH.eq]

theorem dot_energy {H : Matrix (Fin n) (Fin n) 𝕜} (hH : H.IsHermitian) (x : Fin n → 𝕜) :
    star x ⬝ᵥ (H *ᵥ x) = ((reDot (H *ᵥ x) x : ℝ) : 𝕜) := by
  rw [reDot_eq]
  have h : star (star x ⬝ᵥ (H *ᵥ x)) = star x ⬝ᵥ (H *ᵥ x) := by
    rw [star_dot, ← dot_mulVec hH]
  exact ((RCLike.conj_eq_iff_re).1 h).symm

/-! ## The chain -/

/-- None of `β 1`, ..., `β m` is zero. -/
def NB (β : Nat → ℝ) (m : Nat) : Prop := ∀ l, 1 ≤ l → l ≤ m → β l ≠ 0

/-- `H v_i - α_i v_i - β_i v_{i-1}` -/
noncomputable def res (H : Matrix (Fin n) (Fin n) 𝕜) (v : Nat → Fin n → 𝕜) (α β : Nat → ℝ) (i : Nat) : Fin n → 𝕜 :=
  H *ᵥ v i - (α i : 𝕜) • v i - (β i : 𝕜) • v (i - 1)

structure Chain (H : Matrix (Fin n) (Fin n) 𝕜) (v : Nat → Fin n → 𝕜) (α β : Nat → ℝ) (j : Nat) : Prop where
  b0 : β 0 = 0
  unit0 : star (v 0) ⬝ᵥ v 0 = 1
  alpha : ∀ i < j, α i = reDot (H *ᵥ v i) (v i)
  beta : ∀ i < j, β (i + 1) = Real.sqrt (reDot (res H v α β i) (res H v α β i))
  next : ∀ i < j, NB β (i + 1) → v (i + 1) = ((1 / β (i + 1) : ℝ) : 𝕜) • res H v α β i

def Orth (v : Nat → Fin n → 𝕜) (m : Nat) : Prop :=
  ∀ i l, i ≤ m → l ≤ m → star (v i) ⬝ᵥ v l = if i = l then 1 else 0

theorem NB.mono {β : Nat → ℝ} {m l : Nat} (h : NB β m) (hl : l ≤ m) : NB β l := fun i h1 h2 => h i h1 (by omega)

theorem Chain.mono {H : Matrix (Fin n) (Fin n) 𝕜} {v : Nat → Fin n → 𝕜} {α β : Nat → ℝ} {j l : Nat} (h : Chain H v α β j)
    (hl : l ≤ j) : Chain H v α β l :=
  ⟨h.b0, h.unit0, fun i hi => h.alpha i (by omega), fun i hi => h.beta i (by omega), fun i hi => h.next i (by omega)⟩

/-- What follows the recurrence is orthogonal to what there is. -/
theorem res_orth {H : Matrix (Fin n) (Fin n) 𝕜} (hH : H.IsHermitian) {v : Nat → Fin n → 𝕜} {α β : Nat → ℝ} {m : Nat}
    (hc : Chain H v α β m) (hnb : NB β m) (ho : Orth v m) (ha : α m = reDot (H *ᵥ v m) (v m)) :
    ∀ i ≤ m, star (v i) ⬝ᵥ res H v α β m = 0 := by
  intro i hi
  have hb : (β m : 𝕜) * (star (v i) ⬝ᵥ v (m - 1)) = if i + 1 = m then (β m : 𝕜) else 0 := by
    by_cases hm : m = 0
    · subst hm
      rw [hc.b0]; simp
    · rw [ho i (m - 1) hi (by omega)]
      by_cases e : i + 1 = m
      · rw [if_pos (by omega), if_pos e, mul_one]
      · rw [if_neg (by omega), if_neg e, mul_zero]
  simp only [res, dotProduct_sub, dotProduct_smul, smul_eq_mul]
  rw [ho i m hi le_rfl, hb]
  by_cases e1 : i = m
  · subst e1
    rw [dot_energy hH, ← ha]
    simp
  · rw [if_neg e1]
    have hlt : i < m := by omega
    rw [dot_mulVec hH]
    -- `H v_i` by the recurrence
    have hn := hc.next i hlt (hnb.mono (by omega))
    have hne : (β (i + 1) : 𝕜) ≠ 0 := by
      have := hnb (i + 1) (by omega) (by omega)
      exact_mod_cast this
    have hr : res H v α β i = (β (i + 1) : 𝕜) • v (i + 1) := by
      rw [hn, smul_smul]
      push_cast
      rw [mul_one_div_cancel hne, one_smul]
    have hHv : H *ᵥ v i = (β (i + 1) : 𝕜) • v (i + 1) + (α i : 𝕜) • v i + (β i : 𝕜) • v (i - 1) := by
      rw [← hr]; simp only [res]; abel
    rw [hHv]
    simp only [star_add, star_smul, add_dotProduct, smul_dotProduct, smul_eq_mul, RCLike.star_def, RCLike.conj_ofReal]
    rw [ho (i + 1) m (by omega) le_rfl, ho i m hi le_rfl, ho (i - 1) m (by omega) le_rfl, if_neg e1, if_neg (by omega : ¬ i - 1 = m)]
    by_cases e2 : i + 1 = m
    · subst e2; simp
    · simp [e2]

theorem normalized {V : Fin n → 𝕜} {b : ℝ} (hb : b = Real.sqrt (reDot V V)) (h0 : b ≠ 0) :
    star (((1 / b : ℝ) : 𝕜) • V) ⬝ᵥ (((1 / b : ℝ) : 𝕜) • V) = 1 := by
  simp only [star_smul, smul_dotProduct, dotProduct_smul, smul_eq_mul, RCLike.star_def, RCLike.conj_ofReal, dot_self]
  have hbb : reDot V V = b * b := by rw [hb, Real.mul_self_sqrt (reDot_nonneg V)]
  rw [hbb]
  have : (1 / b) * ((1 / b) * (b * b)) = 1 := by field_simp
  exact_mod_cast this

theorem chain_orth {H : Matrix (Fin n) (Fin n) 𝕜} (hH : H.IsHermitian) {v : Nat → Fin n → 𝕜} {α β : Nat → ℝ} {j : Nat}
    (hc : Chain H v α β j) : ∀ m ≤ j, NB β m → Orth v m := by
  intro m
  induction m with
  | zero =>
    intro _ _ i l hi hl
    obtain rfl : i = 0 := by omega
    obtain rfl : l = 0 := by omega
    simpa using hc.unit0
  | succ m ih =>
    intro hm hnb
    have ho := ih (by omega) (hnb.mono (by omega))
    have hr := res_orth hH (hc.mono (by omega : m ≤ j)) (hnb.mono (by omega)) ho (hc.alpha m (by omega))
    have hv := hc.next m (by omega) hnb
    have h1 : ∀ i ≤ m, star (v i) ⬝ᵥ v (m + 1) = 0 := by
      intro i hi
      rw [hv, dotProduct_smul, hr i hi, smul_zero]
    have h2 : star (v (m + 1)) ⬝ᵥ v (m + 1) = 1 := by
      rw [hv]
      exact normalized (hc.beta m (by omega)) (hnb (m + 1) (by omega) le_rfl)
    intro i l hi hl
    by_cases ei : i = m + 1
    · by_cases el : l = m + 1
      · subst ei el; simpa using h2
      · subst ei
        rw [if_neg (fun e => el e.symm), ← star_dot, h1 l (by omega), star_zero]
    · by_cases el : l = m + 1
      · subst el
        rw [if_neg ei, h1 i (by omega)]
      · exact ho i l (by omega) (by omega)

theorem chain_step {H : Matrix (Fin n) (Fin n) 𝕜} {v : Nat → Fin n → 𝕜} {α β : Nat → ℝ} {j : Nat}
    (hc : Chain H v α β j) {m : Nat} (hm : m < j) (hnb : NB β (m + 1)) :
    H *ᵥ v m = (β m : 𝕜) • v (m - 1) + (α m : 𝕜) • v m + (β (m + 1) : 𝕜) • v (m + 1) := by
  have hne : (β (m + 1) : 𝕜) ≠ 0 := by
    have := hnb (m + 1) (by omega) le_rfl
    exact_mod_cast this
  have hr : res H v α β m = (β (m + 1) : 𝕜) • v (m + 1) := by
    rw [hc.next m hm hnb, smul_smul]
    push_cast
    rw [mul_one_div_cancel hne, one_smul]
  rw [← hr]
  simp only [res]
  abel

/-- The chain depends only on its members. -/
theorem Chain.congr {H : Matrix (Fin n) (Fin n) 𝕜} {v v' : Nat → Fin n → 𝕜} {α α' β β' : Nat → ℝ} {j : Nat}
    (hc : Chain H v α β j) (hv : ∀ i ≤ j, v' i = v i) (ha : ∀ i < j, α' i = α i) (hb : ∀ i ≤ j, β' i = β i) :
    Chain H v' α' β' j := by
  have hres : ∀ i < j, res H v' α' β' i = res H v α β i := by
    intro i hi
    simp only [res, hv i (by omega), hv (i - 1) (by omega), ha i hi, hb i (by omega)]
  refine ⟨by rw [hb 0 (by omega)]; exact hc.b0, by rw [hv 0 (by omega)]; exact hc.unit0, ?_, ?_, ?_⟩
  · intro i hi; rw [ha i hi, hv i (by omega)]; exact hc.alpha i hi
  · intro i hi; rw [hb (i + 1) (by omega), hres i hi]; exact hc.beta i hi
  · intro i hi hnb
    rw [hv (i + 1) (by omega), hb (i + 1) (by omega), hres i hi]
    exact hc.next i hi fun l h1 h2 => by rw [← hb l (by omega)]; exact hnb l h1 h2

/-! ## Orthogonalizing again -/

theorem orthoTo_id {V d : Fin n → 𝕜} (h : star d ⬝ᵥ V = 0) : orthoTo V d = V := by
  have e : ∑ h, star (d h) * V h = 0 := h
  funext i
  simp only [orthoTo, e, mul_zero, sub_zero]

theorem reortho_some (enabled : Bool) (data : List (Fin n → 𝕜)) (V : Fin n → 𝕜) (iter : Nat) (h : iter < data.length) :
    ∃ V', reortho enabled data V iter = some V' := by
  cases enabled
  · exact ⟨V, rfl⟩
  · have : ∃ W, loopN (iter + 1) (fun i V2 => (data[i]?).map (orthoTo V2)) V = some W := by
      obtain ⟨W, e, _⟩ := loopN_inv (fun _ _ => True) (iter + 1) (fun i V2 => (data[i]?).map (orthoTo V2)) V trivial
        (fun i s hi _ => ⟨orthoTo s data[i], by simp [List.getElem?_eq_getElem (by omega : i < data.length)], trivial⟩)
      exact ⟨W, e⟩
    obtain ⟨W, e⟩ := this
    exact ⟨_, by simp only [reortho, if_true, e, bind, Option.bind_some]; rfl⟩

theorem reortho_id (enabled : Bool) (data : List (Fin n → 𝕜)) (V : Fin n → 𝕜) (iter : Nat) (h : iter < data.length)
    (ho : ∀ i ≤ iter, star (data.getD i 0) ⬝ᵥ V = 0) (h1 : star V ⬝ᵥ V = 1) :
    reortho enabled data V iter = some V := by
  cases enabled
  · rfl
  · have : loopN (iter + 1) (fun i V2 => (data[i]?).map (orthoTo V2)) V = some V := by
      obtain ⟨W, e, hW⟩ := loopN_inv (fun _ W => W = V) (iter + 1) (fun i V2 => (data[i]?).map (orthoTo V2)) V rfl
        (fun i s hi hs => ⟨V, by
          have hl : i < data.length := by omega
          have := ho i (by omega)
          rw [List.getD_eq_getElem?_getD, List.getElem?_eq_getElem hl, Option.getD_some] at this
          subst hs
          simp [List.getElem?_eq_getElem hl, orthoTo_id this], rfl⟩)
      rw [e, hW]
    have hd : reDot V V = 1 := by
      rw [dot_self] at h1; exact_mod_cast h1
    simp [reortho, this, hd]

theorem normalize_eq {V : Fin n → 𝕜} {b : ℝ} (hb : b = Real.sqrt (reDot V V)) (h0 : b ≠ 0) :
    normalize V b = ((1 / b : ℝ) : 𝕜) • V := by
  have : b > 0 := lt_of_le_of_ne (by rw [hb]; exact Real.sqrt_nonneg _) (Ne.symm h0)
  unfold normalize
  rw [if_pos this]
  funext i
  simp [mul_comm]

theorem getD_set_self {γ : Type} (l : List γ) (i : Nat) (x d : γ) (h : i < l.length) : (l.set i x).getD i d = x := by
  simp [List.getD_eq_getElem?_getD, List.getElem?_set_self h]

theorem getD_set_ne {γ : Type} (l : List γ) {i k : Nat} (x d : γ) (h : i ≠ k) : (l.set i x).getD k d = l.getD k d := by
  simp [List.getD_eq_getElem?_getD, List.getElem?_set_ne h]

theorem getD_take {γ : Type} (l : List γ) {i k : Nat} (d : γ) (h : i < k) : (l.take k).getD i d = l.getD i d := by
  simp [List.getD_eq_getElem?_getD, h]

end Verif.Krylov
