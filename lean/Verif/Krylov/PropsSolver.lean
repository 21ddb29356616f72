import Verif.Krylov.ModelSolver
import Verif.Krylov.PropsLanczos
import Verif.Krylov.PropsTri
import Mathlib.LinearAlgebra.Dimension.Constructions
import Mathlib.LinearAlgebra.FiniteDimensional.Basic

/-!
# C75: the Lanczos solver
-/

namespace Verif.Krylov

open Verif.Loop Verif.Dense Matrix

variable {𝕜 : Type} [RCLike 𝕜] {n : Nat}

/-! ## The test of convergence -/

/-- `dstedc` does not change the size of the diagonal. -/
def SameSize (p : SolverP 𝕜 n) : Prop := ∀ a b k, (p.eigs a b k).length = a.length

theorem deltas_some (count : Nat) (tmp eold : List ℝ) (h1 : count ≤ tmp.length) (h2 : count ≤ eold.length) :
    ∃ d e, deltas count tmp eold = some (d, e) ∧ e.length = eold.length ∧ (count = 0 → d = 0) ∧ 0 ≤ d := by
  obtain ⟨⟨d, e⟩, h3, h4, h5, h6⟩ := loopN_inv (fun k (s : ℝ × List ℝ) => s.2.length = eold.length ∧ (k = 0 → s.1 = 0) ∧ 0 ≤ s.1) count
    (fun ii s => do
      let t ← tmp[ii]?
      let o ← s.2[ii]?
      let eold ← setAt s.2 ii t
      return (open Classical in if |t - o| > s.1 then |t - o| else s.1, eold)) (0, eold) ⟨rfl, fun _ => rfl, le_refl _⟩ (by
        rintro i ⟨d, e⟩ hi ⟨h4, -, h6⟩
        simp only at h4
        have g1 : tmp[i]? = some (tmp[i]'(by omega)) := List.getElem?_eq_getElem _
        have g2 : e[i]? = some (e[i]'(by omega)) := List.getElem?_eq_getElem _
        refine ⟨_, by simp only [g1, g2, setAt_some (show i < e.length by omega), bind, Option.bind_some]; rfl, ?_, by omega, ?_⟩
        · simp [h4]
        · dsimp only
          split
          · exact abs_nonneg _
          · exact h6)
  exact ⟨d, e, h3, h4, h5, h6⟩

theorem oneStep_length {mul : (Fin n → 𝕜) → Fin n → 𝕜} {enabled : Bool} {data : List (Fin n → 𝕜)} {V0 V1 : Fin n → 𝕜}
    {a b : List ℝ} {j : Nat} {V2 : Fin n → 𝕜} {a' b' : List ℝ} (h : oneStep mul enabled data V0 V1 a b j = some (V2, a', b')) :
    a'.length = a.length := by
  unfold oneStep at h
  simp only [bind, Option.bind_eq_some_iff] at h
  obtain ⟨a1, h1, bi, h2, b1, h3, v, h4, h5⟩ := h
  have e : a1 = a' := by
    simp only [pure, Option.some.injEq, Prod.mk.injEq] at h5
    exact h5.2.1
  rw [← e]
  unfold setAt at h1
  split at h1
  · simp only [Option.some.injEq] at h1
    rw [← h1]; simp
  · cases h1

/-- The loop, with the answers of the test of convergence known beforehand. -/
theorem loopD_eq (p : SolverP 𝕜 n) (hs : SameSize p) (maxn excited : Nat) : ∀ (fuel j : Nat) (flag : Bool) (eold : List ℝ)
    (V0 V1 : Fin n → 𝕜) (data : List (Fin n → 𝕜)) (a b : List ℝ), eold.length = maxn → a.length = maxn →
    ∃ close : Nat → Bool, (excited = 0 → 0 < p.tolerance → ∀ i, close i = true) ∧ (p.tolerance ≤ 0 → ∀ i, close i = false) ∧
      ∀ close' : Nat → Bool, (∀ i, j ≤ i → close' i = close i) →
        loopD p maxn excited fuel j flag eold V0 V1 data a b =
          loop ⟨p.mul, p.reortho, close', p.minSteps⟩ maxn fuel j flag V0 V1 data a b := by
  intro fuel
  induction fuel with
  | zero =>
    intro j flag eold V0 V1 data a b _ _
    classical
    exact ⟨fun _ => decide (0 < p.tolerance), fun _ h _ => decide_eq_true h, fun h _ => decide_eq_false (not_lt.2 h), fun _ _ => rfl⟩
  | succ fuel ih =>
    intro j flag eold V0 V1 data a b he ha
    cases h1 : oneStep p.mul p.reortho data V0 V1 a b j with
    | none =>
      classical
      refine ⟨fun _ => decide (0 < p.tolerance), fun _ h _ => decide_eq_true h, fun h _ => decide_eq_false (not_lt.2 h), fun c hc => ?_⟩
      unfold loopD loop
      simp [h1]
    | some x =>
      obtain ⟨V2, a', b'⟩ := x
      have hl := oneStep_length h1
      obtain ⟨d, e, g1, g2, g3, g4⟩ := deltas_some (min excited (p.eigs a' b' (j + 1)).length) (p.eigs a' b' (j + 1)) eold
        (Nat.min_le_right _ _) (by rw [hs, hl, he, ha]; exact Nat.min_le_right _ _)
      classical
      obtain ⟨dec, hdec⟩ : ∃ c : Bool, c = decide (d < p.tolerance) := ⟨_, rfl⟩
      cases h2 : setAt data (j + 1) V2 with
      | none =>
        refine ⟨fun _ => dec, ?_, ?_, fun c hc => ?_⟩
        · intro h0 ht i
          simp [hdec, g3 (by simp [h0]), ht]
        · intro ht i
          simp [hdec, ht.trans g4]
        · unfold loopD loop
          simp only [h1, g1, bind, Option.bind_some, h2, Option.bind_none, hc j (Nat.le_refl j), hdec]
      | some data' =>
        obtain ⟨close, k1, k3, k2⟩ := ih (j + 1) (flag || dec || decide (j = maxn - 1)) e V1 V2 data' a' b'
          (by rw [g2, he]) (by rw [hl, ha])
        refine ⟨fun i => if i = j then dec else close i, ?_, ?_, fun c hc => ?_⟩
        · intro h0 ht i
          simp only
          split
          · simp [hdec, g3 (by simp [h0]), ht]
          · exact k1 h0 ht i
        · intro ht i
          simp only
          split
          · simp [hdec, ht.trans g4]
          · exact k3 ht i
        · have hcj : c j = dec := by rw [hc j (Nat.le_refl j)]; simp
          have hrec := k2 c (fun i hi => by rw [hc i (by omega)]; exact if_neg (by omega))
          unfold loopD
          conv_rhs => unfold loop
          simp only [h1, g1, bind, Option.bind_some, h2, hcj]
          have : (open Classical in decide (d < p.tolerance)) = dec := by rw [hdec]
          simp only [this]
          rw [hrec]

/-- What is done before the loop. -/
noncomputable def first (mul : (Fin n → 𝕜) → Fin n → 𝕜) (maxn : Nat) (init : Fin n → 𝕜) :
    Option ((Fin n → 𝕜) × (Fin n → 𝕜) × List (Fin n → 𝕜) × List ℝ × List ℝ) := do
  let V0 : Fin n → 𝕜 := fun i => init i * ((1 / Real.sqrt (reDot init init) : ℝ) : 𝕜)
  let a := List.replicate maxn (0 : ℝ)
  let b ← setAt (List.replicate maxn (0 : ℝ)) 0 0
  let data ← setAt (List.replicate maxn (0 : Fin n → 𝕜)) 0 V0
  let w := mul V0
  let atmp := reDot w V0
  let a ← setAt a 0 atmp
  let V1 : Fin n → 𝕜 := fun i => w i - (atmp : 𝕜) * V0 i
  let btmp := Real.sqrt (reDot V1 V1)
  let b ← setAt b 1 btmp
  let V1 := normalize V1 btmp
  let data ← (if 1 < maxn then setAt data 1 V1 else some data)
  return (V0, V1, data, a, b)

/-- What is done after it. -/
def last (maxn : Nat) (r : Nat × List (Fin n → 𝕜) × List ℝ × List ℝ) : Option (Result 𝕜 n) :=
  let k := if r.1 < maxn then r.1 + 1 else maxn
  some ⟨k, r.2.1.take k, r.2.2.1.take k, r.2.2.2.take k⟩

theorem decomposition_split (p : Params 𝕜 n) (steps : Nat) (init : Fin n → 𝕜) :
    decomposition p steps init = (first p.mul (if steps > n then n else steps) init).bind fun x =>
      (loop p (if steps > n then n else steps) ((if steps > n then n else steps) - 1) 1 false x.1 x.2.1 x.2.2.1 x.2.2.2.1 x.2.2.2.2).bind
        (last (if steps > n then n else steps)) := by
  unfold decomposition first
  simp only [bind, Option.bind_assoc]
  rfl

theorem decompositionD_split (p : SolverP 𝕜 n) (steps : Nat) (init : Fin n → 𝕜) (excited : Nat) :
    decompositionD p steps init excited = (first p.mul (if steps > n then n else steps) init).bind fun x =>
      (loopD p (if steps > n then n else steps) excited ((if steps > n then n else steps) - 1) 1 false
        (List.replicate (if steps > n then n else steps) (0 : ℝ)) x.1 x.2.1 x.2.2.1 x.2.2.2.1 x.2.2.2.2).bind
        (last (if steps > n then n else steps)) := by
  unfold decompositionD first
  simp only [bind, Option.bind_assoc]
  rfl

theorem setAt_length {γ : Type} {l l' : List γ} {i : Nat} {x : γ} (h : setAt l i x = some l') : l'.length = l.length := by
  unfold setAt at h
  split at h
  · simp only [Option.some.injEq] at h
    rw [← h]; simp
  · cases h

/-- The decomposition is that of C56, for some answers of the test of convergence. -/
theorem decompositionD_eq (p : SolverP 𝕜 n) (hs : SameSize p) (steps : Nat) (init : Fin n → 𝕜) (excited : Nat) :
    ∃ close : Nat → Bool, (excited = 0 → 0 < p.tolerance → ∀ i, close i = true) ∧ (p.tolerance ≤ 0 → ∀ i, close i = false) ∧
      decompositionD p steps init excited = decomposition ⟨p.mul, p.reortho, close, p.minSteps⟩ steps init := by
  rw [decompositionD_split]
  cases h : first p.mul (if steps > n then n else steps) init with
  | none =>
    classical
    refine ⟨fun _ => decide (0 < p.tolerance), fun _ h _ => decide_eq_true h, fun h _ => decide_eq_false (not_lt.2 h), ?_⟩
    rw [decomposition_split, h]
    rfl
  | some x =>
    obtain ⟨V0, V1, data, a, b⟩ := x
    have ha : a.length = if steps > n then n else steps := by
      unfold first at h
      simp only [bind, Option.bind_eq_some_iff] at h
      obtain ⟨b1, h1, d1, h2, a1, h3, b2, h4, d2, h5, h6⟩ := h
      simp only [pure, Option.some.injEq, Prod.mk.injEq] at h6
      rw [← h6.2.2.2.1, setAt_length h3, List.length_replicate]
    obtain ⟨close, h1, h3, h2⟩ := loopD_eq p hs (if steps > n then n else steps) excited ((if steps > n then n else steps) - 1) 1 false
      (List.replicate (if steps > n then n else steps) (0 : ℝ)) V0 V1 data a b (by simp) ha
    refine ⟨close, h1, h3, ?_⟩
    rw [decomposition_split, h]
    simp only [Option.bind_some]
    rw [h2 close fun _ _ => rfl]

/-! ## The states -/

/-- What `diag(m, eigs, 'V')` gives for a Hermitian matrix: eigenvalues in ascending order and a unitary matrix of
eigenvectors. -/
def Diagonalizes (diag : Mat 𝕜 → List ℝ × Mat 𝕜) : Prop :=
  ∀ (k : Nat) (m : Mat 𝕜) (T : Matrix (Fin k) (Fin k) 𝕜), Represents m k k T → T.IsHermitian →
    ∃ (w : Fin k → ℝ) (U : Matrix (Fin k) (Fin k) 𝕜), (diag m).1 = List.ofFn w ∧ Represents (diag m).2 k k U ∧
      Uᴴ * U = 1 ∧ T * U = U * diagonal (fun i => (w i : 𝕜)) ∧ Monotone w

/-- A lower bound of the matrix: no larger than any expectation value. -/
def LowerBound (H : Matrix (Fin n) (Fin n) 𝕜) (μ : ℝ) : Prop :=
  ∀ x : Fin n → 𝕜, μ * ∑ i, ‖x i‖ ^ 2 ≤ RCLike.re (star x ⬝ᵥ (H *ᵥ x))

/-- The space spanned by the first `k` powers of the matrix applied to the vector. -/
def Powers (H : Matrix (Fin n) (Fin n) 𝕜) (init : Fin n → 𝕜) (k : Nat) : Submodule 𝕜 (Fin n → 𝕜) :=
  Submodule.span 𝕜 (Set.range fun i : Fin k => (H ^ i.1) *ᵥ init)

/-- `z` is a Ritz vector with the value `E` for the space: a normalized vector of the space with the expectation value `E`,
and no part of `H z - E z` is in the space. -/
structure Ritz (H : Matrix (Fin n) (Fin n) 𝕜) (S : Submodule 𝕜 (Fin n → 𝕜)) (E : ℝ) (z : Fin n → 𝕜) : Prop where
  unit : star z ⬝ᵥ z = 1
  energy : star z ⬝ᵥ (H *ᵥ z) = (E : 𝕜)
  space : z ∈ S
  residual : ∀ x ∈ S, star x ⬝ᵥ (H *ᵥ z - (E : 𝕜) • z) = 0

theorem Ritz.bound {H : Matrix (Fin n) (Fin n) 𝕜} {S : Submodule 𝕜 (Fin n → 𝕜)} {E : ℝ} {z : Fin n → 𝕜}
    (h : Ritz H S E z) {μ : ℝ} (hμ : LowerBound H μ) : μ ≤ E := by
  have h1 := hμ z
  have h2 : ∑ i, ‖z i‖ ^ 2 = 1 := by
    have := h.unit
    rw [dot_self, reDot_self] at this
    exact_mod_cast this
  rw [h2, h.energy, mul_one, RCLike.ofReal_re] at h1
  exact h1

/-- The columns of `U` give Ritz vectors. -/
theorem ritz_column (H : Matrix (Fin n) (Fin n) 𝕜) {k : Nat} (V : Matrix (Fin n) (Fin k) 𝕜) (T U : Matrix (Fin k) (Fin k) 𝕜)
    (w : Fin k → ℝ) (hV : Vᴴ * V = 1) (hT : Vᴴ * H * V = T) (hU : Uᴴ * U = 1)
    (hTU : T * U = U * diagonal (fun i => (w i : 𝕜))) (S : Submodule 𝕜 (Fin n → 𝕜)) (hS : ∀ x, (∃ y, x = V *ᵥ y) ↔ x ∈ S)
    (e : Fin k) : Ritz H S (w e) (V *ᵥ fun j => U j e) := by
  have hcol : T *ᵥ (fun j => U j e) = (w e : 𝕜) • fun j => U j e := by
    funext i
    have := congrFun (congrFun hTU i) e
    rw [mul_diagonal] at this
    rw [Pi.smul_apply, smul_eq_mul, mul_comm, ← this]
    rfl
  have hu : star (fun j => U j e) ⬝ᵥ (fun j => U j e) = 1 := by
    have := congrFun (congrFun hU e) e
    rw [one_apply_eq] at this
    rw [← this]
    rfl
  have hs : ∀ x : Fin k → 𝕜, star (V *ᵥ x) = star x ᵥ* Vᴴ := fun x => star_mulVec _ _
  refine ⟨?_, ?_, (hS _).1 ⟨_, rfl⟩, ?_⟩
  · rw [hs, dotProduct_mulVec, vecMul_vecMul, hV, vecMul_one, hu]
  · rw [hs, mulVec_mulVec, dotProduct_mulVec, vecMul_vecMul, ← Matrix.mul_assoc, hT, ← dotProduct_mulVec, hcol,
      dotProduct_smul, hu, smul_eq_mul, mul_one]
  · intro x hx
    obtain ⟨y, rfl⟩ := (hS x).2 hx
    rw [hs, ← dotProduct_mulVec, (ritz_spec H k V T hV hT _ _ hcol).1, dotProduct_zero]

/-- The powers of the matrix applied to the start vector, as many as there are steps, are independent. -/
def Independent (H : Matrix (Fin n) (Fin n) 𝕜) (init : Fin n → 𝕜) (m : Nat) : Prop :=
  LinearIndependent 𝕜 fun i : Fin m => (H ^ i.1) *ᵥ init

/-- Then no `b` is zero. -/
theorem no_breakdown {H : Matrix (Fin n) (Fin n) 𝕜} {init : Fin n → 𝕜} {m : Nat} (hi : Independent H init m) {v : Nat → Fin n → 𝕜}
    {a b : Nat → ℝ} (c : 𝕜) (hc : init = c • v 0) (k : Nat) (hk : k ≤ m)
    (hrec : ∀ j < k, (∀ l, 1 ≤ l → l ≤ j → b l ≠ 0) →
      (∀ i < j, H *ᵥ v i = (b i : 𝕜) • (if i = 0 then 0 else v (i - 1)) + (a i : 𝕜) • v i + (b (i + 1) : 𝕜) • v (i + 1)) ∧
      (j + 1 < k → b (j + 1) = 0 → H *ᵥ v j = (b j : 𝕜) • (if j = 0 then 0 else v (j - 1)) + (a j : 𝕜) • v j)) :
    ∀ l, 1 ≤ l → l < k → b l ≠ 0 := by
  intro l
  induction l using Nat.strong_induction_on with
  | _ l ih =>
    intro h1 hl hb
    obtain ⟨r1, r2⟩ := hrec (l - 1) (by omega) (fun i hi1 hi2 => ih i (by omega) hi1 (by omega))
    have r2 := r2 (by omega) (by rw [show l - 1 + 1 = l by omega]; exact hb)
    set S := Submodule.span 𝕜 (Set.range fun i : Fin l => v i) with hS
    have hmem : ∀ i, i < l → v i ∈ S := fun i hi => Submodule.subset_span ⟨⟨i, hi⟩, rfl⟩
    have hprev : ∀ i, i < l → (if i = 0 then 0 else v (i - 1)) ∈ S := by
      intro i hi
      split
      · exact S.zero_mem
      · exact hmem _ (by omega)
    have hHv : ∀ i, i < l → H *ᵥ v i ∈ S := by
      intro i hi
      by_cases e : i = l - 1
      · rw [e, r2]
        exact S.add_mem (S.smul_mem _ (by have := hprev (l - 1) (by omega); exact this)) (S.smul_mem _ (hmem _ (by omega)))
      · rw [r1 i (by omega)]
        exact S.add_mem (S.add_mem (S.smul_mem _ (hprev i hi)) (S.smul_mem _ (hmem i hi))) (S.smul_mem _ (hmem _ (by omega)))
    have hHS : ∀ x ∈ S, H *ᵥ x ∈ S := by
      intro x hx
      induction hx using Submodule.span_induction with
      | mem x hx => obtain ⟨i, rfl⟩ := hx; exact hHv i i.2
      | zero => rw [mulVec_zero]; exact S.zero_mem
      | add x y _ _ h1 h2 => rw [mulVec_add]; exact S.add_mem h1 h2
      | smul a x _ h1 => rw [mulVec_smul]; exact S.smul_mem _ h1
    have hpow : ∀ i : Nat, (H ^ i) *ᵥ init ∈ S := by
      intro i
      induction i with
      | zero => rw [pow_zero, one_mulVec, hc]; exact S.smul_mem _ (hmem 0 (by omega))
      | succ i ih => rw [pow_succ', ← mulVec_mulVec]; exact hHS _ ih
    have hli : LinearIndependent 𝕜 fun i : Fin (l + 1) => (⟨(H ^ i.1) *ᵥ init, hpow i⟩ : S) := by
      have h2 : LinearIndependent 𝕜 fun i : Fin (l + 1) => (H ^ i.1) *ᵥ init :=
        hi.comp (fun i : Fin (l + 1) => (⟨i.1, by omega⟩ : Fin m)) (by intro x y h; simpa [Fin.ext_iff] using h)
      exact LinearIndependent.of_comp S.subtype h2
    have hcard := hli.fintype_card_le_finrank
    have hdim : Module.finrank 𝕜 S ≤ l := by
      have := finrank_range_le_card (R := 𝕜) (fun i : Fin l => v i)
      simpa [Set.finrank] using this
    simp at hcard
    omega

/-- The vectors of the recurrence span the space of the powers. -/
theorem space_eq {H : Matrix (Fin n) (Fin n) 𝕜} {init : Fin n → 𝕜} {k : Nat} {v : Nat → Fin n → 𝕜} {a b : Nat → ℝ}
    (hV : (cols v k)ᴴ * cols v k = 1) (c : 𝕜) (hc0 : c ≠ 0) (hc : init = c • v 0) (hb : ∀ l, 1 ≤ l → l < k → b l ≠ 0)
    (hrec : ∀ i, i + 1 < k → H *ᵥ v i = (b i : 𝕜) • (if i = 0 then 0 else v (i - 1)) + (a i : 𝕜) • v i + (b (i + 1) : 𝕜) • v (i + 1)) :
    ∀ x, (∃ y, x = cols v k *ᵥ y) ↔ x ∈ Powers H init k := by
  have hmono : ∀ i j, i ≤ j → Powers H init i ≤ Powers H init j := by
    intro i j hij
    refine Submodule.span_mono ?_
    rintro _ ⟨l, rfl⟩
    exact ⟨⟨l.1, by omega⟩, rfl⟩
  have hstep : ∀ i, ∀ x ∈ Powers H init i, H *ᵥ x ∈ Powers H init (i + 1) := by
    intro i x hx
    induction hx using Submodule.span_induction with
    | mem x hx =>
      obtain ⟨l, rfl⟩ := hx
      exact Submodule.subset_span ⟨⟨l.1 + 1, by omega⟩, by simp only [pow_succ', mulVec_mulVec]⟩
    | zero => rw [mulVec_zero]; exact Submodule.zero_mem _
    | add x y _ _ h1 h2 => rw [mulVec_add]; exact Submodule.add_mem _ h1 h2
    | smul a x _ h1 => rw [mulVec_smul]; exact Submodule.smul_mem _ _ h1
  have hv : ∀ i, i < k → v i ∈ Powers H init (i + 1) := by
    intro i
    induction i using Nat.strong_induction_on with
    | _ i ih =>
      intro hi
      cases i with
      | zero =>
        have : init ∈ Powers H init 1 := Submodule.subset_span ⟨⟨0, by omega⟩, by simp⟩
        have h2 := Submodule.smul_mem (Powers H init 1) c⁻¹ this
        rw [hc, smul_smul, inv_mul_cancel₀ hc0, one_smul] at h2
        rw [hc]
        exact h2
      | succ i =>
        have h1 := hstep _ _ (ih i (by omega) (by omega))
        have h2 : (if i = 0 then 0 else v (i - 1)) ∈ Powers H init (i + 1 + 1) := by
          split
          · exact Submodule.zero_mem _
          · exact hmono _ _ (by omega) (ih (i - 1) (by omega) (by omega))
        have h3 := hmono _ (i + 1 + 1) (by omega) (ih i (by omega) (by omega))
        have h4 := hrec i hi
        have h5 : v (i + 1) = (b (i + 1) : 𝕜)⁻¹ • (H *ᵥ v i - (b i : 𝕜) • (if i = 0 then 0 else v (i - 1)) - (a i : 𝕜) • v i) := by
          rw [h4, add_assoc, add_sub_cancel_left, add_sub_cancel_left, smul_smul, inv_mul_cancel₀, one_smul]
          exact RCLike.ofReal_ne_zero.2 (hb (i + 1) (by omega) hi)
        rw [h5]
        exact Submodule.smul_mem _ _ (Submodule.sub_mem _ (Submodule.sub_mem _ h1 (Submodule.smul_mem _ _ h2)) (Submodule.smul_mem _ _ h3))
  have hle : LinearMap.range (cols v k).mulVecLin ≤ Powers H init k := by
    rintro _ ⟨y, rfl⟩
    rw [mulVecLin_apply]
    have : cols v k *ᵥ y = ∑ j : Fin k, y j • v j := by
      funext i
      rw [Finset.sum_apply, Matrix.mulVec, dotProduct]
      refine Finset.sum_congr rfl fun j _ => ?_
      rw [Pi.smul_apply, smul_eq_mul, mul_comm]
      rfl
    rw [this]
    exact Submodule.sum_mem _ fun j _ => Submodule.smul_mem _ _ (hmono _ _ (by omega) (hv j j.2))
  have hinj : Function.Injective (cols v k).mulVecLin := by
    intro x y hxy
    have := congrArg ((cols v k)ᴴ *ᵥ ·) hxy
    simpa [mulVec_mulVec, hV] using this
  have hdim : Module.finrank 𝕜 (Powers H init k) ≤ k := by
    have := finrank_range_le_card (R := 𝕜) (fun i : Fin k => (H ^ i.1) *ᵥ init)
    rw [Fintype.card_fin] at this
    exact this
  have heq : LinearMap.range (cols v k).mulVecLin = Powers H init k := by
    refine Submodule.eq_of_le_of_finrank_le hle ?_
    rw [LinearMap.finrank_range_of_inj hinj, Module.finrank_fin_fun]
    exact hdim
  intro x
  rw [← heq]
  constructor
  · rintro ⟨y, rfl⟩
    exact ⟨y, rfl⟩
  · rintro ⟨y, rfl⟩
    exact ⟨y, rfl⟩

/-- Facts about the run, for a matrix whose powers applied to the start vector are independent. -/
theorem run_spec (p : SolverP 𝕜 n) (H : Matrix (Fin n) (Fin n) 𝕜) (hp : p.mul = (H *ᵥ ·)) (hH : H.IsHermitian) (hs : SameSize p)
    (hd : Diagonalizes p.diag) (steps : Nat) (init : Fin n → 𝕜) (h0 : init ≠ 0) (h2 : 2 ≤ min steps n)
    (hmin : n ≤ 4 ∨ p.minSteps < min steps n) (excited : Nat) :
    ∃ r, decompositionD p steps init excited = some r ∧ 2 ≤ r.steps ∧ r.steps ≤ min steps n ∧
      (excited = 0 → 0 < p.tolerance → r.steps = if n ≤ 4 then 2 else max p.minSteps 1 + 1) ∧ r.data.length = r.steps ∧
      ∃ (v : Nat → Fin n → 𝕜) (a b : Nat → ℝ) (ritz : Mat 𝕜) (w : Fin r.steps → ℝ) (U : Matrix (Fin r.steps) (Fin r.steps) 𝕜),
        (∀ i < r.steps, r.data[i]? = some (v i)) ∧
        v 0 = (fun i => init i * ((1 / Real.sqrt (∑ k, ‖init k‖ ^ 2) : ℝ) : 𝕜)) ∧
        buildDense (fun x : ℝ => (x : 𝕜)) r.a r.b ⟨0, 0, []⟩ 0 = some ritz ∧
        (p.diag ritz).1 = List.ofFn w ∧ Represents (p.diag ritz).2 r.steps r.steps U ∧ Uᴴ * U = 1 ∧
        tri (fun i => (a i : 𝕜)) (fun i => (b i : 𝕜)) r.steps * U = U * diagonal (fun i => (w i : 𝕜)) ∧ Monotone w ∧
        (∀ m, r.steps ≤ m → Independent H init m → (cols v r.steps)ᴴ * cols v r.steps = 1 ∧
          (cols v r.steps)ᴴ * H * cols v r.steps = tri (fun i => (a i : 𝕜)) (fun i => (b i : 𝕜)) r.steps ∧
          ∀ x, (∃ y, x = cols v r.steps *ᵥ y) ↔ x ∈ Powers H init r.steps) := by
  obtain ⟨close, hclose, -, hdec⟩ := decompositionD_eq p hs steps init excited
  obtain ⟨r, hr, g1, g2, g3, g4, g5, g6, g7⟩ := lanczos_spec ⟨p.mul, p.reortho, close, p.minSteps⟩ H hp hH steps init h0 h2 hmin
  obtain ⟨r', hr', s1, s2, s3⟩ := lanczos_stops ⟨p.mul, p.reortho, close, p.minSteps⟩ H hp hH steps init h0 h2 hmin
  obtain rfl : r = r' := by rw [hr] at hr'; exact Option.some.inj hr'
  have hv : ∀ i < r.steps, r.data[i]? = some (r.data.getD i 0) ∧ r.a[i]? = some (r.a.getD i 0) ∧ r.b[i]? = some (r.b.getD i 0) := by
    intro i hi
    have e1 : r.data[i]? = some (r.data[i]'(by omega)) := List.getElem?_eq_getElem _
    have e2 : r.a[i]? = some (r.a[i]'(by omega)) := List.getElem?_eq_getElem _
    have e3 : r.b[i]? = some (r.b[i]'(by omega)) := List.getElem?_eq_getElem _
    refine ⟨?_, ?_, ?_⟩
    · rw [e1, List.getD_eq_getElem?_getD, e1]; rfl
    · rw [e2, List.getD_eq_getElem?_getD, e2]; rfl
    · rw [e3, List.getD_eq_getElem?_getD, e3]; rfl
  have hall := g7 (fun i => r.data.getD i 0) (fun i => r.a.getD i 0) (fun i => r.b.getD i 0) hv
  obtain ⟨ritz, hb, hrep⟩ := buildDense_spec (α := 𝕜) (fun x : ℝ => (x : 𝕜)) (fun x => by simp) (fun i => r.a.getD i 0) (fun i => r.b.getD i 0)
    r.steps 0 r.a r.b (by simp; omega) (by simp [g4]) (fun i hi => (hv i hi).2.1) (fun i hi => (hv i hi).2.2)
  obtain ⟨w, U, d1, d2, d3, d4, d5⟩ := hd r.steps ritz _ hrep (tri_hermitian _ _ _ (fun i => by simp))
  have hv0 : r.data.getD 0 0 = (fun i => init i * ((1 / Real.sqrt (∑ k, ‖init k‖ ^ 2) : ℝ) : 𝕜)) := by
    rw [List.getD_eq_getElem?_getD, g6]; rfl
  refine ⟨r, by rw [hdec, hr], g1, g2, ?_, g3, fun i => r.data.getD i 0, fun i => r.a.getD i 0, fun i => r.b.getD i 0, ritz, w, U,
    fun i hi => (hv i hi).1, hv0, hb, d1, d2, d3, d4, d5, ?_⟩
  · intro he ht
    by_cases hn : n ≤ 4
    · have := s3 1 (le_refl _) (hclose he ht _) (.inl hn)
      rw [if_pos hn]
      omega
    · have hs2 : p.minSteps < r.steps := by
        rcases s2 with h | h
        · omega
        · exact h
      have := s3 (max p.minSteps 1) (by omega) (hclose he ht _) (.inr (by simp only; omega))
      rw [if_neg hn]
      omega
  · intro m hm hi
    have hpos : Real.sqrt (∑ k, ‖init k‖ ^ 2) ≠ 0 := by
      rw [← reDot_self]
      intro h
      exact h0 ((reDot_eq_zero init).1 ((Real.sqrt_eq_zero (reDot_nonneg init)).1 h))
    have hinit : init = ((Real.sqrt (∑ k, ‖init k‖ ^ 2) : ℝ) : 𝕜) • (fun i => r.data.getD i 0) 0 := by
      simp only [hv0]
      funext i
      rw [Pi.smul_apply, smul_eq_mul]
      rw [mul_comm, mul_assoc, ← RCLike.ofReal_mul, one_div, inv_mul_cancel₀ hpos, RCLike.ofReal_one, mul_one]
    have hnb := no_breakdown hi (v := fun i => r.data.getD i 0) (a := fun i => r.a.getD i 0) (b := fun i => r.b.getD i 0)
      ((Real.sqrt (∑ k, ‖init k‖ ^ 2) : ℝ) : 𝕜) hinit r.steps hm
      (fun j hj hb => ⟨(hall j hj hb).2.2.1, (hall j hj hb).2.2.2⟩)
    have := hall (r.steps - 1) (by omega) (fun l h1 h2 => hnb l h1 (by omega))
    rw [show r.steps - 1 + 1 = r.steps by omega] at this
    refine ⟨this.1, this.2.1, ?_⟩
    refine space_eq this.1 ((Real.sqrt (∑ k, ‖init k‖ ^ 2) : ℝ) : 𝕜) ?_ hinit (fun l h1 h2 => hnb l h1 (by omega)) (by
      intro i hi
      exact this.2.2.1 i (by omega))
    exact RCLike.ofReal_ne_zero.2 hpos

/-- With a tolerance that is not positive, all steps are made. -/
theorem run_full (p : SolverP 𝕜 n) (H : Matrix (Fin n) (Fin n) 𝕜) (hp : p.mul = (H *ᵥ ·)) (hH : H.IsHermitian) (hs : SameSize p)
    (ht : p.tolerance ≤ 0) (steps : Nat) (init : Fin n → 𝕜) (h0 : init ≠ 0) (h2 : 2 ≤ min steps n)
    (hmin : n ≤ 4 ∨ p.minSteps < min steps n) (excited : Nat) :
    ∃ r, decompositionD p steps init excited = some r ∧ r.steps = min steps n := by
  obtain ⟨close, -, hclose, hdec⟩ := decompositionD_eq p hs steps init excited
  obtain ⟨r, hr, s1, -⟩ := lanczos_stops ⟨p.mul, p.reortho, close, p.minSteps⟩ H hp hH steps init h0 h2 hmin
  refine ⟨r, by rw [hdec, hr], ?_⟩
  rcases s1 with h | ⟨i, -, -, h⟩
  · exact h
  · exact absurd h (by simp [hclose ht])

/-! ## Example -/

/-- A routine for eigenvalues that gives as many numbers as it gets. -/
example : ∃ (close : Nat → Bool), (∀ i, close i = true) ∧
    decompositionD (⟨((!![1, 2; 2, 3] : Matrix (Fin 2) (Fin 2) ℝ) *ᵥ ·), true, 1, 4, fun a _ _ => a, fun m => ([], m)⟩ : SolverP ℝ 2) 10 ![1, 0] 0 =
      decomposition ⟨((!![1, 2; 2, 3] : Matrix (Fin 2) (Fin 2) ℝ) *ᵥ ·), true, close, 4⟩ 10 ![1, 0] := by
  obtain ⟨close, h, _, h3⟩ := decompositionD_eq (⟨((!![1, 2; 2, 3] : Matrix (Fin 2) (Fin 2) ℝ) *ᵥ ·), true, 1, 4, fun a _ _ => a, fun m => ([], m)⟩ : SolverP ℝ 2)
    (fun _ _ _ => rfl) 10 ![1, 0] 0
  exact ⟨close, h rfl one_pos, h3⟩

end Verif.Krylov
