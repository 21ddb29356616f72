import Verif.Numeric.Model
import Mathlib.Analysis.Calculus.Deriv.Pow
import Mathlib.Analysis.Calculus.Deriv.Add
import Mathlib.Analysis.Calculus.Deriv.Mul
import Mathlib.Tactic.LinearCombination
import Mathlib.Tactic.FieldSimp

/-!
# Akima spline (C43)
-/

namespace Verif.Numeric

open Verif.Loop

/-! ## The loops -/

section
variable {K : Type} [Field K] [LinearOrder K] [IsStrictOrderedRing K]

/-- The slopes Akima's method uses for data `X`, `Y` with `k` points: secants, with two more on each side
continued linearly. -/
structure Slopes (k : Nat) (X Y : Nat → K) (d : Nat → K) : Prop where
  inner : ∀ i, i + 1 < k → d (i + 2) = (Y (i + 1) - Y i) / (X (i + 1) - X i)
  left1 : d 1 = 2 * d 2 - d 3
  left0 : d 0 = 2 * d 1 - d 2
  right1 : d (k + 1) = 2 * d k - d (k - 1)
  right2 : d (k + 2) = 2 * d (k + 1) - d k

/-- The derivative at point `i`: the mean of the slopes on each side, each weighted with the change of slope on the
other side; the plain mean if there are no changes. -/
def akimaSlope (d : Nat → K) (i : Nat) : K :=
  if |d (i + 1) - d i| + |d (i + 3) - d (i + 2)| = 0 then (d (i + 1) + d (i + 2)) / 2
  else (|d (i + 3) - d (i + 2)| * d (i + 1) + |d (i + 1) - d i| * d (i + 2)) /
    (|d (i + 1) - d i| + |d (i + 3) - d (i + 2)|)

/-- `l` lists the first `n` values of `f`. -/
def Lists (l : List K) (n : Nat) (f : Nat → K) : Prop := l.length = n ∧ ∀ i < n, l[i]? = some (f i)

theorem lists_set {l : List K} {n : Nat} {f : Nat → K} (h : Lists l n f) (i : Nat) (hi : i < n) (v : K) :
    setAt l i v = some (l.set i v) ∧ Lists (l.set i v) n (fun j => if j = i then v else f j) := by
  obtain ⟨hl, hf⟩ := h
  refine ⟨by rw [setAt, if_pos (by omega)], by simpa using hl, fun j hj => ?_⟩
  by_cases hji : j = i
  · subst hji; rw [List.getElem?_set_self (by omega)]; simp
  · rw [List.getElem?_set_ne (by omega), hf j hj]; simp [hji]

theorem lists_self (l : List K) : Lists l l.length (fun i => l.getD i 0) := by
  refine ⟨rfl, fun i hi => ?_⟩
  simp [hi]

theorem calculateD_spec (x s : List K) (k : Nat) (X Y : Nat → K) (hx : Lists x k X) (hs : Lists s k Y) (hk : 3 ≤ k) :
    ∃ d D, calculateD x s = some d ∧ Lists d (k + 3) D ∧ Slopes k X Y D := by
  unfold calculateD
  rw [hx.1]
  simp only
  obtain ⟨d0, h1, h2⟩ := loopFrom_inv
    (fun i (d : List K) => ∃ D, Lists d (k + 3) D ∧ ∀ j, j + 2 < i → D (j + 2) = (Y (j + 1) - Y j) / (X (j + 1) - X j))
    2 (k + 1) (by omega) (dStep x s) (List.replicate (k + 3) 0)
    ⟨fun _ => 0, ⟨by simp, fun i hi => by simp [hi]⟩, fun j hj => by omega⟩
    (by
      intro i d hi hi' ⟨D, hD, hv⟩
      unfold dStep
      rw [hs.2 (i - 1) (by omega), hs.2 (i - 2) (by omega), hx.2 (i - 1) (by omega), hx.2 (i - 2) (by omega)]
      simp only [bind, Option.bind_some]
      obtain ⟨e, hl⟩ := lists_set hD i (by omega) ((Y (i - 1) - Y (i - 2)) / (X (i - 1) - X (i - 2)))
      refine ⟨_, e, _, hl, fun j hj => ?_⟩
      by_cases hji : j + 2 = i
      · rw [if_pos hji, show i - 1 = j + 1 by omega, show i - 2 = j by omega]
      · rw [if_neg hji]; exact hv j (by omega))
  obtain ⟨D, hD, hv⟩ := h2
  rw [h1]
  simp only [bind, Option.bind_some]
  rw [hD.2 2 (by omega), hD.2 3 (by omega)]
  simp only [Option.bind_some]
  obtain ⟨e1, l1⟩ := lists_set hD 1 (by omega) (2 * D 2 - D 3)
  rw [e1]
  simp only [Option.bind_some]
  rw [l1.2 1 (by omega), l1.2 2 (by omega)]
  simp only [Option.bind_some, if_true, if_neg (show ¬ 2 = 1 by omega)]
  obtain ⟨e2, l2⟩ := lists_set l1 0 (by omega) (2 * (2 * D 2 - D 3) - D 2)
  rw [e2]
  simp only [Option.bind_some]
  rw [l2.2 k (by omega), l2.2 (k - 1) (by omega)]
  simp only [Option.bind_some, if_neg (show ¬ k = 1 by omega), if_neg (show ¬ k = 0 by omega),
    if_neg (show ¬ k - 1 = 1 by omega), if_neg (show ¬ k - 1 = 0 by omega)]
  obtain ⟨e3, l3⟩ := lists_set l2 (k + 1) (by omega) (2 * D k - D (k - 1))
  rw [e3]
  simp only [Option.bind_some]
  rw [l3.2 (k + 1) (by omega), l3.2 k (by omega)]
  simp only [Option.bind_some, if_true, if_neg (show ¬ k = k + 1 by omega), if_neg (show ¬ k = 1 by omega),
    if_neg (show ¬ k = 0 by omega)]
  obtain ⟨e4, l4⟩ := lists_set l3 (k + 2) (by omega) (2 * (2 * D k - D (k - 1)) - D k)
  refine ⟨_, _, e4, l4, ?_⟩
  constructor
  · intro i hi
    simp only [if_neg (show ¬ i + 2 = k + 2 by omega), if_neg (show ¬ i + 2 = k + 1 by omega),
      if_neg (show ¬ i + 2 = 0 by omega), if_neg (show ¬ i + 2 = 1 by omega)]
    exact hv i (by omega)
  · simp only [if_neg (show ¬ 1 = k + 2 by omega), if_neg (show ¬ 1 = k + 1 by omega), if_neg (show ¬ 1 = 0 by omega),
      if_true, if_neg (show ¬ 2 = k + 2 by omega), if_neg (show ¬ 2 = k + 1 by omega), if_neg (show ¬ 2 = 0 by omega),
      if_neg (show ¬ 2 = 1 by omega), if_neg (show ¬ 3 = k + 2 by omega), if_neg (show ¬ 3 = k + 1 by omega),
      if_neg (show ¬ 3 = 0 by omega), if_neg (show ¬ 3 = 1 by omega)]
  · simp only [if_neg (show ¬ 1 = k + 2 by omega), if_neg (show ¬ 1 = k + 1 by omega), if_neg (show ¬ 1 = 0 by omega),
      if_true, if_neg (show ¬ 2 = k + 2 by omega), if_neg (show ¬ 2 = k + 1 by omega), if_neg (show ¬ 2 = 0 by omega),
      if_neg (show ¬ 2 = 1 by omega), if_neg (show ¬ 0 = k + 2 by omega), if_neg (show ¬ 0 = k + 1 by omega)]
  · simp only [if_neg (show ¬ k + 1 = k + 2 by omega), if_true, if_neg (show ¬ k = k + 2 by omega),
      if_neg (show ¬ k = k + 1 by omega), if_neg (show ¬ k = 0 by omega), if_neg (show ¬ k = 1 by omega),
      if_neg (show ¬ k - 1 = k + 2 by omega),
      if_neg (show ¬ k - 1 = k + 1 by omega), if_neg (show ¬ k - 1 = 0 by omega), if_neg (show ¬ k - 1 = 1 by omega)]
  · simp only [if_neg (show ¬ k + 1 = k + 2 by omega), if_true, if_neg (show ¬ k = k + 2 by omega),
      if_neg (show ¬ k = k + 1 by omega), if_neg (show ¬ k = 0 by omega), if_neg (show ¬ k = 1 by omega)]

theorem calculateW_spec (d : List K) (n : Nat) (D : Nat → K) (h : Lists d (n + 1) D) :
    ∃ w, calculateW d = some w ∧ Lists w n (fun i => |D (i + 1) - D i|) := by
  unfold calculateW
  rw [h.1, Nat.add_sub_cancel]
  obtain ⟨w, h1, W, h2, h3⟩ := loopN_inv
    (fun i (w : List K) => ∃ W, Lists w n W ∧ ∀ j < i, W j = |D (j + 1) - D j|) n
    (fun i w => do
      let a ← d[i + 1]?
      let b ← d[i]?
      setAt w i |a - b|) (List.replicate n 0)
    ⟨fun _ => 0, ⟨by simp, fun i hi => by simp [hi]⟩, fun j hj => by omega⟩
    (by
      intro i w hi ⟨W, hW, hv⟩
      rw [h.2 (i + 1) (by omega), h.2 i (by omega)]
      simp only [bind, Option.bind_some]
      obtain ⟨e, hl⟩ := lists_set hW i hi |D (i + 1) - D i|
      refine ⟨_, e, _, hl, fun j hj => ?_⟩
      by_cases hji : j = i
      · subst hji; rw [if_pos rfl]
      · rw [if_neg hji]; exact hv j (by omega))
  exact ⟨w, h1, h2.1, fun i hi => by rw [h2.2 i hi, h3 i hi]⟩

theorem calculateSprime_spec (x s : List K) (k : Nat) (X Y : Nat → K) (hx : Lists x k X) (hs : Lists s k Y) (hk : 3 ≤ k) :
    ∃ sp D, calculateSprime x s = some sp ∧ Slopes k X Y D ∧ Lists sp k (akimaSlope D) := by
  obtain ⟨d, D, h1, h2, h3⟩ := calculateD_spec x s k X Y hx hs hk
  obtain ⟨w, h4, h5⟩ := calculateW_spec d (k + 2) D h2
  unfold calculateSprime
  rw [h1]
  simp only [bind, Option.bind_some]
  rw [h4]
  simp only [Option.bind_some, hx.1]
  obtain ⟨sp, h6, S, h7, h8⟩ := loopN_inv
    (fun i (sp : List K) => ∃ S, Lists sp k S ∧ ∀ j < i, S j = akimaSlope D j) k
    (sprimeStep d w) (List.replicate k 0)
    ⟨fun _ => 0, ⟨by simp, fun i hi => by simp [hi]⟩, fun j hj => by omega⟩
    (by
      intro i sp hi ⟨S, hS, hv⟩
      unfold sprimeStep
      rw [h5.2 i (by omega), h5.2 (i + 2) (by omega), h2.2 (i + 1) (by omega), h2.2 (i + 2) (by omega)]
      simp only [bind, Option.bind_some]
      have key : ∀ v, v = akimaSlope D i → ∃ sp', setAt sp i v = some sp' ∧
          ∃ S, Lists sp' k S ∧ ∀ j < i + 1, S j = akimaSlope D j := by
        intro v hv'
        obtain ⟨e, hl⟩ := lists_set hS i hi v
        refine ⟨_, e, _, hl, fun j hj => ?_⟩
        by_cases hji : j = i
        · subst hji; rw [if_pos rfl, hv']
        · rw [if_neg hji]; exact hv j (by omega)
      split
      · rename_i h0
        exact key _ (by unfold akimaSlope; rw [if_pos h0]; ring)
      · rename_i h0
        exact key _ (by unfold akimaSlope; rw [if_neg h0]))
  exact ⟨sp, D, h6, h3, h7.1, fun i hi => by rw [h7.2 i hi, h8 i hi]⟩

/-- Piece number `i`. -/
def piece (X Y p : Nat → K) (i : Nat) : Piece K :=
  ⟨X i, X (i + 1), Y i, p i,
    (3 * (Y (i + 1) - Y i) - (2 * p i + p (i + 1)) * (X (i + 1) - X i)) / ((X (i + 1) - X i) * (X (i + 1) - X i)),
    ((p i + p (i + 1)) * (X (i + 1) - X i) - 2 * (Y (i + 1) - Y i)) /
      ((X (i + 1) - X i) * (X (i + 1) - X i) * (X (i + 1) - X i))⟩

theorem ctor_spec (x s : List K) (k : Nat) (X Y : Nat → K) (hx : Lists x k X) (hs : Lists s k Y) (hk : 3 ≤ k) :
    ∃ D, Slopes k X Y D ∧
      Akima.ctor x s = .ok ⟨(List.range (k - 1)).map (piece X Y (akimaSlope D)), X 0, X (k - 1)⟩ := by
  obtain ⟨sp, D, h1, h2, h3⟩ := calculateSprime_spec x s k X Y hx hs hk
  refine ⟨D, h2, ?_⟩
  have hp : loopN (x.length - 1) (pieceStep x s sp) [] = some ((List.range (k - 1)).map (piece X Y (akimaSlope D))) := by
    rw [hx.1]
    obtain ⟨out, h4, h5⟩ := loopN_inv
      (fun i (out : List (Piece K)) => out = (List.range i).map (piece X Y (akimaSlope D))) (k - 1)
      (pieceStep x s sp) [] rfl
      (by
        intro i out hi e
        unfold pieceStep
        rw [hx.2 i (by omega), hx.2 (i + 1) (by omega), hs.2 i (by omega), hs.2 (i + 1) (by omega),
          h3.2 i (by omega), h3.2 (i + 1) (by omega)]
        simp only [bind, Option.bind_some]
        refine ⟨_, rfl, ?_⟩
        rw [List.range_succ, List.map_append, e]
        rfl)
    rw [h4, h5]
  unfold Akima.ctor
  rw [if_neg (by rw [hx.1, hs.1]; simp), if_neg (by rw [hx.1]; omega), h1]
  simp only [bind, Option.bind_some]
  rw [hp]
  simp only [Option.bind_some, List.length_map, List.length_range]
  rw [show ((List.range (k - 1)).map (piece X Y (akimaSlope D)))[0]? = some (piece X Y (akimaSlope D) 0) by
      simp [show 0 < k - 1 by omega],
    show ((List.range (k - 1)).map (piece X Y (akimaSlope D)))[k - 1 - 1]? = some (piece X Y (akimaSlope D) (k - 1 - 1)) by
      simp [show k - 1 - 1 < k - 1 by omega]]
  simp only [Option.bind_some, Except.bind, pure, Except.pure]
  rw [show (piece X Y (akimaSlope D) (k - 1 - 1)).x1 = X (k - 1) by simp [piece]; congr 1; omega]
  rfl

/-! ## One piece -/

theorem piece_left (X Y p : Nat → K) (i : Nat) : (piece X Y p i).eval (X i) = Y i := by
  simp [piece, Piece.eval]

theorem piece_right (X Y p : Nat → K) (i : Nat) (h : X i < X (i + 1)) : (piece X Y p i).eval (X (i + 1)) = Y (i + 1) := by
  have hu : X (i + 1) - X i ≠ 0 := (sub_pos.2 h).ne'
  simp only [piece, Piece.eval]
  field_simp
  ring

/-- The derivative of a piece. -/
def Piece.slope (q : Piece K) (t : K) : K := q.a1 + 2 * q.a2 * (t - q.x0) + 3 * q.a3 * (t - q.x0) * (t - q.x0)

theorem slope_left (X Y p : Nat → K) (i : Nat) : (piece X Y p i).slope (X i) = p i := by
  simp [piece, Piece.slope]

theorem slope_right (X Y p : Nat → K) (i : Nat) (h : X i < X (i + 1)) :
    (piece X Y p i).slope (X (i + 1)) = p (i + 1) := by
  have hu : X (i + 1) - X i ≠ 0 := (sub_pos.2 h).ne'
  simp only [piece, Piece.slope]
  field_simp
  ring

/-! ## All pieces -/

theorem mono_of_step (k : Nat) (X : Nat → K) (h : ∀ i, i + 1 < k → X i < X (i + 1)) (i j : Nat) (hij : i < j) (hj : j < k) :
    X i < X j := by
  induction j with
  | zero => omega
  | succ j ih =>
    rcases Nat.lt_succ_iff_lt_or_eq.1 hij with h1 | rfl
    · exact (ih h1 (by omega)).trans (h j hj)
    · exact h i hj

/-- The piece used for `t`. -/
def found (k : Nat) (X Y p : Nat → K) (t : K) : Option (Piece K) :=
  ((List.range (k - 1)).map (piece X Y p)).find? (fun q => decide (t ≥ q.x0 ∧ t ≤ q.x1))

theorem found_spec (k : Nat) (X Y p : Nat → K) (h : ∀ i, i + 1 < k → X i < X (i + 1)) (i : Nat) (hi : i + 1 < k) (t : K)
    (h1 : X i ≤ t) (h2 : t ≤ X (i + 1)) :
    ∃ q, found k X Y p t = some q ∧ q.eval t = (piece X Y p i).eval t ∧ q.slope t = (piece X Y p i).slope t := by
  have hmem : piece X Y p i ∈ (List.range (k - 1)).map (piece X Y p) :=
    List.mem_map.2 ⟨i, List.mem_range.2 (by omega), rfl⟩
  have hsome : (found k X Y p t).isSome := by
    unfold found
    rw [List.find?_isSome]
    exact ⟨_, hmem, by simpa [piece] using ⟨h1, h2⟩⟩
  obtain ⟨q, hq⟩ := Option.isSome_iff_exists.1 hsome
  refine ⟨q, hq, ?_⟩
  unfold found at hq
  rw [List.find?_eq_some_iff_append] at hq
  obtain ⟨hqt, as, bs, hab, hbefore⟩ := hq
  have hqm : q ∈ (List.range (k - 1)).map (piece X Y p) := by rw [hab]; simp
  obtain ⟨j, hj, rfl⟩ := List.mem_map.1 hqm
  have hj := List.mem_range.1 hj
  have hqt : X j ≤ t ∧ t ≤ X (j + 1) := by simpa [piece] using hqt
  rcases lt_trichotomy j i with hji | rfl | hji
  · have hle : X (j + 1) ≤ X i := by
      rcases Nat.lt_or_ge (j + 1) i with h' | h'
      · exact (mono_of_step k X h _ _ h' (by omega)).le
      · rw [show j + 1 = i by omega]
    have hji' : j + 1 = i := by
      by_contra hne
      have := mono_of_step k X h (j + 1) i (by omega) (by omega)
      linarith [hqt.2]
    have ht : t = X i := le_antisymm (hqt.2.trans hle) h1
    subst hji'
    rw [ht, piece_right X Y p j (h j (by omega)), slope_right X Y p j (h j (by omega)), piece_left, slope_left]
    exact ⟨rfl, rfl⟩
  · exact ⟨rfl, rfl⟩
  · have hle : X (i + 1) ≤ X j := by
      rcases Nat.lt_or_ge (i + 1) j with h' | h'
      · exact (mono_of_step k X h _ _ h' (by omega)).le
      · rw [show j = i + 1 by omega]
    have ht : t = X (i + 1) := le_antisymm h2 (hle.trans hqt.1)
    have hji' : j = i + 1 := by
      by_contra hne
      have := mono_of_step k X h (i + 1) j (by omega) (by omega)
      linarith [hqt.1]
    subst hji'
    rw [ht, piece_right X Y p i (h i (by omega)), slope_right X Y p i (h i (by omega)), piece_left, slope_left]
    exact ⟨rfl, rfl⟩

theorem in_piece (k : Nat) (X : Nat → K) (m : Nat) (t : K) (h1 : X 0 ≤ t) (h2 : t ≤ X (m + 1)) :
    ∃ i ≤ m, X i ≤ t ∧ t ≤ X (i + 1) := by
  induction m with
  | zero => exact ⟨0, le_refl _, h1, h2⟩
  | succ m ih =>
    rcases le_total t (X (m + 1)) with h | h
    · obtain ⟨i, hi, h3⟩ := ih h
      exact ⟨i, by omega, h3⟩
    · exact ⟨m + 1, le_refl _, h, h2⟩

end

/-- The value and the derivative, as functions. -/
noncomputable def valueOf (k : Nat) (X Y p : Nat → ℝ) (t : ℝ) : ℝ := ((found k X Y p t).map fun q => q.eval t).getD 0
noncomputable def slopeOf (k : Nat) (X Y p : Nat → ℝ) (t : ℝ) : ℝ := ((found k X Y p t).map fun q => q.slope t).getD 0

theorem valueOf_piece (k : Nat) (X Y p : Nat → ℝ) (h : ∀ i, i + 1 < k → X i < X (i + 1)) (i : Nat) (hi : i + 1 < k) (t : ℝ)
    (h1 : X i ≤ t) (h2 : t ≤ X (i + 1)) : valueOf k X Y p t = (piece X Y p i).eval t ∧
      slopeOf k X Y p t = (piece X Y p i).slope t := by
  obtain ⟨q, hq, e1, e2⟩ := found_spec k X Y p h i hi t h1 h2
  unfold valueOf slopeOf
  rw [hq]
  exact ⟨e1, e2⟩

theorem piece_deriv (q : Piece ℝ) (t : ℝ) : HasDerivAt q.eval (q.slope t) t := by
  have hu : HasDerivAt (fun y : ℝ => y - q.x0) 1 t := (hasDerivAt_id t).sub_const q.x0
  have h1 := hu.const_mul q.a1
  have h2 := (hu.mul hu).const_mul q.a2
  have h3 := ((hu.mul hu).mul hu).const_mul q.a3
  have h := ((h1.const_add q.a0).add h2).add h3
  have e : q.eval = fun y => q.a0 + q.a1 * (y - q.x0) + q.a2 * ((y - q.x0) * (y - q.x0)) +
      q.a3 * ((y - q.x0) * (y - q.x0) * (y - q.x0)) := by
    funext y; simp only [Piece.eval]; ring
  rw [e]
  have e2 : q.a1 * 1 + q.a2 * (1 * (t - q.x0) + (t - q.x0) * 1) +
      q.a3 * ((1 * (t - q.x0) + (t - q.x0) * 1) * (t - q.x0) + (t - q.x0) * (t - q.x0) * 1) = q.slope t := by
    simp only [Piece.slope]; ring
  rw [← e2]
  exact h

theorem slope_continuous (q : Piece ℝ) : Continuous q.slope := by
  unfold Piece.slope
  fun_prop

theorem smooth_upto (k : Nat) (X Y p : Nat → ℝ) (h : ∀ i, i + 1 < k → X i < X (i + 1)) (m : Nat) (hm : m + 1 < k) (t : ℝ)
    (ht : t ∈ Set.Icc (X 0) (X (k - 1))) :
    HasDerivWithinAt (valueOf k X Y p) (slopeOf k X Y p t) (Set.Icc (X 0) (X (m + 1))) t ∧
    ContinuousWithinAt (slopeOf k X Y p) (Set.Icc (X 0) (X (m + 1))) t := by
  have one : ∀ i, i + 1 < k → HasDerivWithinAt (valueOf k X Y p) (slopeOf k X Y p t) (Set.Icc (X i) (X (i + 1))) t ∧
      ContinuousWithinAt (slopeOf k X Y p) (Set.Icc (X i) (X (i + 1))) t := by
    intro i hi
    by_cases hti : t ∈ Set.Icc (X i) (X (i + 1))
    · obtain ⟨e1, e2⟩ := valueOf_piece k X Y p h i hi t hti.1 hti.2
      rw [e2]
      constructor
      · exact (piece_deriv _ t).hasDerivWithinAt.congr
          (fun y hy => (valueOf_piece k X Y p h i hi y hy.1 hy.2).1) e1
      · exact (slope_continuous (piece X Y p i)).continuousWithinAt.congr
          (fun y hy => (valueOf_piece k X Y p h i hi y hy.1 hy.2).2) e2
    · have hcl : t ∉ closure (Set.Icc (X i) (X (i + 1))) := by rwa [isClosed_Icc.closure_eq]
      exact ⟨HasFDerivWithinAt.of_notMem_closure hcl, continuousWithinAt_of_notMem_closure hcl⟩
  induction m with
  | zero => exact one 0 hm
  | succ m ih =>
    have h0 : X 0 ≤ X (m + 1) := (mono_of_step k X h 0 (m + 1) (by omega) (by omega)).le
    have h1 : X (m + 1) ≤ X (m + 1 + 1) := (h (m + 1) hm).le
    rw [← Set.Icc_union_Icc_eq_Icc h0 h1]
    exact ⟨(ih (by omega)).1.union (one (m + 1) hm).1, (ih (by omega)).2.union (one (m + 1) hm).2⟩

/-- **C43** For at least three points with strictly increasing abscissas the constructor succeeds, and the object is
a function `S` on the interval from the first to the last point (with an exception outside) that passes through every
point, is differentiable there with a continuous derivative `S'`, and whose derivative at each point is Akima's
weighted mean of the neighbouring slopes. -/
theorem akima_spec (x s : List ℝ) (hlen : x.length = s.length) (hk : 3 ≤ x.length) (hx : x.Pairwise (· < ·)) :
    ∃ (a : Akima ℝ) (S S' : ℝ → ℝ) (d : Nat → ℝ), Akima.ctor x s = .ok a ∧
      (∀ t ∈ Set.Icc x[0] x[x.length - 1], a.eval t = .ok (S t)) ∧
      (∀ t ∉ Set.Icc x[0] x[x.length - 1], a.eval t = throwOut) ∧
      (∀ i (h : i < x.length), S x[i] = s[i]) ∧
      ContinuousOn S' (Set.Icc x[0] x[x.length - 1]) ∧
      (∀ t ∈ Set.Icc x[0] x[x.length - 1], HasDerivWithinAt S (S' t) (Set.Icc x[0] x[x.length - 1]) t) ∧
      Slopes x.length (fun i => x.getD i 0) (fun i => s.getD i 0) d ∧
      (∀ i (h : i < x.length), S' x[i] = akimaSlope d i) := by
  generalize hX : (fun i => x.getD i 0) = X
  generalize hY : (fun i => s.getD i 0) = Y
  have hXl : Lists x x.length X := hX ▸ lists_self x
  have hYl : Lists s x.length Y := by rw [hlen]; exact hY ▸ lists_self s
  have hXe : ∀ i (h : i < x.length), x[i] = X i := fun i h => by
    have := hXl.2 i h
    rw [List.getElem?_eq_getElem h] at this
    exact Option.some.inj this
  have hYe : ∀ i (h : i < x.length), s[i] = Y i := fun i h => by
    have := hYl.2 i h
    rw [List.getElem?_eq_getElem (by omega)] at this
    exact Option.some.inj this
  have hmono : ∀ i, i + 1 < x.length → X i < X (i + 1) := fun i hi => by
    rw [← hXe i (by omega), ← hXe (i + 1) hi]
    exact List.pairwise_iff_getElem.1 hx i (i + 1) (by omega) hi (by omega)
  obtain ⟨D, hD, hc⟩ := ctor_spec x s x.length X Y hXl hYl hk
  have inp : ∀ t ∈ Set.Icc (X 0) (X (x.length - 1)), ∃ i, i + 1 < x.length ∧ X i ≤ t ∧ t ≤ X (i + 1) := by
    intro t ht
    obtain ⟨i, hi, h3⟩ := in_piece x.length X (x.length - 2) t ht.1
      (by rw [show x.length - 2 + 1 = x.length - 1 by omega]; exact ht.2)
    exact ⟨i, by omega, h3⟩
  have node : ∀ i < x.length, valueOf x.length X Y (akimaSlope D) (X i) = Y i ∧
      slopeOf x.length X Y (akimaSlope D) (X i) = akimaSlope D i := by
    intro i hi
    rcases Nat.lt_or_ge (i + 1) x.length with h | h
    · obtain ⟨e1, e2⟩ := valueOf_piece x.length X Y (akimaSlope D) hmono i h (X i) (le_refl _) (hmono i h).le
      rw [e1, e2, piece_left, slope_left]
      exact ⟨rfl, rfl⟩
    · obtain ⟨j, rfl⟩ : ∃ j, i = j + 1 := ⟨i - 1, by omega⟩
      obtain ⟨e1, e2⟩ := valueOf_piece x.length X Y (akimaSlope D) hmono j hi (X (j + 1)) (hmono j hi).le (le_refl _)
      rw [e1, e2, piece_right _ _ _ _ (hmono j hi), slope_right _ _ _ _ (hmono j hi)]
      exact ⟨rfl, rfl⟩
  rw [hXe 0 (by omega), hXe (x.length - 1) (by omega)]
  refine ⟨_, valueOf x.length X Y (akimaSlope D), slopeOf x.length X Y (akimaSlope D), D, hc, ?_, ?_, ?_, ?_, ?_, hD, ?_⟩
  · intro t ht
    obtain ⟨i, hi, h1, h2⟩ := inp t ht
    obtain ⟨q, hq, _⟩ := found_spec x.length X Y (akimaSlope D) hmono i hi t h1 h2
    unfold Akima.eval
    rw [if_neg (by push Not; exact ht)]
    have hq' := hq
    unfold found at hq'
    simp only
    rw [hq']
    simp [valueOf, hq]
  · intro t ht
    unfold Akima.eval
    rw [if_pos]
    by_contra hc
    push Not at hc
    exact ht hc
  · intro i h
    rw [hXe i h, hYe i h]; exact (node i h).1
  · intro t ht
    have := (smooth_upto x.length X Y (akimaSlope D) hmono (x.length - 2) (by omega) t ht).2
    rwa [show x.length - 2 + 1 = x.length - 1 by omega] at this
  · intro t ht
    have := (smooth_upto x.length X Y (akimaSlope D) hmono (x.length - 2) (by omega) t ht).1
    rwa [show x.length - 2 + 1 = x.length - 1 by omega] at this
  · intro i h
    rw [hXe i h]; exact (node i h).2

/-- **C43** Points on a straight line give that line. -/
theorem akima_line (x : List ℝ) (m c : ℝ) (hk : 3 ≤ x.length) (hx : x.Pairwise (· < ·)) :
    ∃ a, Akima.ctor x (x.map fun t => m * t + c) = .ok a ∧
      ∀ t ∈ Set.Icc x[0] x[x.length - 1], a.eval t = .ok (m * t + c) := by
  generalize hX : (fun i => x.getD i 0) = X
  have hXl : Lists x x.length X := hX ▸ lists_self x
  have hYl : Lists (x.map fun t => m * t + c) x.length (fun i => m * X i + c) :=
    ⟨by simp, fun i hi => by rw [List.getElem?_map, hXl.2 i hi]; rfl⟩
  have hXe : ∀ i (h : i < x.length), x[i] = X i := fun i h => by
    have := hXl.2 i h
    rw [List.getElem?_eq_getElem h] at this
    exact Option.some.inj this
  have hmono : ∀ i, i + 1 < x.length → X i < X (i + 1) := fun i hi => by
    rw [← hXe i (by omega), ← hXe (i + 1) hi]
    exact List.pairwise_iff_getElem.1 hx i (i + 1) (by omega) hi (by omega)
  obtain ⟨D, hD, hc⟩ := ctor_spec x _ x.length X _ hXl hYl hk
  refine ⟨_, hc, ?_⟩
  have hin : ∀ i, 2 ≤ i → i ≤ x.length → D i = m := by
    intro i h1 h2
    have := hD.inner (i - 2) (by omega)
    rw [show i - 2 + 2 = i by omega] at this
    rw [this]
    have hne : X (i - 2 + 1) - X (i - 2) ≠ 0 := (sub_pos.2 (hmono (i - 2) (by omega))).ne'
    rw [div_eq_iff hne]; ring
  have h2 := hin 2 (by omega) (by omega)
  have h3 := hin 3 (by omega) (by omega)
  have hk' := hin x.length (by omega) (by omega)
  have hk1 := hin (x.length - 1) (by omega) (by omega)
  have hall : ∀ i < x.length + 3, D i = m := by
    intro i hi
    have d1 : D 1 = m := by rw [hD.left1, h2, h3]; ring
    have dk : D (x.length + 1) = m := by rw [hD.right1, hk', hk1]; ring
    rcases Nat.lt_or_ge i 2 with h | h
    · rcases Nat.lt_or_ge i 1 with h' | h'
      · rw [show i = 0 by omega, hD.left0, d1, h2]; ring
      · rw [show i = 1 by omega, d1]
    · rcases Nat.lt_or_ge x.length i with h' | h'
      · rcases Nat.lt_or_ge i (x.length + 2) with h'' | h''
        · rw [show i = x.length + 1 by omega, dk]
        · rw [show i = x.length + 2 by omega, hD.right2, dk, hk']; ring
      · exact hin i h h'
  have hsl : ∀ i < x.length, akimaSlope D i = m := by
    intro i hi
    unfold akimaSlope
    rw [hall i (by omega), hall (i + 1) (by omega), hall (i + 2) (by omega), hall (i + 3) (by omega), if_pos (by simp)]
    ring
  intro t ht
  rw [hXe 0 (by omega), hXe (x.length - 1) (by omega)] at ht
  obtain ⟨i, hi, h1, h2⟩ := in_piece x.length X (x.length - 2) t ht.1
      (by rw [show x.length - 2 + 1 = x.length - 1 by omega]; exact ht.2)
  obtain ⟨q, hq, e, _⟩ := found_spec x.length X (fun i => m * X i + c) (akimaSlope D) hmono i (by omega) t h1 h2
  unfold Akima.eval
  rw [if_neg (by push Not; exact ht)]
  unfold found at hq
  simp only
  rw [hq]
  simp only
  rw [e]
  have hne : X (i + 1) - X i ≠ 0 := (sub_pos.2 (hmono i (by omega))).ne'
  simp only [piece, Piece.eval]
  rw [hsl i (by omega), hsl (i + 1) (by omega)]
  congr 1
  have z1 : 3 * (m * X (i + 1) + c - (m * X i + c)) - (2 * m + m) * (X (i + 1) - X i) = 0 := by ring
  have z2 : (m + m) * (X (i + 1) - X i) - 2 * (m * X (i + 1) + c - (m * X i + c)) = 0 := by ring
  rw [z1, z2]
  ring

/-- **C43** Data of different lengths, or fewer than three points, are refused. -/
theorem akima_refuses (x s : List ℝ) (h : x.length ≠ s.length ∨ x.length < 3) : Akima.ctor x s = throwOut := by
  unfold Akima.ctor
  rcases h with h | h
  · rw [if_pos h]
  · split
    · rfl
    · rfl

example : ∃ (a : Akima ℝ), Akima.ctor [0, 1, 3, 4] [5, 2, 7, 1] = .ok a ∧ a.eval 3 = .ok 7 ∧ a.eval 5 = throwOut := by
  obtain ⟨a, S, S', d, h1, h2, h3, h4, _⟩ := akima_spec [0, 1, 3, 4] [5, 2, 7, 1] rfl (by simp) (by simp; norm_num)
  refine ⟨a, h1, ?_, ?_⟩
  · rw [h2 3 (by simp; norm_num)]
    exact congrArg _ (h4 2 (by simp))
  · exact h3 5 (by simp; norm_num)

example := akima_line [0, 1, 3, 4] 2 5 (by simp) (by norm_num)
example := akima_refuses [0, 1] [3, 4] (.inr (by simp))

end Verif.Numeric
