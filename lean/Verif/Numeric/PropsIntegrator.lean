import Verif.Numeric.ModelIntegrator
import Mathlib.MeasureTheory.Integral.IntervalIntegral.Basic

/-!
# C116: integrals
-/

namespace Verif.Numeric

open MeasureTheory

/-! ## Specification -/

/-- The value is the integral up to the larger one of the two tolerances. -/
def Within (epsabs epsrel value integral : ℝ) : Prop := |value - integral| ≤ max epsabs (epsrel * |integral|)

/-- What the documentation of GSL says: with status zero the requested accuracy was reached, and the arguments are invalid
(`GSL_EINVAL`, 4) only if the workspace is too small for `limit`, or the points are not ascending or not less than the limit. -/
structure QuadDoc (q : Quad) : Prop where
  qag : ∀ f a b ea er limit key work, IntervalIntegrable f volume a b → (q.qag f a b ea er limit key work).status = 0 →
    Within ea er (q.qag f a b ea er limit key work).result (∫ x in a..b, f x)
  qagValid : ∀ f a b ea er limit key work, limit ≤ work → (q.qag f a b ea er limit key work).status ≠ 4
  qagp : ∀ f a l b ea er limit work, (a :: (l ++ [b])).Pairwise (· ≤ ·) → IntervalIntegrable f volume a b →
    (q.qagp f (a :: (l ++ [b])) ea er limit work).status = 0 →
    Within ea er (q.qagp f (a :: (l ++ [b])) ea er limit work).result (∫ x in a..b, f x)
  qagpValid : ∀ f pts ea er limit work, limit ≤ work → pts.Pairwise (· ≤ ·) → pts.length ≤ limit →
    (q.qagp f pts ea er limit work).status ≠ 4
  qagiu : ∀ f a ea er limit work, IntegrableOn f (Set.Ioi a) → (q.qagiu f a ea er limit work).status = 0 →
    Within ea er (q.qagiu f a ea er limit work).result (∫ x in Set.Ioi a, f x)
  qagiuValid : ∀ f a ea er limit work, limit ≤ work → (q.qagiu f a ea er limit work).status ≠ 4
  qagi : ∀ f ea er limit work, Integrable f → (q.qagi f ea er limit work).status = 0 →
    Within ea er (q.qagi f ea er limit work).result (∫ x, f x)
  qagiValid : ∀ f ea er limit work, limit ≤ work → (q.qagi f ea er limit work).status ≠ 4

theorem answer_none {r : QRes} : r.answer.printed = none ↔ r.status = 0 := by
  unfold QRes.answer
  by_cases h : r.status = 0 <;> simp [h]

theorem answer_some {r : QRes} {e : Int} : r.answer.printed = some e ↔ r.status = e ∧ e ≠ 0 := by
  unfold QRes.answer
  by_cases h : r.status = 0
  · simp only [h, ne_eq, not_true_eq_false, if_false, reduceCtorEq, false_iff]
    rintro ⟨rfl, h⟩
    exact h rfl
  · simp only [ne_eq, h, not_false_eq_true, if_true, Option.some.injEq]
    constructor
    · rintro rfl
      exact ⟨rfl, h⟩
    · exact fun h => h.1

/-! ## Properties -/

/-- **C116** With the default routine the integral between the first two points is given within the tolerances, if no error is
printed; that the workspace is too small is never printed.  Other points are not looked at. -/
theorem integral_qag {q : Quad} (hq : QuadDoc q) {f : ℝ → ℝ} {ea er : ℝ} {limit : Nat} {s : Integ}
    (hs : Integ.make true f ea er limit = .ok s) (a b : ℝ) (more : List ℝ) (key : Int) (hf : IntervalIntegrable f volume a b) :
    ∃ r : Answer, s.between q (a :: b :: more) .qag key = .ok r ∧ r.printed ≠ some 4 ∧
      (r.printed = none → Within ea er r.value (∫ x in a..b, f x)) := by
  cases hs
  refine ⟨_, rfl, ?_, ?_⟩
  · intro h
    exact hq.qagValid _ _ _ _ _ _ _ _ (by simp) (answer_some.1 h).1
  · intro h
    exact hq.qag _ _ _ _ _ _ _ _ hf (answer_none.1 h)

/-- **C116** With `INTEG_QAGP`, ascending points: the integral from the first to the last one. -/
theorem integral_qagp {q : Quad} (hq : QuadDoc q) {f : ℝ → ℝ} {ea er : ℝ} {limit : Nat} {s : Integ}
    (hs : Integ.make true f ea er limit = .ok s) (a b : ℝ) (inner : List ℝ) (key : Int)
    (hl : (a :: (inner ++ [b])).Pairwise (· ≤ ·)) (hf : IntervalIntegrable f volume a b) :
    ∃ r : Answer, s.between q (a :: (inner ++ [b])) .qagp key = .ok r ∧ (inner.length + 2 ≤ limit → r.printed ≠ some 4) ∧
      (r.printed = none → Within ea er r.value (∫ x in a..b, f x)) := by
  cases hs
  refine ⟨_, rfl, ?_, ?_⟩
  · intro hn h
    exact hq.qagpValid _ _ _ _ _ _ (by simp) hl (by simp; omega) (answer_some.1 h).1
  · intro h
    exact hq.qagp _ _ _ _ _ _ _ _ hl hf (answer_none.1 h)

/-- **C116** `toInfinity(a)`: the integral over all numbers above `a`, whatever routine is asked for. -/
theorem integral_infinity {q : Quad} (hq : QuadDoc q) {f : ℝ → ℝ} {ea er : ℝ} {limit : Nat} {s : Integ}
    (hs : Integ.make true f ea er limit = .ok s) (a : ℝ) (kind : IntegKind) (key : Int) (hf : IntegrableOn f (Set.Ioi a)) :
    (s.toInfinity q a kind key).printed ≠ some 4 ∧
      ((s.toInfinity q a kind key).printed = none → Within ea er (s.toInfinity q a kind key).value (∫ x in Set.Ioi a, f x)) := by
  cases hs
  exact ⟨fun h => hq.qagiuValid _ _ _ _ _ _ (by simp) (answer_some.1 h).1, fun h => hq.qagiu _ _ _ _ _ _ hf (answer_none.1 h)⟩

/-- **C116** Without arguments: the integral over all numbers. -/
theorem integral_everywhere {q : Quad} (hq : QuadDoc q) {f : ℝ → ℝ} {ea er : ℝ} {limit : Nat} {s : Integ}
    (hs : Integ.make true f ea er limit = .ok s) (hf : Integrable f) :
    (s.everywhere q).printed ≠ some 4 ∧
      ((s.everywhere q).printed = none → Within ea er (s.everywhere q).value (∫ x, f x)) := by
  cases hs
  exact ⟨fun h => hq.qagiValid _ _ _ _ _ (by simp) (answer_some.1 h).1, fun h => hq.qagi _ _ _ _ _ hf (answer_none.1 h)⟩

/-- **C116** (finding) If GSL did not reach the accuracy there is a line on the standard error, but no exception, and the program goes
on with a number that may be anything. -/
theorem integral_error_fails (x : ℝ) : ∃ q : Quad, QuadDoc q ∧ ∀ (s : Integ) (a b : ℝ) (key : Int),
    s.between q [a, b] .qag key = .ok ⟨x, some 11⟩ := by
  refine ⟨⟨fun _ _ _ _ _ _ _ _ => ⟨11, x, 0⟩, fun _ _ _ _ _ _ => ⟨11, x, 0⟩, fun _ _ _ _ _ _ => ⟨11, x, 0⟩, fun _ _ _ _ _ => ⟨11, x, 0⟩⟩,
    ?_, fun s a b key => rfl⟩
  constructor <;> simp

/-- **C116** (finding) Less than two points with the default routine, or none: memory that is not there is read. -/
theorem integral_points_fails (q : Quad) (s : Integ) (pts : List ℝ) (key : Int) :
    (s.between q pts .qag key = ubOut ↔ pts.length < 2) ∧ (s.between q pts .qagp key = ubOut ↔ pts = []) := by
  constructor
  · match pts with
    | [] => simp [Integ.between]
    | [_] => simp [Integ.between]
    | a :: b :: l => simp [Integ.between, ubOut]
  · match pts with
    | [] => simp [Integ.between]
    | a :: l => simp [Integ.between, ubOut]

/-- **C116** Without GSL the constructor throws. -/
theorem integral_noGsl (f : ℝ → ℝ) (ea er : ℝ) (limit : Nat) : Integ.make false f ea er limit = throwOut := rfl

/-- Routines that give the integrals meet the contract. -/
theorem quad_exists : ∃ q : Quad, QuadDoc q ∧ ∀ f a b ea er limit key work, 0 ≤ ea → (q.qag f a b ea er limit key work).status = 0 := by
  classical
  have ok : ∀ ea er x : ℝ, 0 ≤ ea → Within ea er x x := by
    intro ea er x h
    unfold Within
    rw [sub_self, abs_zero]
    exact le_max_of_le_left h
  let res : ℝ → ℝ → QRes := fun ea x => ⟨if 0 ≤ ea then 0 else 13, x, 0⟩
  have h0 : ∀ ea x, (res ea x).status = 0 → 0 ≤ ea := by
    intro ea x h
    by_contra hn
    simp [res, hn] at h
  have h4 : ∀ ea x, (res ea x).status ≠ 4 := by
    intro ea x
    by_cases hn : 0 ≤ ea <;> simp [res, hn]
  refine ⟨⟨fun f a b ea _ _ _ _ => res ea (∫ x in a..b, f x), fun f pts ea _ _ _ => res ea (∫ x in (pts.headD 0)..(pts.getLastD 0), f x),
    fun f a ea _ _ _ => res ea (∫ x in Set.Ioi a, f x), fun f ea _ _ _ => res ea (∫ x, f x)⟩, ⟨?_, ?_, ?_, ?_, ?_, ?_, ?_, ?_⟩, ?_⟩
  · intro f a b ea er _ _ _ _ h
    exact ok _ _ _ (h0 _ _ h)
  · intros
    exact h4 _ _
  · intro f a l b ea er _ _ _ _ h
    have := ok ea er (∫ x in a..b, f x) (h0 _ _ h)
    have e : (a :: (l ++ [b])).getLast? = some b := by
      rw [← List.cons_append, List.getLast?_append]
      rfl
    simpa [res, e] using this
  · intros
    exact h4 _ _
  · intro f a ea er _ _ _ h
    exact ok _ _ _ (h0 _ _ h)
  · intros
    exact h4 _ _
  · intro f ea er _ _ _ h
    exact ok _ _ _ (h0 _ _ h)
  · intros
    exact h4 _ _
  · intro f a b ea er _ _ _ h
    simp [res, h]

/-- The square between zero and one. -/
example : IntervalIntegrable (fun x : ℝ => x ^ 2) volume 0 1 := (continuous_pow 2).intervalIntegrable 0 1

/-! ## Concrete cases of the hypotheses: the constant three on an interval, and the zero function everywhere. -/

example : ∃ q : Quad, QuadDoc q ∧
    (∃ r : Answer, (⟨fun _ => 3, 1, 0, 10, 12⟩ : Integ).between q [0, 2] .qag 1 = .ok r ∧ r.printed ≠ some 4 ∧
      (r.printed = none → Within 1 0 r.value (∫ _ in (0 : ℝ)..2, 3))) ∧
    (∃ r : Answer, (⟨fun _ => 3, 1, 0, 10, 12⟩ : Integ).between q [0, 1, 2] .qagp 1 = .ok r ∧ (1 + 2 ≤ 10 → r.printed ≠ some 4) ∧
      (r.printed = none → Within 1 0 r.value (∫ _ in (0 : ℝ)..2, 3))) := by
  obtain ⟨q, hq, -⟩ := quad_exists
  refine ⟨q, hq, ?_, ?_⟩
  · exact integral_qag hq (f := fun _ => 3) (limit := 10) rfl 0 2 [] 1 intervalIntegrable_const
  · exact integral_qagp hq (f := fun _ => 3) (limit := 10) rfl 0 2 [1] 1 (by simp) intervalIntegrable_const

example : ∃ q : Quad, QuadDoc q ∧
    (((⟨fun _ => 0, 1, 0, 10, 12⟩ : Integ).everywhere q).printed = none →
      Within 1 0 ((⟨fun _ => 0, 1, 0, 10, 12⟩ : Integ).everywhere q).value (∫ _ : ℝ, 0)) ∧
    (((⟨fun _ => 0, 1, 0, 10, 12⟩ : Integ).toInfinity q 5 .qag 1).printed = none →
      Within 1 0 ((⟨fun _ => 0, 1, 0, 10, 12⟩ : Integ).toInfinity q 5 .qag 1).value (∫ _ in Set.Ioi (5 : ℝ), 0)) := by
  obtain ⟨q, hq, -⟩ := quad_exists
  exact ⟨q, hq, (integral_everywhere hq (f := fun _ => 0) (limit := 10) rfl (integrable_zero _ _ _)).2,
    (integral_infinity hq (f := fun _ => 0) (limit := 10) rfl 5 .qag 1 (integrable_zero _ _ _)).2⟩

end Verif.Numeric
