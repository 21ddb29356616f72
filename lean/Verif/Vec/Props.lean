import Verif.Vec.Model
import Mathlib.Tactic.Ring

/-!
# C73: expressions with vectors
-/

namespace Verif.Vec

open Verif.Loop

variable {R : Type}

/-! ## Specification -/

/-- The element `i` of the value of an expression. -/
def Expr.at [CommRing R] (h : Heap R) (i : Nat) : Expr R → Option R
  | .vec x => (h x)[i]?
  | .mul a e => do return (← a.read h) * (← e.at h i)
  | .add e f => do return (← e.at h i) + (← f.at h i)
  | .sub e f => do return (← e.at h i) - (← f.at h i)

/-- The vectors of an expression. -/
def Expr.vecs : Expr R → List Nat
  | .vec x => [x]
  | .mul _ e => e.vecs
  | .add e f => e.vecs ++ f.vecs
  | .sub e f => e.vecs ++ f.vecs

/-- The expressions that can be assigned. -/
inductive Supported : Expr R → Prop
  | mul a x : Supported (.mul a (.vec x))
  | mulMul a b x : Supported (.mul a (.mul b (.vec x)))
  | add x y : Supported (.add (.vec x) (.vec y))
  | addMul x a y : Supported (.add (.vec x) (.mul a (.vec y)))
  | mulAdd a x y : Supported (.add (.mul a (.vec x)) (.vec y))
  | mulOfAdd a x y : Supported (.mul a (.add (.vec x) (.vec y)))
  | four a x b y c z d w :
      Supported (.add (.add (.add (.mul a (.vec x)) (.mul b (.vec y))) (.mul c (.vec z))) (.mul d (.vec w)))
  | sub x y : Supported (.sub (.vec x) (.vec y))
  | subMul x a y : Supported (.sub (.vec x) (.mul a (.vec y)))
  | mulOfSub a x y : Supported (.mul a (.sub (.vec x) (.vec y)))
  | three x a y b z : Supported (.add (.sub (.vec x) (.mul a (.vec y))) (.mul b (.vec z)))

/-- The vector `v` was given the elements `f`, of which there are `n`, and nothing else was changed. -/
def Given (h h' : Heap R) (v n : Nat) (f : Nat → Option R) : Prop :=
  (h' v).length = n ∧ (∀ i, i < n → (h' v)[i]? = f i ∧ (f i).isSome) ∧ ∀ w, w ≠ v → h' w = h w

/-! ## Lemmas -/

/-- A loop that gives `v` its elements one by one, where the computation of an element looks at other vectors and at
elements of `v` that were not changed yet. -/
theorem loop_given (h : Heap R) (v n : Nat) (f : Nat → Heap R → Option R) (g : Nat → R) (hn : (h v).length = n)
    (hf : ∀ i h', i < n → (∀ w, w ≠ v → h' w = h w) → (h' v).length = n → (∀ j, i ≤ j → (h' v)[j]? = (h v)[j]?) →
      f i h' = some (g i)) :
    ∃ h', loopN n (fun i h => do
      let a ← f i h
      setElem h v i a) h = some h' ∧ Given h h' v n fun i => some (g i) := by
  obtain ⟨h', h1, h2, h3, h4, h5⟩ := loopN_inv (fun k (h' : Heap R) => (h' v).length = n ∧ (∀ w, w ≠ v → h' w = h w) ∧
      (∀ j, k ≤ j → (h' v)[j]? = (h v)[j]?) ∧ ∀ j, j < k → (h' v)[j]? = some (g j)) n (fun i h => do
      let a ← f i h
      setElem h v i a) h ⟨hn, fun _ _ => rfl, fun _ _ => rfl, fun j hj => absurd hj (by omega)⟩ (by
      intro i h' hi ⟨a1, a2, a3, a4⟩
      refine ⟨Function.update h' v ((h' v).set i (g i)), ?_, ?_, ?_, ?_, ?_⟩
      · simp only [hf i h' hi a2 a1 a3, bind, Option.bind_some, setElem]
        rw [if_pos (by omega)]
      · simp [a1]
      · intro w hw; rw [Function.update_of_ne hw]; exact a2 w hw
      · intro j hj
        rw [Function.update_self, List.getElem?_set_ne (by omega)]
        exact a3 j (by omega)
      · intro j hj
        rw [Function.update_self]
        by_cases e : j = i
        · subst e
          rw [List.getElem?_set_self (by omega)]
        · rw [List.getElem?_set_ne (by omega)]
          exact a4 j (by omega))
  exact ⟨h', h1, h2, fun i hi => ⟨h5 i hi, rfl⟩, h3⟩

theorem resizeL_same (l : List R) (n : Nat) (a : R) (h : l.length = n) : resizeL l n a = l := by
  subst h
  simp [resizeL]

theorem resizeL_length' (l : List R) (n : Nat) (a : R) : (resizeL l n a).length = n := by
  simp [resizeL]; omega

/-- No scalar is an element of `v`. -/
def Free (v : Nat) (e : Expr R) : Prop := ∀ i, Scal.elem v i ∉ e.scals

theorem free_refers {v : Nat} {e : Expr R} (h : Free v e) : e.refersTo v = false := by
  unfold Expr.refersTo
  rw [List.any_eq_false]
  intro s hs
  cases s with
  | num a => simp
  | elem w i =>
    by_cases hw : w = v
    · subst hw; exact absurd hs (h i)
    · simp [hw]

theorem read_same {v : Nat} {e : Expr R} (hfr : Free v e) {h h' : Heap R} (hw : ∀ w, w ≠ v → h' w = h w) {s : Scal R}
    (hs : s ∈ e.scals) : s.read h' = s.read h := by
  cases s with
  | num a => rfl
  | elem w i =>
    have : w ≠ v := by
      rintro rfl
      exact hfr i hs
    simp [Scal.read, hw w this]

theorem fill_given [CommRing R] (h : Heap R) (v n : Nat) (e : Expr R) (f : Nat → Heap R → Option R) (g : Nat → R)
    (hfr : e.refersTo v = false)
    (hf : ∀ i h', i < n → (∀ w, w ≠ v → h' w = h w) → ((h v).length = n → ∀ j, i ≤ j → (h' v)[j]? = (h v)[j]?) →
      f i h' = some (g i)) :
    ∃ h', fill h v n e f = some h' ∧ Given h h' v n fun i => some (g i) := by
  have hr : replace h v (resizeL (h v) n 0) e = some (Function.update h v (resizeL (h v) n 0)) := by
    simp [replace, hfr]
  obtain ⟨h', h1, h2, h3, h4⟩ := loop_given (Function.update h v (resizeL (h v) n 0)) v n f g
    (by simp [resizeL_length']) (by
      intro i h' hi a1 a2 a3
      refine hf i h' hi (fun w hw => by rw [a1 w hw, Function.update_of_ne hw]) ?_
      intro hn j hj
      rw [a3 j hj, Function.update_self, resizeL_same _ _ _ hn])
  refine ⟨h', ?_, h2, h3, fun w hw => by rw [h4 w hw, Function.update_of_ne hw]⟩
  unfold fill
  rw [hr]
  exact h1

theorem scale_given [CommRing R] (h : Heap R) (v x : Nat) (e : Expr R) (a : Heap R → Option R) (c : R)
    (hfr : e.refersTo v = false) (ha : ∀ h', (∀ w, w ≠ v → h' w = h w) → a h' = some c) (g : Nat → R)
    (hg : ∀ i y, (h x)[i]? = some y → g i = y * c) :
    ∃ h', scale h v x e a = some h' ∧ Given h h' v (h x).length fun i => some (g i) := by
  have hr : replace h v (h x) e = some (Function.update h v (h x)) := by
    simp [replace, hfr]
  obtain ⟨h', h1, h2, h3, h4⟩ := loop_given (Function.update h v (h x)) v (h x).length (fun i h => do
      let s ← a h
      let y ← (h v)[i]?
      return y * s) g (by simp) (by
      intro i h' hi a1 a2 a3
      have e1 := a3 i (le_refl i)
      rw [Function.update_self, List.getElem?_eq_getElem hi] at e1
      have e2 := ha h' (fun w hw => by rw [a1 w hw, Function.update_of_ne hw])
      simp only [e1, e2, bind, Option.bind_some, pure]
      rw [hg i _ (List.getElem?_eq_getElem hi)])
  refine ⟨h', ?_, h2, h3, fun w hw => by rw [h4 w hw, Function.update_of_ne hw]⟩
  unfold scale
  rw [hr]
  simp only [bind, Option.bind_some, Function.update_self, pure] at h1 ⊢
  rw [← h1]
  congr 1
  funext i h
  cases a h with
  | none => rfl
  | some s => cases (h v)[i]? <;> rfl

/-- An operand, read during the loop. -/
theorem operand (h h' : Heap R) (v n i x : Nat) (hi : i < n) (hx : (h x).length = n) (hw : ∀ w, w ≠ v → h' w = h w)
    (hv : (h v).length = n → ∀ j, i ≤ j → (h' v)[j]? = (h v)[j]?) : (h' x)[i]? = (h x)[i]? := by
  by_cases e : x = v
  · subst e; exact hv hx i (le_refl i)
  · rw [hw x e]

theorem operand_some (h : Heap R) (n i x : Nat) (hi : i < n) (hx : (h x).length = n) : ∃ a, (h x)[i]? = some a :=
  ⟨_, List.getElem?_eq_getElem (by omega)⟩

theorem getD_of {o : Option R} {a d : R} (h : o = some a) : o.getD d = a := by rw [h]; rfl

/-! ## Theorems -/

/-- **C73** The value of an expression is assigned element by element, also if the vector that is assigned to is one of the
operands, and no other vector changes.  The operands have the same size, and no scalar is an element of the vector. -/
theorem assign_spec [CommRing R] (h : Heap R) (v n : Nat) (e : Expr R) (hs : Supported e)
    (hn : ∀ x ∈ e.vecs, (h x).length = n) (ha : ∀ s ∈ e.scals, ∃ a, s.read h = some a) (hfr : Free v e) :
    ∃ h', assign h v e = some h' ∧ Given h h' v n fun i => e.at h i := by
  have key : ∀ g : Nat → R, (∀ i, i < n → e.at h i = some (g i)) →
      (∃ h', assign h v e = some h' ∧ Given h h' v n fun i => some (g i)) →
      ∃ h', assign h v e = some h' ∧ Given h h' v n fun i => e.at h i := by
    rintro g hg ⟨h', h1, h2, h3, h4⟩
    refine ⟨h', h1, h2, fun i hi => ?_, h4⟩
    have := h3 i hi
    simp only [hg i hi] at this ⊢
    exact this
  have hrf := free_refers hfr
  cases hs with
  | mul a x =>
    have hx := hn x (by simp [Expr.vecs])
    obtain ⟨c, hc⟩ := ha a (by simp [Expr.scals])
    refine key (fun i => c * ((h x)[i]?).getD 0) ?_ ?_
    · intro i hi
      obtain ⟨y, hy⟩ := operand_some h n i x hi hx
      simp [Expr.at, hc, hy]
    · rw [← hx]
      refine scale_given h v x _ _ c hrf (fun h' hw => ?_) _ ?_
      · rw [read_same hfr hw (by simp [Expr.scals]), hc]
      · intro i y hy
        rw [getD_of hy, mul_comm]
  | mulMul a b x =>
    have hx := hn x (by simp [Expr.vecs])
    obtain ⟨c, hc⟩ := ha a (by simp [Expr.scals])
    obtain ⟨d, hd⟩ := ha b (by simp [Expr.scals])
    refine key (fun i => c * (d * ((h x)[i]?).getD 0)) ?_ ?_
    · intro i hi
      obtain ⟨y, hy⟩ := operand_some h n i x hi hx
      simp [Expr.at, hc, hd, hy]
    · have hr : replace h v (h x) (.mul a (.mul b (.vec x))) = some (Function.update h v (h x)) := by
        simp [replace, hrf]
      have hw : ∀ w, w ≠ v → (Function.update h v (h x)) w = h w := fun w hw => Function.update_of_ne hw _ _
      simp only [assign, hr, bind, Option.bind_some, read_same hfr hw (show a ∈ _ by simp [Expr.scals]),
        read_same hfr hw (show b ∈ _ by simp [Expr.scals]), hc, hd]
      rw [← hx]
      refine scale_given h v x _ _ (c * d) hrf (fun h' hw => rfl) _ ?_
      intro i y hy
      rw [getD_of hy]; ring
  | add x y =>
    have hx := hn x (by simp [Expr.vecs])
    have hy := hn y (by simp [Expr.vecs])
    refine key (fun i => ((h x)[i]?).getD 0 + ((h y)[i]?).getD 0) ?_ ?_
    · intro i hi
      obtain ⟨a, e1⟩ := operand_some h n i x hi hx
      obtain ⟨b, e2⟩ := operand_some h n i y hi hy
      simp [Expr.at, e1, e2]
    · simp only [assign, hx]
      refine fill_given h v n _ _ _ hrf ?_
      intro i h' hi hw hv
      obtain ⟨a, e1⟩ := operand_some h n i x hi hx
      obtain ⟨b, e2⟩ := operand_some h n i y hi hy
      simp [operand h h' v n i x hi hx hw hv, operand h h' v n i y hi hy hw hv, e1, e2]
  | addMul x s y =>
    have hx := hn x (by simp [Expr.vecs])
    have hy := hn y (by simp [Expr.vecs])
    obtain ⟨c, hc⟩ := ha s (by simp [Expr.scals])
    refine key (fun i => ((h x)[i]?).getD 0 + c * ((h y)[i]?).getD 0) ?_ ?_
    · intro i hi
      obtain ⟨a, e1⟩ := operand_some h n i x hi hx
      obtain ⟨b, e2⟩ := operand_some h n i y hi hy
      simp [Expr.at, e1, e2, hc]
    · simp only [assign, hx]
      refine fill_given h v n _ _ _ hrf ?_
      intro i h' hi hw hv
      obtain ⟨a, e1⟩ := operand_some h n i x hi hx
      obtain ⟨b, e2⟩ := operand_some h n i y hi hy
      simp [term, operand h h' v n i x hi hx hw hv, operand h h' v n i y hi hy hw hv, e1, e2,
        read_same hfr hw (show s ∈ _ by simp [Expr.scals]), hc]
  | mulAdd s x y =>
    have hx := hn x (by simp [Expr.vecs])
    have hy := hn y (by simp [Expr.vecs])
    obtain ⟨c, hc⟩ := ha s (by simp [Expr.scals])
    refine key (fun i => c * ((h x)[i]?).getD 0 + ((h y)[i]?).getD 0) ?_ ?_
    · intro i hi
      obtain ⟨a, e1⟩ := operand_some h n i x hi hx
      obtain ⟨b, e2⟩ := operand_some h n i y hi hy
      simp [Expr.at, e1, e2, hc]
    · simp only [assign, hy]
      refine fill_given h v n _ _ _ hrf ?_
      intro i h' hi hw hv
      obtain ⟨a, e1⟩ := operand_some h n i x hi hx
      obtain ⟨b, e2⟩ := operand_some h n i y hi hy
      simp [term, operand h h' v n i x hi hx hw hv, operand h h' v n i y hi hy hw hv, e1, e2,
        read_same hfr hw (show s ∈ _ by simp [Expr.scals]), hc]
  | mulOfAdd s x y =>
    have hx := hn x (by simp [Expr.vecs])
    have hy := hn y (by simp [Expr.vecs])
    obtain ⟨c, hc⟩ := ha s (by simp [Expr.scals])
    refine key (fun i => c * (((h x)[i]?).getD 0 + ((h y)[i]?).getD 0)) ?_ ?_
    · intro i hi
      obtain ⟨a, e1⟩ := operand_some h n i x hi hx
      obtain ⟨b, e2⟩ := operand_some h n i y hi hy
      simp [Expr.at, e1, e2, hc]
    · simp only [assign, hy]
      refine fill_given h v n _ _ _ hrf ?_
      intro i h' hi hw hv
      obtain ⟨a, e1⟩ := operand_some h n i x hi hx
      obtain ⟨b, e2⟩ := operand_some h n i y hi hy
      simp [operand h h' v n i x hi hx hw hv, operand h h' v n i y hi hy hw hv, e1, e2,
        read_same hfr hw (show s ∈ _ by simp [Expr.scals]), hc]
  | four s4 k4 s3 k3 s2 k2 s1 k1 =>
    have h1 := hn k1 (by simp [Expr.vecs])
    have h2 := hn k2 (by simp [Expr.vecs])
    have h3 := hn k3 (by simp [Expr.vecs])
    have h4 := hn k4 (by simp [Expr.vecs])
    obtain ⟨m1, c1⟩ := ha s1 (by simp [Expr.scals])
    obtain ⟨m2, c2⟩ := ha s2 (by simp [Expr.scals])
    obtain ⟨m3, c3⟩ := ha s3 (by simp [Expr.scals])
    obtain ⟨m4, c4⟩ := ha s4 (by simp [Expr.scals])
    refine key (fun i => m4 * ((h k4)[i]?).getD 0 + m3 * ((h k3)[i]?).getD 0 + m2 * ((h k2)[i]?).getD 0 +
      m1 * ((h k1)[i]?).getD 0) ?_ ?_
    · intro i hi
      obtain ⟨a1, e1⟩ := operand_some h n i k1 hi h1
      obtain ⟨a2, e2⟩ := operand_some h n i k2 hi h2
      obtain ⟨a3, e3⟩ := operand_some h n i k3 hi h3
      obtain ⟨a4, e4⟩ := operand_some h n i k4 hi h4
      simp [Expr.at, e1, e2, e3, e4, c1, c2, c3, c4]
    · have hw : ∀ w, w ≠ v → (Function.update h v (resizeL (h v) n 0)) w = h w := fun w hw => Function.update_of_ne hw _ _
      simp only [assign, h1, replace, hrf, Bool.false_eq_true, and_false, if_false, bind, Option.bind_some,
        read_same hfr hw (show s1 ∈ _ by simp [Expr.scals]), read_same hfr hw (show s2 ∈ _ by simp [Expr.scals]),
        read_same hfr hw (show s3 ∈ _ by simp [Expr.scals]), read_same hfr hw (show s4 ∈ _ by simp [Expr.scals]), c1, c2, c3, c4]
      refine fill_given h v n _ _ _ hrf ?_
      intro i h' hi hw hv
      obtain ⟨a1, e1⟩ := operand_some h n i k1 hi h1
      obtain ⟨a2, e2⟩ := operand_some h n i k2 hi h2
      obtain ⟨a3, e3⟩ := operand_some h n i k3 hi h3
      obtain ⟨a4, e4⟩ := operand_some h n i k4 hi h4
      simp only [operand h h' v n i k1 hi h1 hw hv, operand h h' v n i k2 hi h2 hw hv, operand h h' v n i k3 hi h3 hw hv,
        operand h h' v n i k4 hi h4 hw hv, e1, e2, e3, e4, Option.bind_some, pure, Option.getD_some]
      congr 1
      ring
  | sub x y =>
    have hx := hn x (by simp [Expr.vecs])
    have hy := hn y (by simp [Expr.vecs])
    refine key (fun i => ((h x)[i]?).getD 0 - ((h y)[i]?).getD 0) ?_ ?_
    · intro i hi
      obtain ⟨a, e1⟩ := operand_some h n i x hi hx
      obtain ⟨b, e2⟩ := operand_some h n i y hi hy
      simp [Expr.at, e1, e2]
    · simp only [assign, hx]
      refine fill_given h v n _ _ _ hrf ?_
      intro i h' hi hw hv
      obtain ⟨a, e1⟩ := operand_some h n i x hi hx
      obtain ⟨b, e2⟩ := operand_some h n i y hi hy
      simp [operand h h' v n i x hi hx hw hv, operand h h' v n i y hi hy hw hv, e1, e2]
  | subMul x s y =>
    have hx := hn x (by simp [Expr.vecs])
    have hy := hn y (by simp [Expr.vecs])
    obtain ⟨c, hc⟩ := ha s (by simp [Expr.scals])
    refine key (fun i => ((h x)[i]?).getD 0 - c * ((h y)[i]?).getD 0) ?_ ?_
    · intro i hi
      obtain ⟨a, e1⟩ := operand_some h n i x hi hx
      obtain ⟨b, e2⟩ := operand_some h n i y hi hy
      simp [Expr.at, e1, e2, hc]
    · simp only [assign, hx]
      refine fill_given h v n _ _ _ hrf ?_
      intro i h' hi hw hv
      obtain ⟨a, e1⟩ := operand_some h n i x hi hx
      obtain ⟨b, e2⟩ := operand_some h n i y hi hy
      simp [term, operand h h' v n i x hi hx hw hv, operand h h' v n i y hi hy hw hv, e1, e2,
        read_same hfr hw (show s ∈ _ by simp [Expr.scals]), hc]
  | mulOfSub s x y =>
    have hx := hn x (by simp [Expr.vecs])
    have hy := hn y (by simp [Expr.vecs])
    obtain ⟨c, hc⟩ := ha s (by simp [Expr.scals])
    refine key (fun i => c * (((h x)[i]?).getD 0 - ((h y)[i]?).getD 0)) ?_ ?_
    · intro i hi
      obtain ⟨a, e1⟩ := operand_some h n i x hi hx
      obtain ⟨b, e2⟩ := operand_some h n i y hi hy
      simp [Expr.at, e1, e2, hc]
    · simp only [assign, hy]
      refine fill_given h v n _ _ _ hrf ?_
      intro i h' hi hw hv
      obtain ⟨a, e1⟩ := operand_some h n i x hi hx
      obtain ⟨b, e2⟩ := operand_some h n i y hi hy
      simp [operand h h' v n i x hi hx hw hv, operand h h' v n i y hi hy hw hv, e1, e2,
        read_same hfr hw (show s ∈ _ by simp [Expr.scals]), hc]
  | three k1 s2 k2 s3 k3 =>
    have h1 := hn k1 (by simp [Expr.vecs])
    have h2 := hn k2 (by simp [Expr.vecs])
    have h3 := hn k3 (by simp [Expr.vecs])
    obtain ⟨m2, c2⟩ := ha s2 (by simp [Expr.scals])
    obtain ⟨m3, c3⟩ := ha s3 (by simp [Expr.scals])
    refine key (fun i => ((h k1)[i]?).getD 0 - m2 * ((h k2)[i]?).getD 0 + m3 * ((h k3)[i]?).getD 0) ?_ ?_
    · intro i hi
      obtain ⟨a1, e1⟩ := operand_some h n i k1 hi h1
      obtain ⟨a2, e2⟩ := operand_some h n i k2 hi h2
      obtain ⟨a3, e3⟩ := operand_some h n i k3 hi h3
      simp [Expr.at, e1, e2, e3, c2, c3]
    · simp only [assign, h1, c2, c3, bind, Option.bind_some]
      refine fill_given h v n _ _ _ (by simp [Expr.refersTo, Expr.scals]) ?_
      intro i h' hi hw hv
      obtain ⟨a1, e1⟩ := operand_some h n i k1 hi h1
      obtain ⟨a2, e2⟩ := operand_some h n i k2 hi h2
      obtain ⟨a3, e3⟩ := operand_some h n i k3 hi h3
      simp [operand h h' v n i k1 hi h1 hw hv, operand h h' v n i k2 hi h2 hw hv, operand h h' v n i k3 hi h3 hw hv,
        e1, e2, e3]

/-- The memory of the examples: two vectors with three elements. -/
def mem3 : Heap ℚ := fun x => if x = 0 then [1, 2, 3] else if x = 1 then [10, 20, 30] else []

example : Supported (.add (.mul (.elem 1 0) (.vec 0)) (.vec 1) : Expr ℚ) ∧ Free 0 (.add (.mul (.elem 1 0) (.vec 0)) (.vec 1) : Expr ℚ) ∧
    (∃ h', assign mem3 0 (.add (.mul (.elem 1 0) (.vec 0)) (.vec 1)) = some h' ∧ h' 0 = [20, 40, 60]) := by
  refine ⟨.mulAdd _ _ _, ?_, ?_⟩
  · intro i h
    simp [Expr.scals] at h
  · exact ⟨_, rfl, by decide +kernel⟩

theorem loop_same [CommRing R] (h : Heap R) (v n : Nat) (f : Nat → Heap R → Option R) (g : Nat → R) (hn : (h v).length = n)
    (F : Nat → Heap R → Option (Heap R)) (hF : ∀ i h', F i h' = (f i h').bind fun a => setElem h' v i a)
    (hf : ∀ i h', i < n → (∀ w, w ≠ v → h' w = h w) → (h' v).length = n → (∀ j, i ≤ j → (h' v)[j]? = (h v)[j]?) →
      f i h' = some (g i)) :
    ∃ h', loopN n F h = some h' ∧ Given h h' v n fun i => some (g i) := by
  have : F = fun i h => (f i h).bind fun a => setElem h v i a := by funext i h'; exact hF i h'
  rw [this]
  exact loop_given h v n f g hn hf

/-- **C73** `v += w` and `v -= w`, for vectors of the same size, which may be the same. -/
theorem addAssign_spec [CommRing R] (h : Heap R) (v w : Nat) (hn : (h v).length = (h w).length) :
    (∃ h', addAssign h v w = some h' ∧ Given h h' v (h v).length fun i => Expr.at h i (.add (.vec v) (.vec w))) ∧
    ∃ h', subAssign h v w = some h' ∧ Given h h' v (h v).length fun i => Expr.at h i (.sub (.vec v) (.vec w)) := by
  constructor
  · obtain ⟨h', h1, h2, h3, h4⟩ := loop_same h v (h w).length (fun i h => do
        let a ← (h v)[i]?
        let b ← (h w)[i]?
        return a + b) (fun i => ((h v)[i]?).getD 0 + ((h w)[i]?).getD 0) hn (fun i h => do
        let a ← (h v)[i]?
        let b ← (h w)[i]?
        setElem h v i (a + b)) (by
        intro i h'
        cases e : (h' v)[i]? <;> cases e' : (h' w)[i]? <;> simp) (by
        intro i h' hi hw hl hv
        obtain ⟨a, e1⟩ := operand_some h _ i v hi hn
        obtain ⟨b, e2⟩ := operand_some h _ i w hi rfl
        simp [operand h h' v _ i v hi hn hw (fun _ => hv), operand h h' v _ i w hi rfl hw (fun _ => hv), e1, e2])
    refine ⟨h', h1, by rw [h2, hn], ?_, h4⟩
    intro i hi
    obtain ⟨a, e1⟩ := operand_some h _ i v hi rfl
    obtain ⟨b, e2⟩ := operand_some h _ i w (hn ▸ hi) rfl
    have := h3 i (hn ▸ hi)
    simp only [e1, e2] at this
    simp [Expr.at, e1, e2, this.1]
  · obtain ⟨h', h1, h2, h3, h4⟩ := loop_same h v (h w).length (fun i h => do
        let a ← (h v)[i]?
        let b ← (h w)[i]?
        return a - b) (fun i => ((h v)[i]?).getD 0 - ((h w)[i]?).getD 0) hn (fun i h => do
        let a ← (h v)[i]?
        let b ← (h w)[i]?
        setElem h v i (a - b)) (by
        intro i h'
        cases e : (h' v)[i]? <;> cases e' : (h' w)[i]? <;> simp) (by
        intro i h' hi hw hl hv
        obtain ⟨a, e1⟩ := operand_some h _ i v hi hn
        obtain ⟨b, e2⟩ := operand_some h _ i w hi rfl
        simp [operand h h' v _ i v hi hn hw (fun _ => hv), operand h h' v _ i w hi rfl hw (fun _ => hv), e1, e2])
    refine ⟨h', h1, by rw [h2, hn], ?_, h4⟩
    intro i hi
    obtain ⟨a, e1⟩ := operand_some h _ i v hi rfl
    obtain ⟨b, e2⟩ := operand_some h _ i w (hn ▸ hi) rfl
    have := h3 i (hn ▸ hi)
    simp only [e1, e2] at this
    simp [Expr.at, e1, e2, this.1]

/-- **C73** `v += s * w` and `v -= s * w`. -/
theorem addMulAssign_spec [CommRing R] (h : Heap R) (v w : Nat) (s : Scal R) (c : R) (hc : s.read h = some c)
    (hs : ∀ i, s ≠ .elem v i) (hn : (h v).length = (h w).length) :
    (∃ h', addMulAssign h v s w = some h' ∧ Given h h' v (h v).length fun i => Expr.at h i (.add (.vec v) (.mul s (.vec w)))) ∧
    ∃ h', subMulAssign h v s w = some h' ∧ Given h h' v (h v).length fun i => Expr.at h i (.sub (.vec v) (.mul s (.vec w))) := by
  have hfr : Free v (.mul s (.vec w) : Expr R) := by
    intro i hi
    simp only [Expr.scals, List.mem_cons, List.not_mem_nil, or_false] at hi
    exact hs i hi.symm
  have hsm : s ∈ (Expr.mul s (.vec w) : Expr R).scals := by simp [Expr.scals]
  constructor
  · obtain ⟨h', h1, h2, h3, h4⟩ := loop_same h v (h v).length (fun i h => do
        let a ← (h v)[i]?
        let b ← term h s w i
        return a + b) (fun i => ((h v)[i]?).getD 0 + c * ((h w)[i]?).getD 0) rfl (fun i h => do
        let a ← (h v)[i]?
        let b ← term h s w i
        setElem h v i (a + b)) (by
        intro i h'
        cases e : (h' v)[i]? <;> cases e' : term h' s w i <;> simp) (by
        intro i h' hi hw hl hv
        obtain ⟨a, e1⟩ := operand_some h _ i v hi rfl
        obtain ⟨b, e2⟩ := operand_some h _ i w hi hn.symm
        simp [term, operand h h' v _ i v hi rfl hw (fun _ => hv), operand h h' v _ i w hi hn.symm hw (fun _ => hv), e1, e2,
          read_same hfr hw hsm, hc])
    refine ⟨h', h1, h2, ?_, h4⟩
    intro i hi
    obtain ⟨a, e1⟩ := operand_some h _ i v hi rfl
    obtain ⟨b, e2⟩ := operand_some h _ i w (hn ▸ hi) rfl
    have := h3 i hi
    simp only [e1, e2] at this
    simp [Expr.at, e1, e2, this.1, hc]
  · obtain ⟨h', h1, h2, h3, h4⟩ := loop_same h v (h v).length (fun i h => do
        let a ← (h v)[i]?
        let b ← term h s w i
        return a - b) (fun i => ((h v)[i]?).getD 0 - c * ((h w)[i]?).getD 0) rfl (fun i h => do
        let a ← (h v)[i]?
        let b ← term h s w i
        setElem h v i (a - b)) (by
        intro i h'
        cases e : (h' v)[i]? <;> cases e' : term h' s w i <;> simp) (by
        intro i h' hi hw hl hv
        obtain ⟨a, e1⟩ := operand_some h _ i v hi rfl
        obtain ⟨b, e2⟩ := operand_some h _ i w hi hn.symm
        simp [term, operand h h' v _ i v hi rfl hw (fun _ => hv), operand h h' v _ i w hi hn.symm hw (fun _ => hv), e1, e2,
          read_same hfr hw hsm, hc])
    refine ⟨h', h1, h2, ?_, h4⟩
    intro i hi
    obtain ⟨a, e1⟩ := operand_some h _ i v hi rfl
    obtain ⟨b, e2⟩ := operand_some h _ i w (hn ▸ hi) rfl
    have := h3 i hi
    simp only [e1, e2] at this
    simp [Expr.at, e1, e2, this.1, hc]

/-- **C73** `v *= s` and `v /= s`, where `s` is not an element of `v`. -/
theorem mulAssign_spec {F : Type} [Field F] (h : Heap F) (v : Nat) (s : Scal F) (c : F) (hc : s.read h = some c)
    (hs : ∀ i, s ≠ .elem v i) :
    (∃ h', mulAssign h v s = some h' ∧ h' v = (h v).map (· * c) ∧ ∀ w, w ≠ v → h' w = h w) ∧
    ∃ h', divAssign h v s = some h' ∧ h' v = (h v).map (· / c) ∧ ∀ w, w ≠ v → h' w = h w := by
  have hfr : Free v (.mul s (.vec v) : Expr F) := by
    intro i hi
    simp only [Expr.scals, List.mem_cons, List.not_mem_nil, or_false] at hi
    exact hs i hi.symm
  have hsm : s ∈ (Expr.mul s (.vec v) : Expr F).scals := by simp [Expr.scals]
  constructor
  · obtain ⟨h', h1, h2, h3, h4⟩ := loop_same h v (h v).length (fun i h => do
        let a ← (h v)[i]?
        let b ← s.read h
        return a * b) (fun i => ((h v)[i]?).getD 0 * c) rfl (fun i h => do
        let a ← (h v)[i]?
        let b ← s.read h
        setElem h v i (a * b)) (by
        intro i h'
        cases e : (h' v)[i]? <;> cases e' : s.read h' <;> simp) (by
        intro i h' hi hw hl hv
        obtain ⟨a, e1⟩ := operand_some h _ i v hi rfl
        simp [operand h h' v _ i v hi rfl hw (fun _ => hv), e1, read_same hfr hw hsm, hc])
    refine ⟨h', h1, ?_, h4⟩
    apply List.ext_getElem?
    intro i
    by_cases hi : i < (h v).length
    · rw [(h3 i hi).1]
      simp [List.getElem?_eq_getElem hi]
    · rw [List.getElem?_eq_none (by omega), List.getElem?_eq_none (by simp; omega)]
  · obtain ⟨h', h1, h2, h3, h4⟩ := loop_same h v (h v).length (fun i h => do
        let a ← (h v)[i]?
        let b ← s.read h
        return a / b) (fun i => ((h v)[i]?).getD 0 / c) rfl (fun i h => do
        let a ← (h v)[i]?
        let b ← s.read h
        setElem h v i (a / b)) (by
        intro i h'
        cases e : (h' v)[i]? <;> cases e' : s.read h' <;> simp) (by
        intro i h' hi hw hl hv
        obtain ⟨a, e1⟩ := operand_some h _ i v hi rfl
        simp [operand h h' v _ i v hi rfl hw (fun _ => hv), e1, read_same hfr hw hsm, hc])
    refine ⟨h', h1, ?_, h4⟩
    apply List.ext_getElem?
    intro i
    by_cases hi : i < (h v).length
    · rw [(h3 i hi).1]
      simp [List.getElem?_eq_getElem hi]
    · rw [List.getElem?_eq_none (by omega), List.getElem?_eq_none (by simp; omega)]

/-- **C73** Dividing a vector by its own first element divides only that one; multiplying by it, or assigning the product
of it and another vector, is wrong too. -/
theorem alias_fails :
    (∃ h', divAssign (fun _ => [2, 4, 6] : Heap ℚ) 0 (.elem 0 0) = some h' ∧ h' 0 = [1, 4, 6]) ∧
    (∃ h', mulAssign (fun _ => [2, 4, 6] : Heap ℚ) 0 (.elem 0 0) = some h' ∧ h' 0 = [4, 16, 24]) ∧
    (∃ h', assign mem3 1 (.mul (.elem 1 1) (.vec 0)) = some h' ∧ h' 1 = [2, 4, 12]) := by
  refine ⟨⟨_, rfl, ?_⟩, ⟨_, rfl, ?_⟩, ⟨_, rfl, ?_⟩⟩ <;> decide +kernel

/-- **C73** Sizes are not checked: a shorter operand is read out of range, the rest of a longer one is dropped, and `+=`
changes only as many elements as there are. -/
theorem sizes_fails :
    assign (fun x => if x = 0 then [1, 2] else [5] : Heap ℚ) 2 (.add (.vec 0) (.vec 1)) = none ∧
    (∃ h', assign (fun x => if x = 0 then [1, 2] else [5] : Heap ℚ) 2 (.add (.vec 1) (.vec 0)) = some h' ∧ h' 2 = [6]) ∧
    (∃ h', addAssign (fun x => if x = 0 then [1, 2] else [5] : Heap ℚ) 0 1 = some h' ∧ h' 0 = [6, 2]) ∧
    addAssign (fun x => if x = 0 then [1, 2] else [5] : Heap ℚ) 1 0 = none := by
  refine ⟨rfl, ⟨_, rfl, by decide +kernel⟩, ⟨_, rfl, by decide +kernel⟩, rfl⟩

example := assign_spec mem3 0 3 (.add (.mul (.elem 1 0) (.vec 0)) (.vec 1)) (.mulAdd _ _ _)
  (by intro x hx; simp [Expr.vecs] at hx; rcases hx with rfl | rfl <;> rfl)
  (by intro s hs; simp [Expr.scals] at hs; subst hs; exact ⟨10, rfl⟩) (by intro i h; simp [Expr.scals] at h)
example := addAssign_spec mem3 0 1 rfl
example := addMulAssign_spec mem3 0 1 (.elem 1 2) 30 rfl (by intro i h; cases h) rfl
example := mulAssign_spec mem3 0 (.elem 1 2) 30 rfl (by intro i h; cases h)

end Verif.Vec
