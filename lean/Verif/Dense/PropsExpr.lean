import Verif.Dense.ModelExpr
import Verif.Dense.Props
import Verif.Vec.Props
import Mathlib.LinearAlgebra.Matrix.Trace
import Mathlib.Analysis.RCLike.Basic

/-!
# C99: expressions with matrices
-/

namespace Verif.Dense

open Verif.Loop Verif.Vec

variable {R : Type}

/-! ## Specification -/

/-- The value of an expression, as a matrix of Mathlib. -/
inductive MExpr.Value [CommRing R] (m : Mem R) : MExpr R → (r c : Nat) → Matrix (Fin r) (Fin c) R → Prop
  | mat {x r c A} : Represents (m.mat x) r c A → Value m (.mat x) r c A
  | mul {s e a r c A} : s.read m.data = some a → Value m e r c A → Value m (.mul s e) r c (a • A)
  | mulR {s e a r c A} : s.read m.data = some a → Value m e r c A → Value m (.mulR e s) r c (a • A)
  | prod {e f r n c A B} : Value m e r n A → Value m f n c B → Value m (.prod e f) r c (A * B)
  | add {e f r c A B} : Value m e r c A → Value m f r c B → Value m (.add e f) r c (A + B)
  | sub {e f r c A B} : Value m e r c A → Value m f r c B → Value m (.sub e f) r c (A - B)

/-- The expressions that can be assigned. -/
inductive MSupported : MExpr R → Prop
  | mat y : MSupported (.mat y)
  | mul a y : MSupported (.mul a (.mat y))
  | mulR y a : MSupported (.mulR (.mat y) a)
  | mulProd a y z : MSupported (.prod (.mul a (.mat y)) (.mat z))
  | mulAdd a y z : MSupported (.mul a (.add (.mat y) (.mat z)))
  | mulSub a y z : MSupported (.mul a (.sub (.mat y) (.mat z)))
  | add y z : MSupported (.add (.mat y) (.mat z))
  | sub y z : MSupported (.sub (.mat y) (.mat z))
  | addMul y a z : MSupported (.add (.mat y) (.mul a (.mat z)))
  | mulAddR a y z : MSupported (.add (.mul a (.mat y)) (.mat z))
  | prod y z : MSupported (.prod (.mat y) (.mat z))

/-- The scalars of an expression. -/
def MExpr.scals : MExpr R → List (Scal R)
  | .mat _ => []
  | .mul a e => a :: e.scals
  | .mulR e a => a :: e.scals
  | .prod e f => e.scals ++ f.scals
  | .add e f => e.scals ++ f.scals
  | .sub e f => e.scals ++ f.scals

/-- The matrix `x` now is `A`, and all other matrices are as they were. -/
def Mem.Becomes (m m' : Mem R) (x r c : Nat) (A : Matrix (Fin r) (Fin c) R) : Prop :=
  Represents (m'.mat x) r c A ∧ ∀ y, y ≠ x → m'.mat y = m.mat y

/-! ## Lemmas -/

theorem put_becomes (m : Mem R) (x r c : Nat) (A : Matrix (Fin r) (Fin c) R) (a : Mat R) (h : Represents a r c A) :
    m.Becomes (m.put x a) x r c A := by
  constructor
  · have : (m.put x a).mat x = a := by simp [Mem.mat, Mem.put, Mem.shape]
    rw [this]; exact h
  · intro y hy
    simp [Mem.mat, Mem.put, Mem.shape, Function.update_of_ne hy]

theorem linear_becomes [CommRing R] (m : Mem R) (x r c : Nat) (A : Matrix (Fin r) (Fin c) R) (e : Vec.Expr R) (hs : Supported e)
    (hv : ∀ y ∈ e.vecs, (m.data y).length = r * c) (ha : ∀ s ∈ e.scals, ∃ a, s.read m.data = some a) (hf : Free x e)
    (hA : ∀ (i : Fin r) (j : Fin c), e.at m.data (i.1 + j.1 * r) = some (A i j)) :
    ∃ d, Vec.assign m.data x e = some d ∧ m.Becomes { m.shape x r c with data := d } x r c A := by
  obtain ⟨d, h1, h2, h3, h4⟩ := assign_spec m.data x (r * c) e hs hv ha hf
  refine ⟨d, h1, ?_, ?_⟩
  · refine Represents.of_data ⟨by simp [Mem.mat, Mem.shape], by simp [Mem.mat, Mem.shape], h2⟩ fun i j => ?_
    show (d x)[i.1 + j.1 * r]? = _
    rw [(h3 _ (idx_lt i.2 j.2)).1]
    exact hA i j
  · intro y hy
    simp [Mem.mat, Mem.shape, Function.update_of_ne hy, h4 y hy]

theorem free_of {x : Nat} {me : MExpr R} {e : Vec.Expr R} (h : ∀ i, Scal.elem x i ∉ me.scals) (hs : ∀ s ∈ e.scals, s ∈ me.scals) :
    Free x e := fun i hi => h i (hs _ hi)

theorem shape_same (m : Mem R) (x r c : Nat) {y : Nat} (h : m.nrow y = r) : (m.shape x r c).nrow y = r := by
  by_cases e : y = x
  · subst e; simp [Mem.shape]
  · simp [Mem.shape, Function.update_of_ne e, h]

theorem shape_same' (m : Mem R) (x r c : Nat) {y : Nat} (h : m.ncol y = c) : (m.shape x r c).ncol y = c := by
  by_cases e : y = x
  · subst e; simp [Mem.shape]
  · simp [Mem.shape, Function.update_of_ne e, h]

/-! ## Theorems -/

/-- **C99** `x = e` makes `x` the value of the expression, of the right shape, also if `x` is one of the operands and whatever `x` held
before, and no other matrix changes.  No scalar is an element of `x`, except for products of matrices. -/
theorem massign_spec [CommRing R] (m : Mem R) (x : Nat) (e : MExpr R) (r c : Nat) (A : Matrix (Fin r) (Fin c) R) (hs : MSupported e)
    (hv : e.Value m r c A) (hf : (∀ i, Scal.elem x i ∉ e.scals) ∨ ∃ a y z, e = .prod (.mul a (.mat y)) (.mat z)) :
    ∃ m', m.assign x e = some m' ∧ m.Becomes m' x r c A := by
  cases hs with
  | mat y =>
    cases hv with | mat h => exact ⟨_, rfl, put_becomes m x r c A _ h⟩
  | mul s y =>
    cases hv with | @mul _ _ a _ _ A ha h => cases h with | mat h =>
    have hf := hf.resolve_right (by simp)
    obtain ⟨d, h1, h2⟩ := linear_becomes m x r c _ (.mul s (.vec y)) (.mul _ _)
      (by simp only [Vec.Expr.vecs, List.cons_append, List.nil_append, List.mem_cons, List.not_mem_nil, or_false, forall_eq_or_imp, forall_eq]; exact h.size)
      (by simp only [Vec.Expr.scals, List.cons_append, List.nil_append, List.append_nil, List.mem_cons, List.not_mem_nil, or_false, forall_eq, false_imp_iff, implies_true]; exact ⟨_, ha⟩)
      (free_of hf (by simp [Vec.Expr.scals, MExpr.scals])) (fun i j => show _ = some ((a • A) i j) by
        have e0 : (m.data y)[i.1 + j.1 * r]? = _ := h.data i j
        simp [Vec.Expr.at, ha, e0])
    refine ⟨_, ?_, h2⟩
    have hr : m.nrow y = r := h.nrow
    have hc : m.ncol y = c := h.ncol
    simp only [Mem.assign, hr, hc]
    rw [show (m.shape x r c).data = m.data from rfl, h1]
    rfl
  | mulR y s =>
    cases hv with | @mulR _ _ a _ _ A ha h => cases h with | mat h =>
    have hf := hf.resolve_right (by simp)
    obtain ⟨d, h1, h2⟩ := linear_becomes m x r c _ (.mul s (.vec y)) (.mul _ _)
      (by simp only [Vec.Expr.vecs, List.cons_append, List.nil_append, List.mem_cons, List.not_mem_nil, or_false, forall_eq_or_imp, forall_eq]; exact h.size)
      (by simp only [Vec.Expr.scals, List.cons_append, List.nil_append, List.append_nil, List.mem_cons, List.not_mem_nil, or_false, forall_eq, false_imp_iff, implies_true]; exact ⟨_, ha⟩)
      (free_of hf (by simp [Vec.Expr.scals, MExpr.scals])) (fun i j => show _ = some ((a • A) i j) by
        have e0 : (m.data y)[i.1 + j.1 * r]? = _ := h.data i j
        simp [Vec.Expr.at, ha, e0])
    refine ⟨_, ?_, h2⟩
    have hr : m.nrow y = r := h.nrow
    have hc : m.ncol y = c := h.ncol
    simp only [Mem.assign, hr, hc]
    rw [show (m.shape x r c).data = m.data from rfl, h1]
    rfl
  | mulProd s y z =>
    cases hv with | @prod _ _ _ n _ A B h h' => cases h with | @mul _ _ a _ _ A ha h => cases h with | mat h => cases h' with | mat h' =>
    obtain ⟨p, h1, h2⟩ := matrixMatrix_rep h h' a
    refine ⟨m.put x p, ?_, put_becomes m x r c _ p (by rw [Matrix.smul_mul]; exact h2)⟩
    simp [Mem.assign, ha, h1]
  | mulAdd s y z =>
    cases hv with | @mul _ _ a _ _ _ ha h => cases h with | @add _ _ _ _ A B h h' => cases h with | mat h => cases h' with | mat h' =>
    have hf := hf.resolve_right (by simp)
    obtain ⟨d, h1, h2⟩ := linear_becomes m x r c _ (.mul s (.add (.vec y) (.vec z))) (.mulOfAdd _ _ _)
      (by simp only [Vec.Expr.vecs, List.cons_append, List.nil_append, List.mem_cons, List.not_mem_nil, or_false, forall_eq_or_imp, forall_eq]; exact ⟨h.size, h'.size⟩)
      (by simp only [Vec.Expr.scals, List.cons_append, List.nil_append, List.append_nil, List.mem_cons, List.not_mem_nil, or_false, forall_eq, false_imp_iff, implies_true]; exact ⟨_, ha⟩)
      (free_of hf (by simp [Vec.Expr.scals, MExpr.scals])) (fun i j => show _ = some ((a • (A + B)) i j) by
        have e0 : (m.data y)[i.1 + j.1 * r]? = _ := h.data i j; have e1 : (m.data z)[i.1 + j.1 * r]? = _ := h'.data i j
        simp [Vec.Expr.at, ha, e0, e1])
    refine ⟨_, ?_, h2⟩
    have hr : m.nrow y = r := h.nrow
    have hc : m.ncol y = c := h.ncol
    have hr' : (m.shape x r c).nrow z = r := shape_same _ _ _ _ h'.nrow
    have hc' : (m.shape x r c).ncol z = c := shape_same' _ _ _ _ h'.ncol
    have hx : (m.shape x r c).nrow x = r := by simp [Mem.shape]
    have hx' : (m.shape x r c).ncol x = c := by simp [Mem.shape]
    simp only [Mem.assign, hr, hc, hr', hc', hx, hx', ne_eq, not_true_eq_false, or_self, if_false]
    rw [show (m.shape x r c).data = m.data from rfl, h1]
    rfl
  | mulSub s y z =>
    cases hv with | @mul _ _ a _ _ _ ha h => cases h with | @sub _ _ _ _ A B h h' => cases h with | mat h => cases h' with | mat h' =>
    have hf := hf.resolve_right (by simp)
    obtain ⟨d, h1, h2⟩ := linear_becomes m x r c _ (.mul s (.sub (.vec y) (.vec z))) (.mulOfSub _ _ _)
      (by simp only [Vec.Expr.vecs, List.cons_append, List.nil_append, List.mem_cons, List.not_mem_nil, or_false, forall_eq_or_imp, forall_eq]; exact ⟨h.size, h'.size⟩)
      (by simp only [Vec.Expr.scals, List.cons_append, List.nil_append, List.append_nil, List.mem_cons, List.not_mem_nil, or_false, forall_eq, false_imp_iff, implies_true]; exact ⟨_, ha⟩)
      (free_of hf (by simp [Vec.Expr.scals, MExpr.scals])) (fun i j => show _ = some ((a • (A - B)) i j) by
        have e0 : (m.data y)[i.1 + j.1 * r]? = _ := h.data i j; have e1 : (m.data z)[i.1 + j.1 * r]? = _ := h'.data i j
        simp [Vec.Expr.at, ha, e0, e1])
    refine ⟨_, ?_, h2⟩
    have hr : m.nrow y = r := h.nrow
    have hc : m.ncol y = c := h.ncol
    have hr' : (m.shape x r c).nrow z = r := shape_same _ _ _ _ h'.nrow
    have hc' : (m.shape x r c).ncol z = c := shape_same' _ _ _ _ h'.ncol
    have hx : (m.shape x r c).nrow x = r := by simp [Mem.shape]
    have hx' : (m.shape x r c).ncol x = c := by simp [Mem.shape]
    simp only [Mem.assign, hr, hc, hr', hc', hx, hx', ne_eq, not_true_eq_false, or_self, if_false]
    rw [show (m.shape x r c).data = m.data from rfl, h1]
    rfl
  | add y z =>
    cases hv with | @add _ _ _ _ A B h h' => cases h with | mat h => cases h' with | mat h' =>
    have hf := hf.resolve_right (by simp)
    obtain ⟨d, h1, h2⟩ := linear_becomes m x r c _ (.add (.vec y) (.vec z)) (.add _ _)
      (by simp only [Vec.Expr.vecs, List.cons_append, List.nil_append, List.mem_cons, List.not_mem_nil, or_false, forall_eq_or_imp, forall_eq]; exact ⟨h.size, h'.size⟩)
      (by simp only [Vec.Expr.scals, List.cons_append, List.nil_append, List.append_nil, List.mem_cons, List.not_mem_nil, or_false, forall_eq, false_imp_iff, implies_true])
      (free_of hf (by simp [Vec.Expr.scals, MExpr.scals])) (fun i j => show _ = some ((A + B) i j) by
        have e0 : (m.data y)[i.1 + j.1 * r]? = _ := h.data i j; have e1 : (m.data z)[i.1 + j.1 * r]? = _ := h'.data i j
        simp [Vec.Expr.at, e0, e1])
    refine ⟨_, ?_, h2⟩
    have hr : m.nrow y = r := h.nrow
    have hc : m.ncol y = c := h.ncol
    have hr' : (m.shape x r c).nrow z = r := shape_same _ _ _ _ h'.nrow
    have hc' : (m.shape x r c).ncol z = c := shape_same' _ _ _ _ h'.ncol
    have hx : (m.shape x r c).nrow x = r := by simp [Mem.shape]
    have hx' : (m.shape x r c).ncol x = c := by simp [Mem.shape]
    simp only [Mem.assign, hr, hc, hr', hc', hx, hx', ne_eq, not_true_eq_false, or_self, if_false]
    rw [show (m.shape x r c).data = m.data from rfl, h1]
    rfl
  | sub y z =>
    cases hv with | @sub _ _ _ _ A B h h' => cases h with | mat h => cases h' with | mat h' =>
    have hf := hf.resolve_right (by simp)
    obtain ⟨d, h1, h2⟩ := linear_becomes m x r c _ (.sub (.vec y) (.vec z)) (.sub _ _)
      (by simp only [Vec.Expr.vecs, List.cons_append, List.nil_append, List.mem_cons, List.not_mem_nil, or_false, forall_eq_or_imp, forall_eq]; exact ⟨h.size, h'.size⟩)
      (by simp only [Vec.Expr.scals, List.cons_append, List.nil_append, List.append_nil, List.mem_cons, List.not_mem_nil, or_false, forall_eq, false_imp_iff, implies_true])
      (free_of hf (by simp [Vec.Expr.scals, MExpr.scals])) (fun i j => show _ = some ((A - B) i j) by
        have e0 : (m.data y)[i.1 + j.1 * r]? = _ := h.data i j; have e1 : (m.data z)[i.1 + j.1 * r]? = _ := h'.data i j
        simp [Vec.Expr.at, e0, e1])
    refine ⟨_, ?_, h2⟩
    have hr : m.nrow y = r := h.nrow
    have hc : m.ncol y = c := h.ncol
    have hr' : (m.shape x r c).nrow z = r := shape_same _ _ _ _ h'.nrow
    have hc' : (m.shape x r c).ncol z = c := shape_same' _ _ _ _ h'.ncol
    have hx : (m.shape x r c).nrow x = r := by simp [Mem.shape]
    have hx' : (m.shape x r c).ncol x = c := by simp [Mem.shape]
    simp only [Mem.assign, hr, hc, hr', hc', hx, hx', ne_eq, not_true_eq_false, or_self, if_false]
    rw [show (m.shape x r c).data = m.data from rfl, h1]
    rfl
  | addMul y s z =>
    cases hv with | @add _ _ _ _ A B h h' => cases h with | mat h => cases h' with | @mul _ _ a _ _ B ha h' => cases h' with | mat h' =>
    have hf := hf.resolve_right (by simp)
    obtain ⟨d, h1, h2⟩ := linear_becomes m x r c _ (.add (.vec y) (.mul s (.vec z))) (.addMul _ _ _)
      (by simp only [Vec.Expr.vecs, List.cons_append, List.nil_append, List.mem_cons, List.not_mem_nil, or_false, forall_eq_or_imp, forall_eq]; exact ⟨h.size, h'.size⟩)
      (by simp only [Vec.Expr.scals, List.cons_append, List.nil_append, List.append_nil, List.mem_cons, List.not_mem_nil, or_false, forall_eq, false_imp_iff, implies_true]; exact ⟨_, ha⟩)
      (free_of hf (by simp [Vec.Expr.scals, MExpr.scals])) (fun i j => show _ = some ((A + a • B) i j) by
        have e0 : (m.data y)[i.1 + j.1 * r]? = _ := h.data i j; have e1 : (m.data z)[i.1 + j.1 * r]? = _ := h'.data i j
        simp [Vec.Expr.at, ha, e0, e1])
    refine ⟨_, ?_, h2⟩
    have hr : m.nrow y = r := h.nrow
    have hc : m.ncol y = c := h.ncol
    have hr' : (m.shape x r c).nrow z = r := shape_same _ _ _ _ h'.nrow
    have hc' : (m.shape x r c).ncol z = c := shape_same' _ _ _ _ h'.ncol
    have hx : (m.shape x r c).nrow x = r := by simp [Mem.shape]
    have hx' : (m.shape x r c).ncol x = c := by simp [Mem.shape]
    simp only [Mem.assign, hr, hc, hr', hc', hx, hx', ne_eq, not_true_eq_false, or_self, if_false]
    rw [show (m.shape x r c).data = m.data from rfl, h1]
    rfl
  | mulAddR s y z =>
    cases hv with | @add _ _ _ _ A B h h' => cases h' with | mat h' => cases h with | @mul _ _ a _ _ A ha h => cases h with | mat h =>
    have hf := hf.resolve_right (by simp)
    obtain ⟨d, h1, h2⟩ := linear_becomes m x r c _ (.add (.vec z) (.mul s (.vec y))) (.addMul _ _ _)
      (by simp only [Vec.Expr.vecs, List.cons_append, List.nil_append, List.mem_cons, List.not_mem_nil, or_false, forall_eq_or_imp, forall_eq]; exact ⟨h'.size, h.size⟩)
      (by simp only [Vec.Expr.scals, List.cons_append, List.nil_append, List.append_nil, List.mem_cons, List.not_mem_nil, or_false, forall_eq, false_imp_iff, implies_true]; exact ⟨_, ha⟩)
      (free_of hf (by simp [Vec.Expr.scals, MExpr.scals])) (fun i j => show _ = some ((a • A + B) i j) by
        have e0 : (m.data z)[i.1 + j.1 * r]? = _ := h'.data i j; have e1 : (m.data y)[i.1 + j.1 * r]? = _ := h.data i j
        simp [Vec.Expr.at, ha, e0, e1, add_comm])
    refine ⟨_, ?_, h2⟩
    have hr : m.nrow z = r := h'.nrow
    have hc : m.ncol z = c := h'.ncol
    have hr' : (m.shape x r c).nrow y = r := shape_same _ _ _ _ h.nrow
    have hc' : (m.shape x r c).ncol y = c := shape_same' _ _ _ _ h.ncol
    have hx : (m.shape x r c).nrow x = r := by simp [Mem.shape]
    have hx' : (m.shape x r c).ncol x = c := by simp [Mem.shape]
    simp only [Mem.assign, hr, hc, hr', hc', hx, hx', ne_eq, not_true_eq_false, or_self, if_false]
    rw [show (m.shape x r c).data = m.data from rfl, h1]
    rfl
  | prod y z =>
    cases hv with | @prod _ _ _ n _ A B h h' => cases h with | mat h => cases h' with | mat h' =>
    obtain ⟨p, h1, h2⟩ := matrixMatrix_rep h h' 1
    refine ⟨m.put x p, ?_, put_becomes m x r c _ p (by rw [one_smul] at h2; exact h2)⟩
    simp [Mem.assign, h1]

theorem addMul_data [CommRing R] (m : Mem R) (d : Heap R) (x y r c : Nat) (s : Scal R) (a : R) (A B : Matrix (Fin r) (Fin c) R)
    (ha : s.read d = some a) (hs : ∀ i, s ≠ .elem x i) (hd : ∀ w, w ≠ x → d w = m.data w) (hx : Represents ⟨r, c, d x⟩ r c A)
    (hy : Represents ⟨r, c, d y⟩ r c B) :
    ∃ d', Vec.addMulAssign d x s y = some d' ∧ m.Becomes { m.shape x r c with data := d' } x r c (A + a • B) := by
  have hl : (d x).length = (d y).length := hx.size.trans hy.size.symm
  obtain ⟨⟨d', h1, h2, h3, h4⟩, -⟩ := addMulAssign_spec d x y s a ha hs hl
  refine ⟨d', h1, ?_, ?_⟩
  · refine Represents.of_data ⟨by simp [Mem.mat, Mem.shape], by simp [Mem.mat, Mem.shape], h2.trans hx.size⟩ fun i j => ?_
    show (d' x)[i.1 + j.1 * r]? = _
    have hlt : i.1 + j.1 * r < (d x).length := by rw [hx.size]; exact idx_lt i.2 j.2
    rw [(h3 _ hlt).1]
    have e1 : (d x)[i.1 + j.1 * r]? = _ := hx.data i j
    have e2 : (d y)[i.1 + j.1 * r]? = _ := hy.data i j
    simp [Vec.Expr.at, ha, e1, e2]
  · intro w hw
    simp [Mem.mat, Mem.shape, Function.update_of_ne hw, h4 w hw, hd w hw]

/-- **C99** `x += a * y` adds, for matrices of the same shape, also if `y` is `x`, and an `x` without elements becomes `a * y`.  No
other matrix changes. -/
theorem addMul_spec [CommRing R] (m : Mem R) (x y r c : Nat) (s : Scal R) (a : R) (B : Matrix (Fin r) (Fin c) R)
    (ha : s.read m.data = some a) (hs : ∀ i, s ≠ .elem x i) (hy : Represents (m.mat y) r c B) :
    (∀ A : Matrix (Fin r) (Fin c) R, Represents (m.mat x) r c A →
      ∃ m', m.addMul x s y = some (.fine m') ∧ m.Becomes m' x r c (A + a • B)) ∧
    (m.data x = [] → ∃ m', m.addMul x s y = some (.fine m') ∧ m.Becomes m' x r c (a • B)) := by
  have hr : m.nrow y = r := hy.nrow
  have hc : m.ncol y = c := hy.ncol
  have hyl : (m.data y).length = r * c := hy.size
  have hy' : Represents ⟨r, c, m.data y⟩ r c B := by
    have : m.mat y = ⟨r, c, m.data y⟩ := by simp [Mem.mat, hr, hc]
    rwa [this] at hy
  have hempty : m.data x = [] → ∃ m', m.addMul x s y = some (.fine m') ∧ m.Becomes m' x r c (a • B) := by
    intro he
    have hz : Represents ⟨r, c, List.replicate (r * c) (0 : R)⟩ r c 0 := mk0_rep r c
    obtain ⟨d', h1, h2⟩ := addMul_data m (Function.update m.data x (List.replicate (r * c) 0)) x y r c s a 0 B (by
        cases s with
        | num b => exact ha
        | elem v k =>
          have : v ≠ x := fun e => hs k (by rw [e])
          simpa [Scal.read, Function.update_of_ne this] using ha) hs (fun w hw => Function.update_of_ne hw _ _)
        (by rw [Function.update_self]; exact hz) (by
        by_cases e : y = x
        · subst e
          have h0 : r * c = 0 := by rw [← hyl, he]; rfl
          rw [Function.update_self]
          rw [he] at hy'
          rw [h0]
          exact hy'
        · rw [Function.update_of_ne e]; exact hy')
    rw [zero_add] at h2
    refine ⟨_, ?_, h2⟩
    simp only [Mem.addMul, hr, hc]
    rw [show (m.shape x r c).data = m.data from rfl, if_neg (by rw [he]; simp), if_pos (by rw [he]; rfl), hyl, he]
    have e2 : resizeL ([] : List R) (r * c) 0 = List.replicate (r * c) 0 := by simp [resizeL]
    rw [e2, h1]
    rfl
  refine ⟨fun A hx => ?_, hempty⟩
  have hx' : Represents ⟨r, c, m.data x⟩ r c A := by
    have e1 : m.nrow x = r := hx.nrow
    have e2 : m.ncol x = c := hx.ncol
    have : m.mat x = ⟨r, c, m.data x⟩ := by simp [Mem.mat, e1, e2]
    rwa [this] at hx
  by_cases h0 : m.data x = []
  · obtain ⟨m', h1, h2⟩ := hempty h0
    refine ⟨m', h1, ?_⟩
    have hrc : r * c = 0 := by rw [← hx'.size]; simp [h0]
    have : A = 0 := by
      funext i j
      have := idx_lt i.2 j.2
      omega
    rw [this, zero_add]
    exact h2
  · obtain ⟨d', h1, h2⟩ := addMul_data m m.data x y r c s a A B ha hs (fun _ _ => rfl) hx' hy'
    refine ⟨_, ?_, h2⟩
    have hl : (m.data y).length = (m.data x).length := hyl.trans hx'.size.symm
    simp only [Mem.addMul, hr, hc]
    rw [show (m.shape x r c).data = m.data from rfl, if_neg (by simp [hl]), if_neg (by simpa using h0), h1]
    rfl

/-- **C99** Matrices with other numbers of elements make `+=` throw. -/
theorem addMul_throws [CommRing R] (m : Mem R) (x y : Nat) (s : Scal R) (h : m.data x ≠ []) (h' : (m.data y).length ≠ (m.data x).length) :
    ∃ m', m.addMul x s y = some (.threw m') ∧ m'.data = m.data := by
  refine ⟨_, if_pos ⟨List.length_pos_iff.2 h, h'⟩, rfl⟩

/-- Three matrices: of one row, of one column, and of two rows and two columns. -/
def mem3 : Mem ℚ where
  nrow x := if x = 0 then 1 else 2
  ncol x := if x = 1 then 1 else 2
  data x := if x = 2 then [1, 2, 3, 4] else [5, 6]

/-- Shapes are not always looked at: `+=` adds a column to a row and changes the shape, an exception leaves a matrix whose shape and
elements do not go together, and sums multiplied by a number, and sums assigned to the second operand, take matrices of other
shapes. -/
theorem shapes_fails :
    (∃ m', mem3.addMul 0 (.num 1) 1 = some (.fine m') ∧ m'.mat 0 = ⟨2, 1, [10, 12]⟩) ∧
    (∃ m', mem3.addMul 0 (.num 1) 2 = some (.threw m') ∧ m'.mat 0 = ⟨2, 2, [5, 6]⟩) ∧
    (∃ m', mem3.assign 3 (.mul (.num 1) (.add (.mat 0) (.mat 1))) = some m' ∧ m'.mat 3 = ⟨1, 2, [10, 12]⟩) ∧
    mem3.assign 3 (.add (.mat 0) (.mat 1)) = none ∧
    ∃ m', mem3.assign 1 (.add (.mat 0) (.mat 1)) = some m' ∧ m'.mat 1 = ⟨1, 2, [10, 12]⟩ := by
  refine ⟨⟨_, rfl, ?_⟩, ⟨_, rfl, ?_⟩, ⟨_, rfl, ?_⟩, ?_, ⟨_, rfl, ?_⟩⟩ <;> decide +kernel

/-- An element of the matrix as the scalar is read again after it was changed: `x = x(1, 0) * x` and `x = x(1, 0) * x * x`, of which
the second is right. -/
theorem malias_fails :
    (∃ m', mem3.assign 2 (.mul (.elem 2 1) (.mat 2)) = some m' ∧ m'.data 2 = [2, 4, 12, 16]) ∧
    ∃ m', mem3.assign 2 (.prod (.mul (.elem 2 1) (.mat 2)) (.mat 2)) = some m' ∧ m'.data 2 = [14, 20, 30, 44] := by
  refine ⟨⟨_, rfl, ?_⟩, ⟨_, rfl, ?_⟩⟩ <;> decide +kernel

/-- **C99** The norm of a complex matrix is the trace of the product with its adjoint, a number that is not negative. -/
theorem norm2c_spec {r c : Nat} {A : Matrix (Fin r) (Fin c) ℂ} {m : Mat ℂ} (h : Represents m r c A) :
    ∃ s, norm2c m = some s ∧ (s : ℂ) = (A.conjTranspose * A).trace ∧ 0 ≤ s ∧ (s = 0 ↔ A = 0) := by
  have e := sum_double_loop r c (fun i j => (m.get i j).map fun x => (star x * x).re) (fun i j => Complex.normSq (A i j))
    (fun i j => by simp [h.entry, Complex.normSq_apply]) (0 : ℝ)
  have e' : norm2c m = some (∑ i, ∑ j, Complex.normSq (A i j)) := by
    unfold norm2c
    rw [h.nrow, h.ncol]
    rw [zero_add] at e
    rw [← e]
    congr 1; funext i s; congr 1; funext j s
    cases m.get i j <;> rfl
  have nn : ∀ i, 0 ≤ ∑ j, Complex.normSq (A i j) := fun i => Finset.sum_nonneg fun j _ => Complex.normSq_nonneg _
  refine ⟨_, e', ?_, Finset.sum_nonneg fun i _ => nn i, ?_⟩
  · push_cast
    rw [Finset.sum_comm]
    simp only [Matrix.trace, Matrix.diag, Matrix.mul_apply, Matrix.conjTranspose_apply]
    refine Finset.sum_congr rfl fun j _ => Finset.sum_congr rfl fun i _ => ?_
    rw [← Complex.mul_conj, mul_comm]
    rfl
  · rw [Finset.sum_eq_zero_iff_of_nonneg fun i _ => nn i]
    constructor
    · intro h0
      funext i j
      have := (Finset.sum_eq_zero_iff_of_nonneg fun j _ => Complex.normSq_nonneg (A i j)).1 (h0 i (Finset.mem_univ _)) j (Finset.mem_univ _)
      exact Complex.normSq_eq_zero.1 this
    · rintro rfl i -
      simp

example : ∃ m', mem3.assign 2 (.prod (.mat 2) (.mat 2)) = some m' ∧ mem3.Becomes m' 2 2 2 (!![1, 3; 2, 4] * !![1, 3; 2, 4]) := by
  have : Represents (mem3.mat 2) 2 2 !![1, 3; 2, 4] := ⟨rfl, rfl, rfl, by decide +kernel⟩
  exact massign_spec mem3 2 _ 2 2 _ (.prod 2 2) (.prod (.mat this) (.mat this)) (.inl (by simp [MExpr.scals]))

example := addMul_spec mem3 2 2 2 2 (.elem 0 1) 6 !![1, 3; 2, 4] rfl (by intro i h; cases h) ⟨rfl, rfl, rfl, by decide +kernel⟩
example := addMul_throws mem3 2 0 (.num 3) (by decide) (by decide)
example := norm2c_spec (⟨rfl, rfl, rfl, by intro i j; fin_cases i <;> fin_cases j <;> rfl⟩ :
  Represents (⟨2, 2, [1, Complex.I, 3, 4]⟩ : Mat ℂ) 2 2 !![1, 3; Complex.I, 4])

end Verif.Dense
