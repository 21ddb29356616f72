import Verif.Ast.ModelTree
import Verif.Ast.Props
import Mathlib.Tactic.IntervalCases

/-!
# C123: setting the inputs of a tree
-/

namespace Verif.Ast

/-- The value of a tree as an expression in its inputs: input number `i` is `x i`. -/
inductive Denotes {V : Type} (o : Ops V) (x : Nat → Option V) : Tree → V → Prop
  | input (i id : Nat) (v : V) : x i = some v → Denotes o x (.node (.input i id) []) v
  | op (c : String) (ds : List Tree) (vs : List V) (v : V) : 0 < operands c → ds.length = vs.length →
      (∀ k (h : k < ds.length) (h' : k < vs.length), Denotes o x ds[k] vs[k]) → Apply o c vs v → Denotes o x (.node (.op c) ds) v

/-- The node `n` occurs in a tree. -/
inductive Occurs (n : Nd) : Tree → Prop
  | here (ds : List Tree) : Occurs n (.node n ds)
  | inside (m : Nd) (ds : List Tree) (d : Tree) : d ∈ ds → Occurs n d → Occurs n (.node m ds)

/-- The tree is made of the operators of the library. -/
def Operators (t : Tree) : Prop := ∀ c, Occurs (.op c) t → 0 < operands c

theorem inputChar_digit (i : Nat) (h : i < 10) : inputChar i = i + 48 := by
  unfold inputChar
  interval_cases i <;> rfl

mutual
theorem exec_congr {V : Type} (o : Ops V) (s s' : Inputs V) : (t : Tree) → (∀ i id, Occurs (.input i id) t → s id = s' id) →
    t.exec o s = t.exec o s'
  | .node n ds, h => by
    have h1 := execAll_congr o s s' ds fun d hd i id ho => h i id (.inside _ _ d hd ho)
    rw [Tree.exec, Tree.exec, h1]
    congr 1
    funext vs
    cases n with
    | op c => rfl
    | input i id => simp only [Nd.exec]; rw [h i id (.here _)]
theorem execAll_congr {V : Type} (o : Ops V) (s s' : Inputs V) : (ds : List Tree) →
    (∀ d ∈ ds, ∀ i id, Occurs (.input i id) d → s id = s' id) → execAll o s ds = execAll o s' ds
  | [], _ => rfl
  | d :: ds, h => by
    rw [execAll, execAll, exec_congr o s s' d fun i id ho => h d (by simp) i id ho,
      execAll_congr o s s' ds fun e he => h e (by simp [he])]
end

mutual
/-- With inputs that hold the values `x`, the tree computes the expression. -/
theorem exec_denotes {V : Type} (o : Ops V) (x : Nat → Option V) (s : Inputs V) : (t : Tree) →
    (∀ i id, Occurs (.input i id) t → s id = x i) → (v : V) → (t.exec o s = some v ↔ Denotes o x t v)
  | .node n ds, h, v => by
    have h1 := execAll_denotes o x s ds fun d hd i id ho => h i id (.inside _ _ d hd ho)
    rw [Tree.exec, Option.bind_eq_some_iff]
    cases n with
    | op c =>
      simp only [Nd.exec]
      constructor
      · rintro ⟨vs, e1, e2⟩
        split at e2
        · cases e2
        · rename_i hc
          obtain ⟨hl, hv⟩ := (h1 vs).1 e1
          exact .op c ds vs v (by rw [← arity_eq]; omega) hl hv ((execNode_iff o c vs v).1 e2)
      · intro hd
        cases hd with
        | op _ _ vs _ hc hl hv ha =>
          refine ⟨vs, (h1 vs).2 ⟨hl, hv⟩, ?_⟩
          rw [if_neg (by rw [arity_eq]; omega)]
          exact (execNode_iff o c vs v).2 ha
    | input i id =>
      simp only [Nd.exec]
      constructor
      · rintro ⟨vs, e1, e2⟩
        split at e2
        · rename_i hvs
          subst hvs
          obtain ⟨hl, -⟩ := (h1 []).1 e1
          have : ds = [] := List.length_eq_zero_iff.1 hl
          subst this
          exact .input i id v (by rw [← h i id (.here _)]; exact e2)
        · cases e2
      · intro hd
        cases hd with
        | input _ _ _ hx => exact ⟨[], rfl, by rw [if_pos rfl, h i id (.here _)]; exact hx⟩
theorem execAll_denotes {V : Type} (o : Ops V) (x : Nat → Option V) (s : Inputs V) : (ds : List Tree) →
    (∀ d ∈ ds, ∀ i id, Occurs (.input i id) d → s id = x i) → (vs : List V) →
    (execAll o s ds = some vs ↔ ds.length = vs.length ∧ ∀ k (h : k < ds.length) (h' : k < vs.length), Denotes o x ds[k] vs[k])
  | [], _, vs => by
    rw [execAll]
    cases vs <;> simp
  | d :: ds, h, vs => by
    have h1 := exec_denotes o x s d fun i id ho => h d (by simp) i id ho
    have h2 := execAll_denotes o x s ds fun e he => h e (by simp [he])
    rw [execAll, Option.bind_eq_some_iff]
    constructor
    · rintro ⟨v, e1, e2⟩
      rw [Option.map_eq_some_iff] at e2
      obtain ⟨ws, e3, rfl⟩ := e2
      obtain ⟨hl, hv⟩ := (h2 ws).1 e3
      refine ⟨by simp [hl], fun k hk hk' => ?_⟩
      cases k with
      | zero => exact (h1 v).1 e1
      | succ k => exact hv k (by simpa using hk) (by simpa using hk')
    · rintro ⟨hl, hv⟩
      cases vs with
      | nil => simp at hl
      | cons v ws =>
        refine ⟨v, (h1 v).2 (hv 0 (by simp) (by simp)), ?_⟩
        rw [Option.map_eq_some_iff]
        refine ⟨ws, (h2 ws).2 ⟨by simpa using hl, fun k hk hk' => ?_⟩, rfl⟩
        exact hv (k + 1) (by simpa using hk) (by simpa using hk')
end

theorem op_set {V : Type} (values : List V) (s : Inputs V) (c : String) (h : 0 < operands c) : (Nd.op c).set values s = .ok s := by
  unfold operands at h
  split at h <;> first | rfl | omega

theorem input_set {V : Type} (values : List V) (s : Inputs V) (i id : Nat) (h : i < 10) (hv : i < values.length) :
    (Nd.input i id).set values s = .ok fun k => if k = id then some values[i] else s k := by
  simp only [Nd.set]
  rw [inputChar_digit i h, if_neg (by omega), show ((i : Int) + 48 - 48).toNat = i by omega, List.getElem?_eq_getElem hv]

/-- What has been set: the places of the inputs hold their values and the others are as before. -/
def SetTo {V : Type} (values : List V) (P : Nat → Nat → Prop) (s s' : Inputs V) : Prop :=
  (∀ i id, P i id → s' id = values[i]?) ∧ ∀ id, (∀ i, ¬ P i id) → s' id = s id

mutual
theorem set_spec {V : Type} (values : List V) : (t : Tree) → Operators t → (∀ i id, Occurs (.input i id) t → i < 10 ∧ i < values.length) →
    (∀ i j id, Occurs (.input i id) t → Occurs (.input j id) t → i = j) → (s : Inputs V) →
    ∃ s', t.set values s = .ok s' ∧ SetTo values (fun i id => Occurs (.input i id) t) s s'
  | .node n ds, ho, hi, hid, s => by
    obtain ⟨s1, e1, h1, h2⟩ := setAll_spec values ds (fun d hd c hc => ho c (.inside _ _ d hd hc)) (fun d hd i id h => hi i id (.inside _ _ d hd h))
      (fun d hd d' hd' i j id h h' => hid i j id (.inside _ _ d hd h) (.inside _ _ d' hd' h')) s
    rw [Tree.set, e1]
    simp only [Except.bind]
    cases n with
    | op c =>
      rw [op_set values s1 c (ho c (.here _))]
      refine ⟨s1, rfl, fun i id h => ?_, fun id h => h2 id fun d hd i hc => h i (.inside _ _ d hd hc)⟩
      cases h with
      | inside _ _ d hd h => exact h1 d hd i id h
    | input i id =>
      have hin := hi i id (.here _)
      rw [input_set values s1 i id hin.1 hin.2]
      refine ⟨_, rfl, fun j jd h => ?_, fun jd h => ?_⟩
      · dsimp only
        by_cases hj : jd = id
        · subst hj
          rw [if_pos rfl, hid j i jd h (.here _), List.getElem?_eq_getElem hin.2]
        · rw [if_neg hj]
          cases h with
          | here => exact absurd rfl hj
          | inside _ _ d hd h => exact h1 d hd j jd h
      · dsimp only
        rw [if_neg (by rintro rfl; exact h i (.here _))]
        exact h2 jd fun d hd j hc => h j (.inside _ _ d hd hc)
theorem setAll_spec {V : Type} (values : List V) : (ds : List Tree) → (∀ d ∈ ds, Operators d) →
    (∀ d ∈ ds, ∀ i id, Occurs (.input i id) d → i < 10 ∧ i < values.length) →
    (∀ d ∈ ds, ∀ d' ∈ ds, ∀ i j id, Occurs (.input i id) d → Occurs (.input j id) d' → i = j) → (s : Inputs V) →
    ∃ s', setAll values s ds = .ok s' ∧ (∀ d ∈ ds, ∀ i id, Occurs (.input i id) d → s' id = values[i]?) ∧
      ∀ id, (∀ d ∈ ds, ∀ i, ¬ Occurs (.input i id) d) → s' id = s id
  | [], _, _, _, s => ⟨s, rfl, by simp, fun _ _ => rfl⟩
  | d :: ds, ho, hi, hid, s => by
    obtain ⟨s1, e1, h1, h2⟩ := set_spec values d (ho d (by simp)) (hi d (by simp)) (hid d (by simp) d (by simp)) s
    obtain ⟨s2, e2, h3, h4⟩ := setAll_spec values ds (fun e he => ho e (by simp [he])) (fun e he => hi e (by simp [he]))
      (fun e he e' he' => hid e (by simp [he]) e' (by simp [he'])) s1
    refine ⟨s2, by rw [setAll, e1]; exact e2, ?_, ?_⟩
    · intro e he i id hc
      rcases List.mem_cons.1 he with rfl | he
      · by_cases hx : ∃ e ∈ ds, ∃ j, Occurs (.input j id) e
        · obtain ⟨e', he', j, hj⟩ := hx
          rw [hid e (by simp) e' (by simp [he']) i j id hc hj]
          exact h3 e' he' j id hj
        · rw [h4 id (fun e' he' j hj => hx ⟨e', he', j, hj⟩)]
          exact h1 i id hc
      · exact h3 e he i id hc
    · intro id h
      rw [h4 id fun e he i => h e (by simp [he]) i, h2 id fun i => h d (by simp) i]
end

/-- **C123** Setting the inputs of a tree, and then evaluating it, gives the value of the expression with those values in place of the
inputs, whatever the inputs held before; nodes that are not in the tree are left alone.  The tree has inputs numbered below ten. -/
theorem set_exec {V : Type} (o : Ops V) (values : List V) (t : Tree) (ho : Operators t)
    (hi : ∀ i id, Occurs (.input i id) t → i < 10 ∧ i < values.length)
    (hid : ∀ i j id, Occurs (.input i id) t → Occurs (.input j id) t → i = j) (s : Inputs V) :
    ∃ s', t.set values s = .ok s' ∧ (∀ v, t.exec o s' = some v ↔ Denotes o (fun i => values[i]?) t v) ∧
      ∀ id, (∀ i, ¬ Occurs (.input i id) t) → s' id = s id := by
  obtain ⟨s', e, h1, h2⟩ := set_spec values t ho hi hid s
  exact ⟨s', e, exec_denotes o _ s' t h1, h2⟩

/-- **C123** Another tree that shares no input with this one keeps its value. -/
theorem set_other {V : Type} (o : Ops V) (values : List V) (t u : Tree) (ho : Operators t)
    (hi : ∀ i id, Occurs (.input i id) t → i < 10 ∧ i < values.length)
    (hid : ∀ i j id, Occurs (.input i id) t → Occurs (.input j id) t → i = j)
    (hu : ∀ i j id, Occurs (.input i id) u → ¬ Occurs (.input j id) t) (s s' : Inputs V) (hs : t.set values s = .ok s') :
    u.exec o s' = u.exec o s := by
  obtain ⟨s1, e, -, h2⟩ := set_spec values t ho hi hid s
  rw [hs] at e
  cases e
  exact exec_congr o s' s u fun i id h => h2 id fun j => hu i j id h

/-- **C123** (finding) Input number ten and later ones, up to 255, are not set, without any error. -/
theorem set_beyond_fails {V : Type} (values : List V) (s : Inputs V) (i id : Nat) (h : 10 ≤ i) (h' : i < 256) :
    (Tree.node (.input i id) []).set values s = .ok s := by
  have : inputChar i < 48 ∨ 57 < inputChar i := by
    unfold inputChar
    rw [BitVec.toInt_eq_toNat_cond, BitVec.toNat_ofNat]
    split <;> omega
  simp only [Tree.set, setAll, Except.bind, Nd.set]
  rw [if_pos this]

/-- **C123** (finding) Input number 256 takes the value of input number zero. -/
theorem set_alias_fails {V : Type} (o : Ops V) (x : V) (values : List V) (s : Inputs V) (id : Nat) :
    ∃ s', (Tree.node (.input 256 id) []).set (x :: values) s = .ok s' ∧ (Tree.node (.input 256 id) []).exec o s' = some x := by
  refine ⟨fun k => if k = id then some x else s k, rfl, ?_⟩
  simp [Tree.exec, execAll, Nd.exec]

/-! ## Linear trees -/

mutual
/-- The number of nodes. -/
def Tree.count : Tree → Nat
  | .node _ ds => 1 + countAll ds
def countAll : List Tree → Nat
  | [] => 0
  | d :: ds => d.count + countAll ds
end

mutual
/-- The number of nodes on the longest way down. -/
def Tree.depth : Tree → Nat
  | .node _ ds => 1 + depthAll ds
def depthAll : List Tree → Nat
  | [] => 0
  | d :: ds => max d.depth (depthAll ds)
end

mutual
theorem depth_le : (t : Tree) → t.depth ≤ t.count
  | .node _ ds => by
    have := depthAll_le ds
    rw [Tree.depth, Tree.count]
    omega
theorem depthAll_le : (ds : List Tree) → depthAll ds ≤ countAll ds
  | [] => Nat.le_refl _
  | d :: ds => by
    have := depth_le d
    have := depthAll_le ds
    rw [depthAll, countAll]
    omega
end

theorem count_pos (t : Tree) : 0 < t.count := by
  cases t
  rw [Tree.count]
  omega

/-- **C123** A tree is linear exactly if all of its nodes are on one way down. -/
theorem linear_iff : (t : Tree) → (t.isLinear = true ↔ t.count = t.depth)
  | .node _ [] => by simp [Tree.isLinear, Tree.count, Tree.depth, countAll, depthAll]
  | .node _ [d] => by
    rw [Tree.isLinear, linear_iff d]
    simp [Tree.count, Tree.depth, countAll, depthAll]
  | .node _ (a :: b :: ds) => by
    have h1 := count_pos a
    have h2 := count_pos b
    have h3 := depth_le a
    have h4 := depth_le b
    have h5 := depthAll_le ds
    simp only [Tree.isLinear, Tree.count, Tree.depth, countAll, depthAll, Bool.false_eq_true, false_iff]
    omega

/-- `(x0 + x1) * x0`, with one object for both uses of input zero. -/
def sampleTree : Tree := .node (.op "*") [.node (.op "+") [.node (.input 0 7) [], .node (.input 1 8) []], .node (.input 0 7) []]

example : ∃ s', sampleTree.set [(3 : Int), 4] (fun _ => none) = .ok s' ∧ sampleTree.exec intOps s' = some 21 := ⟨_, rfl, rfl⟩

example : Operators sampleTree ∧ (∀ i id, Occurs (.input i id) sampleTree → i < 10 ∧ i < [(3 : Int), 4].length) ∧
    ∀ i j id, Occurs (.input i id) sampleTree → Occurs (.input j id) sampleTree → i = j := by
  have key : ∀ n, Occurs n sampleTree → n = .op "*" ∨ n = .op "+" ∨ n = .input 0 7 ∨ n = .input 1 8 := by
    intro n h
    unfold sampleTree at h
    cases h with
    | here => simp
    | inside _ _ d hd h =>
      simp only [List.mem_cons, List.not_mem_nil, or_false] at hd
      rcases hd with rfl | rfl
      · cases h with
        | here => simp
        | inside _ _ d hd h =>
          simp only [List.mem_cons, List.not_mem_nil, or_false] at hd
          rcases hd with rfl | rfl
          · cases h with
            | here => simp
            | inside _ _ d hd h => simp at hd
          · cases h with
            | here => simp
            | inside _ _ d hd h => simp at hd
      · cases h with
        | here => simp
        | inside _ _ d hd h => simp at hd
  refine ⟨fun c h => ?_, fun i id h => ?_, fun i j id h h' => ?_⟩
  · rcases key _ h with h | h | h | h <;> simp at h <;> subst h <;> decide
  · rcases key _ h with h | h | h | h <;> simp at h <;> obtain ⟨rfl, rfl⟩ := h <;> simp
  · have a := key _ h
    have b := key _ h'
    simp at a b
    omega

example := set_beyond_fails [(3 : Int), 4] (fun _ => none) 12 0 (by decide) (by decide)

end Verif.Ast
