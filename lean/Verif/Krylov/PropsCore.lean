import Verif.Krylov.ModelCore
import Verif.Krylov.PropsLanczos

/-!
# C118: a Lanczos solver that is used more than once
-/

namespace Verif.Krylov

open Verif.Loop Matrix

variable {𝕜 : Type} [RCLike 𝕜] {n : Nat}

/-! ## What was stored before does not matter -/

theorem reortho_agree (enabled : Bool) (d d' : List (Fin n → 𝕜)) (V : Fin n → 𝕜) (iter : Nat) (h : ∀ i ≤ iter, d[i]? = d'[i]?) :
    reortho enabled d V iter = reortho enabled d' V iter := by
  unfold reortho
  have : loopN (iter + 1) (fun i V2 => (d[i]?).map (orthoTo V2)) V = loopN (iter + 1) (fun i V2 => (d'[i]?).map (orthoTo V2)) V :=
    loopN_congr _ _ _ _ fun i V hi => by rw [h i (by omega)]
  rw [this]

theorem oneStep_agree (mul : (Fin n → 𝕜) → Fin n → 𝕜) (enabled : Bool) (d d' : List (Fin n → 𝕜)) (V0 V1 : Fin n → 𝕜) (a b : List ℝ)
    (iter : Nat) (h : ∀ i ≤ iter, d[i]? = d'[i]?) : oneStep mul enabled d V0 V1 a b iter = oneStep mul enabled d' V0 V1 a b iter := by
  unfold oneStep
  simp only [fun V => reortho_agree enabled d d' V iter h]

theorem loop_agree (p : Params 𝕜 n) (maxn : Nat) : ∀ (fuel j : Nat) (flag : Bool) (V0 V1 : Fin n → 𝕜) (d d' : List (Fin n → 𝕜))
    (a b : List ℝ), d.length = d'.length → (∀ i ≤ j, d[i]? = d'[i]?) →
    (loop p maxn fuel j flag V0 V1 d a b = none ∧ loop p maxn fuel j flag V0 V1 d' a b = none) ∨
    ∃ j' e e' a' b', loop p maxn fuel j flag V0 V1 d a b = some (j', e, a', b') ∧
      loop p maxn fuel j flag V0 V1 d' a b = some (j', e', a', b') ∧ ∀ i ≤ j', e[i]? = e'[i]? := by
  intro fuel
  induction fuel with
  | zero =>
    intro j flag V0 V1 d d' a b _ h
    exact .inr ⟨j, d, d', a, b, rfl, rfl, h⟩
  | succ fuel ih =>
    intro j flag V0 V1 d d' a b hl h
    rw [loop, loop, oneStep_agree p.mul p.enabled d d' V0 V1 a b j h]
    cases oneStep p.mul p.enabled d' V0 V1 a b j with
    | none => exact .inl ⟨rfl, rfl⟩
    | some x =>
      obtain ⟨V2, a', b'⟩ := x
      simp only [bind, Option.bind_some]
      split
      · exact .inr ⟨j, d, d', a', b', rfl, rfl, h⟩
      · split
        · exact .inr ⟨j, d, d', a', b', rfl, rfl, h⟩
        · by_cases hj : j + 1 < d.length
          · rw [setAt_some hj, setAt_some (by omega), Option.bind_some, Option.bind_some]
            refine ih (j + 1) _ V1 V2 _ _ a' b' (by simpa using hl) ?_
            intro i hi
            by_cases hij : i = j + 1
            · subst hij
              rw [List.getElem?_set_self hj, List.getElem?_set_self (by omega)]
            · rw [List.getElem?_set_ne (by omega), List.getElem?_set_ne (by omega)]
              exact h i (by omega)
          · have e1 : setAt d (j + 1) V2 = none := by unfold setAt; rw [if_neg hj]
            have e2 : setAt d' (j + 1) V2 = none := by unfold setAt; rw [if_neg (by omega)]
            rw [e1, e2]
            exact .inl ⟨rfl, rfl⟩

theorem take_agree {γ : Type} {e e' : List γ} {j k : Nat} (h : ∀ i ≤ j, e[i]? = e'[i]?) (hk : k ≤ j + 1) : e.take k = e'.take k := by
  apply List.ext_getElem?
  intro i
  by_cases hi : i < k
  · rw [List.getElem?_take_of_lt hi, List.getElem?_take_of_lt hi, h i (by omega)]
  · rw [List.getElem?_take_eq_none (by omega), List.getElem?_take_eq_none (by omega)]

theorem run_two (p : Params 𝕜 n) (maxn : Nat) (init : Fin n → 𝕜) (h2 : 2 ≤ maxn) : ∃ (V0 V1 : Fin n → 𝕜) (a b : List ℝ),
    ∀ d : List (Fin n → 𝕜), d.length = maxn → run p maxn d init =
      (loop p maxn (maxn - 1) 1 false V0 V1 ((d.set 0 V0).set 1 V1) a b).bind fun x =>
        some ⟨if x.1 < maxn then x.1 + 1 else maxn, x.2.1.take (if x.1 < maxn then x.1 + 1 else maxn),
          x.2.2.1.take (if x.1 < maxn then x.1 + 1 else maxn), x.2.2.2.take (if x.1 < maxn then x.1 + 1 else maxn)⟩ := by
  let V0 : Fin n → 𝕜 := fun i => init i * ((1 / Real.sqrt (reDot init init) : ℝ) : 𝕜)
  let W : Fin n → 𝕜 := fun i => p.mul V0 i - ((reDot (p.mul V0) V0 : ℝ) : 𝕜) * V0 i
  refine ⟨V0, normalize W (Real.sqrt (reDot W W)), (List.replicate maxn (0 : ℝ)).set 0 (reDot (p.mul V0) V0),
    ((List.replicate maxn (0 : ℝ)).set 0 0).set 1 (Real.sqrt (reDot W W)), fun d h => ?_⟩
  unfold run
  simp only [bind]
  rw [setAt_some (by simp; omega), Option.bind_some, setAt_some (by omega), Option.bind_some, setAt_some (by simp; omega),
    Option.bind_some, setAt_some (by simp; omega), Option.bind_some, if_pos (by omega), setAt_some (by simp; omega), Option.bind_some]
  rfl

theorem run_agree (p : Params 𝕜 n) (maxn : Nat) (d d' : List (Fin n → 𝕜)) (init : Fin n → 𝕜) (h : d.length = maxn) (h' : d'.length = maxn) :
    run p maxn d init = run p maxn d' init := by
  by_cases h2 : 2 ≤ maxn
  · obtain ⟨V0, V1, a, b, hr⟩ := run_two p maxn init h2
    rw [hr d h, hr d' h']
    have hag : ∀ i ≤ 1, ((d.set 0 V0).set 1 V1)[i]? = ((d'.set 0 V0).set 1 V1)[i]? := by
      intro i hi
      rcases (by omega : i = 0 ∨ i = 1) with rfl | rfl
      · rw [List.getElem?_set_ne (l := d.set 0 V0) (show (1 : Nat) ≠ 0 by omega),
          List.getElem?_set_ne (l := d'.set 0 V0) (show (1 : Nat) ≠ 0 by omega), List.getElem?_set_self (show 0 < d.length by omega),
          List.getElem?_set_self (show 0 < d'.length by omega)]
      · rw [List.getElem?_set_self (by simp; omega), List.getElem?_set_self (by simp; omega)]
    rcases loop_agree p maxn (maxn - 1) 1 false V0 V1 ((d.set 0 V0).set 1 V1) ((d'.set 0 V0).set 1 V1) a b (by simp; omega) hag with
      ⟨e1, e2⟩ | ⟨j', e, e', a', b', e1, e2, e3⟩
    · rw [e1, e2]
    · rw [e1, e2]
      simp only [Option.bind_some]
      rw [take_agree e3 (show (if j' < maxn then j' + 1 else maxn) ≤ j' + 1 by split <;> omega)]
  · unfold run
    simp only [bind]
    by_cases h0 : maxn = 0
    · subst h0
      rfl
    · have : maxn = 1 := by omega
      subst this
      rw [setAt_some (by simp), Option.bind_some, Option.bind_some, setAt_some (by omega), setAt_some (show 0 < d'.length by omega),
        Option.bind_some, Option.bind_some, setAt_some (by simp), Option.bind_some, Option.bind_some]
      rfl

theorem run_eq (p : Params 𝕜 n) (steps : Nat) (d : List (Fin n → 𝕜)) (init : Fin n → 𝕜)
    (h : d.length = if steps > n then n else steps) : run p (if steps > n then n else steps) d init = decomposition p steps init :=
  run_agree p _ d _ init h (by simp)

/-! ## Properties -/

/-- **C118** Whatever was done before, a decomposition that is not refused gives what a new object with the present number of steps
gives, and the vectors kept are those of this decomposition. -/
theorem decompose_eq (c c' : Core 𝕜 n) (p : Params 𝕜 n) (init : Fin n → 𝕜) (r : Result 𝕜 n) (h : c.decompose p init = .ok (c', r)) :
    decomposition p c.steps init = some r ∧ c' = ⟨r.steps, some (.vectors r.data)⟩ := by
  unfold Core.decompose at h
  rw [dif_pos rfl] at h
  have hcols : ∀ cols, Store.prepare c.store (if c.steps > n then n else c.steps) = .ok cols →
      cols.length = if c.steps > n then n else c.steps := by
    intro cols hc
    unfold Store.prepare at hc
    split at hc
    · cases hc
      simp
    · rename_i l _
      by_cases hn : l.length ≠ if c.steps > n then n else c.steps
      · rw [if_pos hn] at hc
        cases hc
      · rw [if_neg hn] at hc
        cases hc
        exact not_not.1 hn
    · cases hc
  simp only [bind, Except.bind] at h
  cases hp : Store.prepare c.store (if c.steps > n then n else c.steps) with
  | error e => rw [hp] at h; cases h
  | ok cols =>
    rw [hp] at h
    simp only at h
    rw [show (fun i : Fin n => init (Fin.cast rfl i)) = init from rfl, run_eq p c.steps cols init (hcols cols hp)] at h
    cases hd : decomposition p c.steps init with
    | none => rw [hd] at h; cases h
    | some r' =>
      rw [hd] at h
      cases h
      exact ⟨rfl, rfl⟩

theorem decompose_some (c : Core 𝕜 n) (p : Params 𝕜 n) (init : Fin n → 𝕜) (r : Result 𝕜 n) (hd : decomposition p c.steps init = some r)
    (hs : c.store = none ∨ ∃ cols, c.store = some (.vectors cols) ∧ cols.length = min c.steps n) :
    c.decompose p init = .ok (⟨r.steps, some (.vectors r.data)⟩, r) := by
  unfold Core.decompose
  rw [dif_pos rfl]
  have hm : (if c.steps > n then n else c.steps) = min c.steps n := by split <;> omega
  have : ∃ cols, Store.prepare c.store (if c.steps > n then n else c.steps) = .ok cols ∧
      cols.length = if c.steps > n then n else c.steps := by
    rcases hs with hs | ⟨cols, hs, hl⟩
    · rw [hs]
      exact ⟨_, rfl, by simp⟩
    · rw [hs]
      refine ⟨cols, ?_, by omega⟩
      unfold Store.prepare
      simp only
      rw [if_neg (by omega)]
  obtain ⟨cols, e1, e2⟩ := this
  simp only [bind, Except.bind, e1]
  rw [show (fun i : Fin n => init (Fin.cast rfl i)) = init from rfl, run_eq p c.steps cols init e2, hd]

/-- The results of some decompositions: each has as its maximum number of steps the number of steps of the one before. -/
def Shrinking (steps : Nat) : List (Params 𝕜 n × (Fin n → 𝕜)) → List (Result 𝕜 n) → Prop
  | [], [] => True
  | (p, init) :: l, r :: rs => decomposition p steps init = some r ∧ r.steps ≤ min steps n ∧ Shrinking r.steps l rs
  | _, _ => False

theorem runs_from (H : Matrix (Fin n) (Fin n) 𝕜) (hH : H.IsHermitian) (minSteps : Nat) (calls : List (Params 𝕜 n × (Fin n → 𝕜)))
    (hc : ∀ x ∈ calls, x.1.mul = (H *ᵥ ·) ∧ x.1.minSteps = minSteps ∧ x.2 ≠ 0) (c : Core 𝕜 n) (h2 : 2 ≤ min c.steps n)
    (hmin : n ≤ 4 ∨ minSteps < min c.steps n)
    (hs : c.store = none ∨ ∃ cols, c.store = some (.vectors cols) ∧ cols.length = min c.steps n) :
    ∃ rs, c.runs calls = .ok rs ∧ Shrinking c.steps calls rs := by
  induction calls generalizing c with
  | nil => exact ⟨[], rfl, trivial⟩
  | cons x calls ih =>
    obtain ⟨p, init⟩ := x
    obtain ⟨x1, x2, x3⟩ := hc _ List.mem_cons_self
    simp only at x1 x2 x3
    obtain ⟨r, e, r1, r2, r3, _⟩ := lanczos_spec p H x1 hH c.steps init x3 h2 (by rw [x2]; exact hmin)
    obtain ⟨r', e', _, r4, _⟩ := lanczos_stops p H x1 hH c.steps init x3 h2 (by rw [x2]; exact hmin)
    rw [e] at e'
    cases e'
    have hd := decompose_some c p init r e hs
    have hl : r.data.length = r.steps := by
      clear r4
      omega
    have hm : min r.steps n = r.steps := by
      clear r4
      omega
    obtain ⟨rs, e3, e4⟩ := ih (fun y hy => hc y (List.mem_cons_of_mem _ hy)) ⟨r.steps, some (.vectors r.data)⟩ (by simp only; rw [hm]; exact r1)
      (by
        rcases r4 with h | h
        · exact .inl h
        · exact .inr (by simp only; rw [hm]; omega)) (.inr ⟨r.data, rfl, by simp only; rw [hm, hl]⟩)
    refine ⟨r :: rs, ?_, e, r2, e4⟩
    rw [Core.runs, hd]
    simp only [bind, Except.bind, e3]
    rfl

/-- **C118** An object can be used for any number of decompositions of the same matrix, with any start vectors.  Each result is that of a
new object whose maximum number of steps is the number of steps of the decomposition before. -/
theorem runs_spec (H : Matrix (Fin n) (Fin n) 𝕜) (hH : H.IsHermitian) (minSteps steps : Nat) (calls : List (Params 𝕜 n × (Fin n → 𝕜)))
    (hc : ∀ x ∈ calls, x.1.mul = (H *ᵥ ·) ∧ x.1.minSteps = minSteps ∧ x.2 ≠ 0) (h2 : 2 ≤ min steps n)
    (hmin : n ≤ 4 ∨ minSteps < min steps n) :
    ∃ (c : Core 𝕜 n) (rs : List (Result 𝕜 n)), Core.make true steps = .ok c ∧ c.runs calls = .ok rs ∧ Shrinking steps calls rs := by
  obtain ⟨rs, e1, e2⟩ := runs_from H hH minSteps calls hc ⟨steps, none⟩ h2 hmin (.inl rfl)
  exact ⟨_, rs, rfl, e1, e2⟩

/-- **C118** (finding) The number of steps never grows again: after a start vector with few steps, a decomposition that needs more steps
stops early.  Here a new object takes three steps, the used one two. -/
theorem again_fails : ∃ (H : Matrix (Fin 3) (Fin 3) ℝ) (_ : H.IsHermitian) (p q : Params ℝ 3) (u v : Fin 3 → ℝ) (c : Core ℝ 3)
    (r s f : Result ℝ 3), p.mul = (H *ᵥ ·) ∧ q.mul = (H *ᵥ ·) ∧ Core.make true 10 = .ok c ∧ c.runs [(p, u), (q, v)] = .ok [r, s] ∧
      c.runs [(q, v)] = .ok [f] ∧ s.steps = 2 ∧ f.steps = 3 := by
  have h1 : (1 : Matrix (Fin 3) (Fin 3) ℝ).IsHermitian := Matrix.isHermitian_one
  set p : Params ℝ 3 := ⟨((1 : Matrix (Fin 3) (Fin 3) ℝ) *ᵥ ·), false, fun _ => true, 0⟩ with hp
  set q : Params ℝ 3 := ⟨((1 : Matrix (Fin 3) (Fin 3) ℝ) *ᵥ ·), false, fun _ => false, 0⟩ with hq
  set u : Fin 3 → ℝ := fun _ => 1 with hu
  have u0 : u ≠ 0 := fun h => by
    have := congrFun h 0
    simp [hu] at this
  obtain ⟨c, rs, e1, e2, e3⟩ := runs_spec (1 : Matrix (Fin 3) (Fin 3) ℝ) h1 0 10 [(p, u), (q, u)] (by
    intro x hx
    simp only [List.mem_cons, List.not_mem_nil, or_false] at hx
    rcases hx with rfl | rfl
    · exact ⟨rfl, rfl, u0⟩
    · exact ⟨rfl, rfl, u0⟩) (by decide) (.inl (by decide))
  obtain ⟨c', fs, f1, f2, f3⟩ := runs_spec (1 : Matrix (Fin 3) (Fin 3) ℝ) h1 0 10 [(q, u)] (by
    intro x hx
    simp only [List.mem_cons, List.not_mem_nil, or_false] at hx
    subst hx
    exact ⟨rfl, rfl, u0⟩) (by decide) (.inl (by decide))
  rw [e1] at f1
  cases f1
  match rs, e2, e3 with
  | [r, s], e2, e3 =>
    match fs, f2, f3 with
    | [f], f2, f3 =>
      obtain ⟨r1, r2, s1, s2, _⟩ := e3
      obtain ⟨g1, g2, _⟩ := f3
      have ra : r.steps = 2 := by
        obtain ⟨r', ea, h2, _⟩ := lanczos_spec p 1 rfl h1 10 u u0 (by decide) (.inl (by decide))
        obtain ⟨r'', eb, _, _, h3⟩ := lanczos_stops p 1 rfl h1 10 u u0 (by decide) (.inl (by decide))
        rw [r1] at ea eb
        cases ea
        cases eb
        have := h3 1 le_rfl rfl (.inl (by decide))
        omega
      have sa : s.steps = 2 := by
        rw [ra] at s1 s2
        obtain ⟨s', ea, h2, _⟩ := lanczos_spec q 1 rfl h1 2 u u0 (by decide) (.inl (by decide))
        rw [s1] at ea
        cases ea
        omega
      have fa : f.steps = 3 := by
        obtain ⟨f', ea, h3, _⟩ := lanczos_stops q 1 rfl h1 10 u u0 (by decide) (.inl (by decide))
        rw [g1] at ea
        cases ea
        rcases h3 with h3 | ⟨i, _, _, h3⟩
        · exact h3
        · cases h3
      exact ⟨1, h1, p, q, u, u, c, r, s, f, rfl, rfl, e1, e2, f2, sa, fa⟩

/-- **C118** A start vector of another length is refused. -/
theorem length_refused (c : Core 𝕜 n) (p : Params 𝕜 n) {m : Nat} (init : Fin m → 𝕜) (h : m ≠ n) : c.decompose p init = throwOut := by
  unfold Core.decompose
  rw [dif_neg h]

/-- **C118** The vectors can be taken out after a decomposition, and not before; then the next decomposition is refused, unless
what was put in has the same shape. -/
theorem swap_spec (c : Core 𝕜 n) (V : Store 𝕜 n) : (c.store = none → c.swap V = throwOut) ∧
    ∀ (p : Params 𝕜 n) (init : Fin n → 𝕜) (r : Result 𝕜 n) (c' : Core 𝕜 n), c.decompose p init = .ok (c', r) →
      ∃ c'', c'.swap V = .ok (c'', .vectors r.data) ∧
        ∀ (q : Params 𝕜 n) (v : Fin n → 𝕜), (∀ cols, V = .vectors cols → cols.length ≠ min r.steps n) →
          c''.decompose q v = throwOut := by
  refine ⟨fun h => by unfold Core.swap; rw [h], ?_⟩
  intro p init r c' h
  obtain ⟨_, rfl⟩ := decompose_eq c c' p init r h
  refine ⟨⟨r.steps, some V⟩, rfl, ?_⟩
  intro q v hV
  unfold Core.decompose
  rw [dif_pos rfl]
  have : Store.prepare (some V) (if r.steps > n then n else r.steps) = throwOut := by
    have hm : (if r.steps > n then n else r.steps) = min r.steps n := by split <;> omega
    cases V with
    | other _ _ => rfl
    | vectors cols =>
      unfold Store.prepare
      simp only
      rw [if_pos (by rw [hm]; exact hV cols rfl)]
  simp only [bind, Except.bind, this]
  rfl

/-! ## Examples -/

/-- Two calls with the same solver, from two starts. -/
example : ∃ (c c' : Core ℝ 2) (rs : List (Result ℝ 2)) (r : Result ℝ 2),
    Core.make true 10 = .ok c ∧
    c.runs [(⟨((!![1, 2; 2, 3] : Matrix (Fin 2) (Fin 2) ℝ) *ᵥ ·), true, fun _ => false, 4⟩, ![1, 0]),
      (⟨((!![1, 2; 2, 3] : Matrix (Fin 2) (Fin 2) ℝ) *ᵥ ·), true, fun _ => false, 4⟩, ![0, 1])] = .ok rs ∧ rs.length = 2 ∧
    c.decompose ⟨((!![1, 2; 2, 3] : Matrix (Fin 2) (Fin 2) ℝ) *ᵥ ·), true, fun _ => false, 4⟩ ![1, 0] = .ok (c', r) ∧
    c'.steps = r.steps := by
  obtain ⟨c, rs, h1, h2, h3⟩ := runs_spec (!![1, 2; 2, 3] : Matrix (Fin 2) (Fin 2) ℝ) (by ext i j; fin_cases i <;> fin_cases j <;> simp) 4 10
    [(⟨((!![1, 2; 2, 3] : Matrix (Fin 2) (Fin 2) ℝ) *ᵥ ·), true, fun _ => false, 4⟩, ![1, 0]),
      (⟨((!![1, 2; 2, 3] : Matrix (Fin 2) (Fin 2) ℝ) *ᵥ ·), true, fun _ => false, 4⟩, ![0, 1])]
    (by
      intro x hx
      simp only [List.mem_cons, List.not_mem_nil, or_false] at hx
      rcases hx with rfl | rfl
      · exact ⟨rfl, rfl, fun h => by have := congrFun h 0; simp at this⟩
      · exact ⟨rfl, rfl, fun h => by have := congrFun h 1; simp at this⟩)
    (by decide) (.inl (by decide))
  have hl : rs.length = 2 := by
    match rs, h3 with
    | [_, _], _ => rfl
    | [], h => exact h.elim
    | [_], h => exact h.2.2.elim
    | _ :: _ :: _ :: _, h => exact h.2.2.2.2.elim
  have h4 := h2
  rw [Core.runs] at h4
  cases h5 : c.decompose ⟨((!![1, 2; 2, 3] : Matrix (Fin 2) (Fin 2) ℝ) *ᵥ ·), true, fun _ => false, 4⟩ (![1, 0] : Fin 2 → ℝ) with
  | error e => rw [h5] at h4; cases h4
  | ok x =>
    obtain ⟨c', r⟩ := x
    exact ⟨c, c', rs, r, h1, h2, hl, h5, by rw [(decompose_eq c c' _ _ r h5).2]⟩

/-- A start that is too long. -/
example (p : Params ℝ 2) : (⟨10, none⟩ : Core ℝ 2).decompose p (![1, 0, 0] : Fin 3 → ℝ) = throwOut := length_refused _ _ _ (by decide)

end Verif.Krylov
