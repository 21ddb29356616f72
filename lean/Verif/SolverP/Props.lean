import Verif.SolverP.Model
import Verif.StrUtil.Props

/-!
# C60 and C61: solver parameters and options
-/

namespace Verif.SolverP

open Verif.StrUtil

/-- The label of a parameter with an index. -/
def indexed (pre post : List Char) (j : Nat) : List Char := pre ++ Nat.toDigits 10 j ++ post ++ "=".toList

/-- The label of a parameter without one. -/
def plain (pre post : List Char) : List Char := pre ++ post ++ "=".toList

theorem search_spec {τ : Type} (rd : List Char → Option τ) (pre post : List Char) (ind : Nat) :
    ∀ k i, i + k = ind →
      (search rd pre post ind k i = none ∧ ∀ j < k, rd (indexed pre post j) = none) ∨
      ∃ v j, search rd pre post ind k i = some v ∧ j < k ∧ rd (indexed pre post j) = some v ∧
        ∀ l, j < l → l < k → rd (indexed pre post l) = none := by
  intro k
  induction k with
  | zero => intro i _; exact .inl ⟨rfl, fun j hj => by omega⟩
  | succ k ih =>
    intro i hi
    have e : ind - i - 1 = k := by omega
    unfold search
    rw [e]
    have ei : pre ++ Nat.toDigits 10 k ++ post ++ "=".toList = indexed pre post k := rfl
    rw [ei]
    cases h : rd (indexed pre post k) with
    | some v => exact .inr ⟨v, k, rfl, by omega, h, fun l h1 h2 => by omega⟩
    | none =>
      rcases ih (i + 1) (by omega) with ⟨h1, h2⟩ | ⟨v, j, h1, h2, h3, h4⟩
      · refine .inl ⟨h1, fun j hj => ?_⟩
        by_cases hjk : j = k
        · rw [hjk]; exact h
        · exact h2 j (by omega)
      · refine .inr ⟨v, j, h1, by omega, h3, fun l hl1 hl2 => ?_⟩
        by_cases hlk : l = k
        · rw [hlk]; exact h
        · exact h4 l hl1 (by omega)

/-- What a parameter is, by the labels of the file. -/
inductive Value {τ : Type} (rd : List Char → Option τ) (default : τ) (pre post : List Char) : Int → τ → Prop
  /-- the largest index not above the one asked for that is in the file -/
  | index (ind : Int) (j : Nat) (v : τ) (hj : (j : Int) ≤ ind) (h : rd (indexed pre post j) = some v)
      (hmax : ∀ l : Nat, j < l → (l : Int) ≤ ind → rd (indexed pre post l) = none) : Value rd default pre post ind v
  /-- or, if there is none, the one without an index -/
  | noIndex (ind : Int) (v : τ) (hnone : ∀ l : Nat, (l : Int) ≤ ind → rd (indexed pre post l) = none)
      (h : rd (plain pre post) = some v) : Value rd default pre post ind v
  /-- or, if there is none either, the default -/
  | default (ind : Int) (hnone : ∀ l : Nat, (l : Int) ≤ ind → rd (indexed pre post l) = none)
      (h : rd (plain pre post) = none) : Value rd default pre post ind default

/-- The rules leave no choice. -/
theorem Value.unique {τ : Type} {rd : List Char → Option τ} {d : τ} {pre post : List Char} {ind : Int} {v w : τ}
    (h1 : Value rd d pre post ind v) (h2 : Value rd d pre post ind w) : v = w := by
  rcases h1 with ⟨j, _, hj, h, hmax⟩ | ⟨_, hn, h⟩ | ⟨hn, h⟩ <;>
    rcases h2 with ⟨j', _, hj', h', hmax'⟩ | ⟨_, hn', h'⟩ | ⟨hn', h'⟩
  · have : j = j' := by
      rcases Nat.lt_trichotomy j j' with hl | hl | hl
      · rw [hmax j' hl hj'] at h'; simp at h'
      · exact hl
      · rw [hmax' j hl hj] at h; simp at h
    subst this
    rw [h] at h'; exact Option.some.inj h'
  · rw [hn' j hj] at h; simp at h
  · rw [hn' j hj] at h; simp at h
  · rw [hn j' hj'] at h'; simp at h'
  · rw [h] at h'; exact Option.some.inj h'
  · rw [h] at h'; simp at h'
  · rw [hn j' hj'] at h'; simp at h'
  · rw [h] at h'; simp at h'
  · rfl

/-- **C60** The value of a parameter. -/
theorem rabbitHole_spec {τ : Type} (rd : List Char → Option τ) (d : τ) (pre post : List Char) (ind : Int) :
    Value rd d pre post ind (rabbitHole rd d pre ind post) := by
  have hhare : (∀ l : Nat, (l : Int) ≤ ind → rd (indexed pre post l) = none) →
      Value rd d pre post ind (hare rd d pre post) := by
    intro hn
    unfold hare
    cases h : rd (pre ++ post ++ "=".toList) with
    | some v => exact .noIndex ind v hn h
    | none => exact .default ind hn h
  unfold rabbitHole
  by_cases hi : ind ≥ 0
  · rw [if_pos hi]
    obtain ⟨n, rfl⟩ := Int.eq_ofNat_of_zero_le hi
    simp only [Int.toNat_natCast]
    unfold bunnie
    cases h : rd (pre ++ Nat.toDigits 10 n ++ post ++ "=".toList) with
    | some v => exact .index _ n v (by omega) h (fun l h1 h2 => by omega)
    | none =>
      have h' : rd (indexed pre post n) = none := h
      rcases search_spec rd pre post n n 0 (by omega) with ⟨h1, h2⟩ | ⟨v, j, h1, h2, h3, h4⟩
      · simp only [h1]
        refine hhare fun l hl => ?_
        by_cases hln : l = n
        · rw [hln]; exact h'
        · exact h2 l (by omega)
      · simp only [h1]
        refine .index _ j v (by omega) h3 fun l hl1 hl2 => ?_
        by_cases hln : l = n
        · rw [hln]; exact h'
        · exact h4 l hl1 (by omega)
  · rw [if_neg hi]
    exact hhare fun l hl => by omega

/-- **C60** All the parameters, with their defaults. -/
theorem construct_spec {R : Type} [Zero R] (tiny : R) (io : Input R) (pre : List Char) (ind : Int) :
    let p := construct tiny io pre ind
    Value io.nat 200 pre "Steps".toList ind p.steps ∧ Value io.nat 4 pre "MinSteps".toList ind p.minSteps ∧
    Value io.real tiny pre "Eps".toList ind p.tolerance ∧
    Value io.nat 1000000 pre "StepsForEnergyConvergence".toList ind p.stepsForEnergyConvergence ∧
    Value io.nat 1 pre "EigsForStop".toList ind p.eigsForStop ∧ Value io.str "none".toList pre "Options".toList ind p.options ∧
    Value io.real 0 pre "OneOverA".toList ind p.oneOverA ∧ Value io.real 0 pre "B".toList ind p.b ∧
    Value io.real 0 pre "Energy".toList ind p.eg ∧ p.weight = 0 ∧ p.isign = 0 ∧
    ∃ x, Value io.int 0 pre "NoSaveLanczosVectors".toList ind x ∧ (p.lotaMemory = false ↔ x > 0) := by
  refine ⟨rabbitHole_spec .., rabbitHole_spec .., rabbitHole_spec .., rabbitHole_spec .., rabbitHole_spec .., rabbitHole_spec ..,
    rabbitHole_spec .., rabbitHole_spec .., rabbitHole_spec .., rfl, rfl, _, rabbitHole_spec .., ?_⟩
  simp only [construct]
  by_cases h : rabbitHole io.int 0 pre ind "NoSaveLanczosVectors".toList > 0
  · simp only [h, if_true]
  · simp only [h, if_false]; simp

/-! ## Options -/

/-- The options of a list separated by commas. -/
def options (opts : List Char) : List (List Char) := (opts.splitOnP (fun c => decide (c = ','))).filter fun t => decide (t ≠ [])

theorem check_strict (reg toks : List (List Char)) :
    (check reg .strict toks = .ok [] ∧ ∀ t ∈ toks, t ∈ reg) ∨ (check reg .strict toks = throwOut ∧ ∃ t ∈ toks, t ∉ reg) := by
  induction toks with
  | nil => exact .inl ⟨rfl, by simp⟩
  | cons t toks ih =>
    unfold check
    by_cases h : t ∈ reg
    · rw [if_pos h]
      rcases ih with ⟨h1, h2⟩ | ⟨h1, u, h2, h3⟩
      · exact .inl ⟨h1, by simpa [h] using h2⟩
      · exact .inr ⟨h1, u, by simp [h2], h3⟩
    · rw [if_neg h]
      exact .inr ⟨rfl, t, by simp, h⟩

theorem check_permissive (reg toks : List (List Char)) :
    check reg .permissive toks = .ok (toks.filter fun t => decide (t ∉ reg)) := by
  induction toks with
  | nil => rfl
  | cons t toks ih =>
    unfold check
    by_cases h : t ∈ reg
    · rw [if_pos h, ih]; simp [h]
    · rw [if_neg h, ih]; simp [h, bind, Except.bind, pure, Except.pure]

theorem split_comma (toks : List (List Char)) (opts : List Char) : split toks opts ",".toList = some (toks ++ options opts) := by
  rw [split_spec]
  simp [options]

/-- **C61** In strict mode the options are accepted just if they are all registered; otherwise it throws. -/
theorem set_strict (reg before : List (List Char)) (opts : List Char) (hb : ∀ t ∈ before, t ∈ reg) :
    ((∀ t ∈ options opts, t ∈ reg) → set reg .strict before opts = .ok (before ++ options opts, [])) ∧
    ((∃ t ∈ options opts, t ∉ reg) → set reg .strict before opts = throwOut) := by
  unfold set
  rw [if_neg (by simp), split_comma]
  rcases check_strict reg (before ++ options opts) with ⟨h1, h2⟩ | ⟨h1, u, h2, h3⟩
  · simp only [h1]
    exact ⟨fun _ => rfl, fun ⟨t, ht, hn⟩ => absurd (h2 t (by simp [ht])) hn⟩
  · simp only [h1]
    refine ⟨fun h => ?_, fun _ => rfl⟩
    rcases List.mem_append.1 h2 with hu | hu
    · exact absurd (hb u hu) h3
    · exact absurd (h u hu) h3

/-- **C61** In permissive mode they are all accepted, and those that are not registered give a warning. -/
theorem set_permissive (reg before : List (List Char)) (opts : List Char) :
    set reg .permissive before opts =
      .ok (before ++ options opts, (before ++ options opts).filter fun t => decide (t ∉ reg)) := by
  unfold set
  rw [if_neg (by simp), split_comma]
  simp only [check_permissive]
  rfl

/-- **C61** And in the mode that disables them, none is set. -/
theorem set_disabled (reg before : List (List Char)) (opts : List Char) : set reg .disabled before opts = .ok (before, []) := rfl

/-- **C61** `isSet` on a list of options written with commas tells which are in it. -/
theorem isSet_spec (reg opts : List (List Char)) (mode : Mode) (hm : mode ≠ .disabled) (hr : ∀ t ∈ opts, t ∈ reg)
    (ht : ∀ t ∈ opts, t ≠ [] ∧ ',' ∉ t) :
    ∃ s, readable reg mode (",".toList.intercalate opts) = .ok s ∧ ∀ o, isSet s o = true ↔ o ∈ opts := by
  have hsp : options (",".toList.intercalate opts) = opts := by
    have h := split_join opts ",".toList ",".toList (by simp) (by simp)
      (fun t h => ⟨(ht t h).1, fun c hc hcc => (ht t h).2 (by simp at hcc; exact hcc ▸ hc)⟩)
    rw [split_comma] at h
    simpa using h
  refine ⟨opts, ?_, fun o => by simp [isSet]⟩
  unfold readable
  cases mode with
  | disabled => exact absurd rfl hm
  | permissive => rw [set_permissive, hsp]; rfl
  | strict => rw [(set_strict reg [] _ (by simp)).1 (by rw [hsp]; exact hr), hsp]; rfl

/-- **C61** `isSet` is membership in the options of the string, whatever it is. -/
theorem isSet_options (reg : List (List Char)) (mode : Mode) (opts : List Char) (s : List (List Char))
    (h : readable reg mode opts = .ok s) (o : List Char) : isSet s o = true ↔ mode ≠ .disabled ∧ o ∈ options opts := by
  unfold readable at h
  cases mode with
  | disabled =>
    rw [set_disabled] at h
    cases h
    simp [isSet]
  | permissive =>
    rw [set_permissive] at h
    cases h
    simp [isSet]
  | strict =>
    by_cases hr : ∀ t ∈ options opts, t ∈ reg
    · rw [(set_strict reg [] opts (by simp)).1 hr] at h
      cases h
      simp [isSet]
    · rw [(set_strict reg [] opts (by simp)).2 (by simpa using hr)] at h
      cases h

/-- **C61** `LabelDisabled` reports just the labels disabled so far. -/
theorem disabled_spec (labels : List (List Char)) (l : List Char) : isDisabled (labels.foldl disable []) l = true ↔ l ∈ labels := by
  have key : ∀ (labels acc : List (List Char)), labels.foldl disable acc = acc ++ labels := by
    intro labels
    induction labels with
    | nil => simp
    | cons a labels ih => intro acc; rw [List.foldl_cons, ih, disable]; simp
  rw [key]
  simp [isDisabled]

/-! ## Examples -/

/-- A file with `LanczosSteps=7`, `Lanczos1Steps=9`. -/
def demo : List Char → Option Nat := fun l =>
  if l = "LanczosSteps=".toList then some 7 else if l = "Lanczos1Steps=".toList then some 9 else none

example : rabbitHole demo 200 "Lanczos".toList 3 "Steps".toList = 9 := by decide +kernel
example : rabbitHole demo 200 "Lanczos".toList 0 "Steps".toList = 7 := by decide +kernel
example : rabbitHole demo 200 "Lanczos".toList (-1) "Steps".toList = 7 := by decide +kernel
example : rabbitHole demo 200 "Lanczos".toList 3 "MinSteps".toList = 200 := by decide +kernel

example : set ["a".toList, "bc".toList] .strict [] "a,,bc".toList = .ok (["a".toList, "bc".toList], []) := by decide +kernel
example : set ["a".toList, "bc".toList] .strict [] "a,b".toList = throwOut := by decide +kernel

end Verif.SolverP
