import Verif.Whole.ModelTools
import Verif.Whole.PropsRange
import Verif.SolverP.Props
import Verif.Predicate.Props
import Verif.Numeric.PropsIntegrator
import Verif.Collective.Props
import Mathlib.Analysis.SpecialFunctions.Integrals.Basic

/-!
# C139: the programs examples/options.cpp, examples/testPredicate.cpp and examples/integrator.cpp
-/

namespace Verif.Whole.Tools

open Verif.Whole.Range

/-! ## Options -/

/-- **C139** `options`: if every word between commas is known, the program prints whether `fast` is among them; otherwise it throws. -/
theorem options_prints (a : List Char) (more : List (List Char)) :
    ((∀ t ∈ SolverP.options a, t ∈ ["fast".toList, "verbose".toList, "hasthreads".toList]) →
      ("fast".toList ∈ SolverP.options a → options (a :: more) = .ok (some "fast=1\n".toList)) ∧
      ("fast".toList ∉ SolverP.options a → options (a :: more) = .ok (some "fast=0\n".toList))) ∧
    ((∃ t ∈ SolverP.options a, t ∉ ["fast".toList, "verbose".toList, "hasthreads".toList]) → options (a :: more) = throwOut) ∧
    options [] = .ok none := by
  refine ⟨fun h => ?_, fun h => ?_, rfl⟩
  · have hr : SolverP.readable ["fast".toList, "verbose".toList, "hasthreads".toList] .strict a = .ok (SolverP.options a) := by
      unfold SolverP.readable
      rw [(SolverP.set_strict _ [] a (by simp)).1 h]
      rfl
    simp only [options, hr]
    constructor
    · intro hf
      have : SolverP.isSet (SolverP.options a) "fast".toList = true := by
        unfold SolverP.isSet
        exact decide_eq_true hf
      simp only [bind, Except.bind, this]
      rfl
    · intro hf
      have : SolverP.isSet (SolverP.options a) "fast".toList = false := by
        unfold SolverP.isSet
        exact decide_eq_false hf
      simp only [bind, Except.bind, this]
      rfl
  · have hr : SolverP.readable ["fast".toList, "verbose".toList, "hasthreads".toList] .strict a = throwOut := by
      unfold SolverP.readable
      rw [(SolverP.set_strict _ [] a (by simp)).2 h]
      rfl
    simp only [options, hr]
    rfl

/-- **C139** A list of known words, with commas in between. -/
theorem options_list (l : List (List Char)) (h : ∀ t ∈ l, t ∈ ["fast".toList, "verbose".toList, "hasthreads".toList]) (more : List (List Char)) :
    options (",".toList.intercalate l :: more) = .ok (some (if "fast".toList ∈ l then "fast=1\n".toList else "fast=0\n".toList)) := by
  obtain ⟨s, h1, h2⟩ := SolverP.isSet_spec ["fast".toList, "verbose".toList, "hasthreads".toList] l .strict (by simp) h (by
    intro t ht
    have := h t ht
    simp only [List.mem_cons, List.not_mem_nil, or_false] at this
    rcases this with rfl | rfl | rfl <;> decide)
  have h2 := h2 "fast".toList
  simp only [options, h1, bind, Except.bind]
  by_cases hf : "fast".toList ∈ l
  · rw [if_pos (h2.2 hf), if_pos hf]
    rfl
  · rw [if_neg (fun h => hf (h2.1 h)), if_neg hf]
    rfl

/-! ## Predicates -/

/-- Every `c` is a `5`. -/
def five (s : List Char) : List Char := s.map fun x => if x = 'c' then '5' else x

theorem five_replaced (s : List Char) : StrUtil.Replaced ['c'] ['5'] s (five s) := by
  have key : ∀ (n : Nat) (s : List Char), s.length ≤ n → StrUtil.Replaced ['c'] ['5'] s (five s) := by
    intro n
    induction n with
    | zero =>
      intro s hs
      have : s = [] := List.length_eq_zero_iff.1 (by omega)
      subst this
      exact .done [] (by simp)
    | succ n ih =>
      intro s hs
      by_cases hc : 'c' ∈ s
      · obtain ⟨a, rest, rfl, ha⟩ := List.eq_append_cons_of_mem hc
        have h1 := StrUtil.Replaced.step (pat := ['c']) (new := ['5']) a rest (five rest) (by
          intro b d hbd
          by_contra hlt
          have hb : b ++ ['c'] <+: a := by
            have e1 : b ++ ['c'] <+: a ++ ['c'] ++ rest := by rw [hbd]; exact List.prefix_append _ _
            have e2 : a <+: a ++ ['c'] ++ rest := by rw [List.append_assoc]; exact List.prefix_append _ _
            exact List.prefix_of_prefix_length_le e1 e2 (by simp; omega)
          exact ha (hb.subset (by simp))) (ih rest (by simp at hs; omega))
        have h2 : five (a ++ 'c' :: rest) = a ++ ['5'] ++ five rest := by
          unfold five
          rw [List.map_append, List.map_cons]
          have : a.map (fun x => if x = 'c' then '5' else x) = a := by
            refine (List.map_congr_left fun x hx => ?_).trans (List.map_id a)
            rw [if_neg (fun h : x = 'c' => ha (h ▸ hx))]
            rfl
          rw [this]
          simp
        rw [h2]
        simpa using h1
      · have h2 : five s = s := by
          unfold five
          refine (List.map_congr_left fun x hx => ?_).trans (List.map_id s)
          rw [if_neg (fun h : x = 'c' => hc (h ▸ hx))]
          rfl
        rw [h2]
        refine .done s ?_
        rintro ⟨x, y, rfl⟩
        exact hc (by simp)
  exact key s.length s (le_refl _)

/-- **C139** `testPredicate`: a predicate that, with `5` in the place of `c`, is a list of conjunctions of comparisons whose sides have
values; whatever the number, the program prints whether one of the conjunctions holds of `l` with that number. -/
theorem predicate_prints (o : Ast.Ops Int) (ho : ∀ v, o.parse (String.ofList (StrUtil.decimal v)) = some v) (toSize : Int → Nat)
    (text : List Char) (p : List Predicate.Item) (ht : five text = Predicate.listText p) (v : Int)
    (arg : List Char) (ha : Host.atoi arg = some v)
    (hp : ∀ i ∈ p, i.Ok o toSize [(['l'], v)]) (hno : Predicate.optionsOf p = []) (fuel : Nat) (hf : text.length < fuel)
    (more : List (List Char)) :
    (Predicate.ListHolds o toSize [(['l'], v)] p → predicate o toSize fuel (text :: arg :: more) = .ok (some "1".toList)) ∧
    (¬ Predicate.ListHolds o toSize [(['l'], v)] p → predicate o toSize fuel (text :: arg :: more) = .ok (some "0".toList)) := by
  obtain ⟨t, e1, e2⟩ := StrUtil.replaceAll_spec text ['c'] ['5'] (by simp)
  have e3 : t = Predicate.listText p := by rw [← ht]; exact e2.unique (by simp) (five_replaced text)
  have hvars : Predicate.VarsOk o StrUtil.decimal [(['l'], v)] := Predicate.int_vars_ok o ho _ (by
    intro q hq
    simp at hq
    subst hq
    exact ⟨by simp, 'l', by simp, by decide, by decide⟩)
  have hl : (Predicate.listText p).length < fuel := by rw [← ht]; simpa [five] using hf
  obtain ⟨terms, b, h1, h2, h3⟩ := Predicate.predicate_spec o StrUtil.decimal toSize _ hvars false p hp (Or.inr hno) fuel hl
  have e : predicate o toSize fuel (text :: arg :: more) = .ok (some (if b then "1".toList else "0".toList)) := by
    simp only [predicate, e1, e3, h1, ha, h2]
  rw [e]
  constructor
  · intro h
    rw [h3.2 h]
    rfl
  · intro h
    have : b = false := by
      cases b
      · rfl
      · exact absurd (h3.1 rfl) h
    rw [this]
    rfl

/-- **C139** With less than two arguments the program does nothing. -/
theorem predicate_usage (o : Ast.Ops Int) (toSize : Int → Nat) (fuel : Nat) (args : List (List Char)) (h : args.length < 2) :
    predicate o toSize fuel args = .ok none := by
  match args, h with
  | [], _ => rfl
  | [_], _ => rfl

/-! ## Integrals -/

/-- The integral of the function of the program. -/
theorem integral_square (x : ℝ) : ∫ y in (0 : ℝ)..x, square 3 y = x ^ 3 := by
  have : (fun y : ℝ => square 3 y) = fun y => 3 * y ^ 2 := by
    funext y
    unfold square
    ring
  rw [this, intervalIntegral.integral_const_mul, integral_pow]
  norm_num
  ring

/-- **C139** `integrator`: for any first point, step and number of points, there is a line for each point with the point and a number;
lines without an error have its third power, up to `10⁻⁹` absolutely or relatively. -/
theorem integrator_prints {q : Numeric.Quad} (hq : Numeric.QuadDoc q) (atof : List Char → ℝ) (fd : ℝ → List Char) (a st : List Char)
    (total : Nat) (ht : total ≤ 2147483647) :
    ∃ l : List (List Char × Option Int), integrate q true atof fd [a, Nat.toDigits 10 total, st] = .ok (some l) ∧ l.length = total ∧
      ∀ i (h : i < l.length), ∃ v : ℝ, (l[i]).1 = fd (atof a + i * atof st) ++ " ".toList ++ fd v ++ "\n".toList ∧
        ((l[i]).2 = none → |v - (atof a + i * atof st) ^ 3| ≤ max (1 / 1000000000) (1 / 1000000000 * |(atof a + i * atof st) ^ 3|)) := by
  obtain ⟨s, hs⟩ : ∃ s, Numeric.Integ.make true (square 3) (1 / 1000000000) (1 / 1000000000) 1000000 = .ok s := ⟨_, rfl⟩
  have hline : ∀ i, ∃ y : List Char × Option Int, integrateLine q fd s (atof a) (atof st) i = .ok y ∧
      ∃ v : ℝ, y.1 = fd (atof a + i * atof st) ++ " ".toList ++ fd v ++ "\n".toList ∧
        (y.2 = none → |v - (atof a + i * atof st) ^ 3| ≤ max (1 / 1000000000) (1 / 1000000000 * |(atof a + i * atof st) ^ 3|)) := by
    intro i
    have hc : Continuous (square 3) := by unfold square; fun_prop
    obtain ⟨r, h1, _, h3⟩ := Numeric.integral_qag hq hs 0 (atof a + i * atof st) [] 4 (hc.intervalIntegrable _ _)
    refine ⟨(fd (atof a + i * atof st) ++ " ".toList ++ fd r.value ++ "\n".toList, r.printed), ?_, r.value, rfl, fun h => ?_⟩
    · unfold integrateLine
      simp only [h1, bind, Except.bind]
      rfl
    · have := h3 h
      rw [integral_square] at this
      exact this
  choose y hy1 hy2 using hline
  refine ⟨(List.range total).map y, ?_, by simp, ?_⟩
  · simp only [integrate, number_digits total ht, hs, bind, Except.bind]
    have : (List.range total).mapM (integrateLine q fd s (atof a) (atof st)) = .ok ((List.range total).map y) := by
      rw [show integrateLine q fd s (atof a) (atof st) = fun i => .ok (y i) from funext hy1]
      exact List.mapM_pure
    rw [this]
    rfl
  · intro i h
    simpa using hy2 i

/-- **C139** Any other number of arguments than three, or no GSL. -/
theorem integrator_usage (q : Numeric.Quad) (atof : List Char → ℝ) (fd : ℝ → List Char) :
    (∀ g args, args.length ≠ 3 → integrate q g atof fd args = .ok none) ∧
    ∀ a st total, total ≤ 2147483647 → integrate q false atof fd [a, Nat.toDigits 10 total, st] = throwOut := by
  refine ⟨fun g args h => ?_, fun a st total ht => ?_⟩
  · match args, h with
    | [], _ => rfl
    | [_], _ => rfl
    | [_, _], _ => rfl
    | _ :: _ :: _ :: _ :: _, _ => rfl
  · simp only [integrate, number_digits total ht, bind, Except.bind]
    rfl

/-! ## The hypotheses are met -/

example : options ["verbose,fast".toList] = .ok (some "fast=1\n".toList) ∧ options ["verbose,slow".toList] = throwOut := by
  constructor <;> decide +kernel

example : predicate Predicate.intOps Int.toNat 100 ["l%%2&l!=0,l>=+:3:4".toList, "6".toList] = .ok (some "1".toList) := by
  have h := predicate_prints Predicate.intOps Predicate.intOps_parse Int.toNat "l%%2&l!=0,l>=+:3:4".toList Predicate.sample
    (by rw [Predicate.sample_text]; decide) 6 "6".toList (by decide +kernel) Predicate.sample_ok rfl 100 (by decide) []
  refine h.1 ⟨_, List.mem_cons_self, ?_⟩
  intro c hc
  simp only [List.mem_cons, List.not_mem_nil, or_false] at hc
  rcases hc with rfl | rfl
  · exact ⟨6, 2, Predicate.leaf_means _ _ _ rfl rfl, Predicate.leaf_means _ _ _ rfl rfl, show (2 : Nat) ∣ 6 by decide⟩
  · exact ⟨6, 0, Predicate.leaf_means _ _ _ rfl rfl, Predicate.leaf_means _ _ _ rfl rfl, show (6 : Int) ≠ 0 by decide⟩

example : predicate Predicate.intOps Int.toNat 100 ["l%%2&l!=0,l>=+:3:c".toList, "6".toList] = .ok (some "1".toList) ∧
    predicate Predicate.intOps Int.toNat 100 ["l%%2&l!=0,l>=+:3:c".toList, "7".toList] = .ok (some "0".toList) := by
  constructor <;> decide +kernel

end Verif.Whole.Tools
