import Verif.Whole.ModelCalculator
import Verif.Ast.Props
import Verif.StrUtil.Props
import Verif.Cmplx.PropsOther

/-!
# C131: the program examples/calculator.cpp
-/

namespace Verif.Whole.Calculator

open Verif.Ast Verif.StrUtil

/-- The same arithmetic where the word `%t` is the number that `0.25` is. -/
def atTime {V : Type} (o : Ops V) : Ops V := { o with parse := fun c => if c = "%t" then o.parse "0.25" else o.parse c }

/-- The word `%t` is replaced. -/
def subst (c : String) : String := if c = "%t" then "0.25" else c

theorem arity_subst (c : String) : arity (subst c) = arity c := by
  unfold subst
  split
  · rename_i h; subst h; decide
  · rfl

theorem load_subst (toks : List String) : ∀ m, load m (toks.map subst) = (load m toks).map subst := by
  induction toks with
  | nil => intro m; rfl
  | cons t ts ih =>
    intro m
    simp only [List.map_cons, load, arity_subst]
    split
    · rfl
    · rw [ih]; rfl

theorem link_subst (n : Nat) (toks : List String) : ∀ k, link n k (toks.map subst) = link n k toks := by
  induction toks with
  | nil => intro k; rfl
  | cons t ts ih => intro k; simp only [List.map_cons, link, arity_subst, ih]

theorem node_subst {V : Type} (o : Ops V) (c : String) (v : List V) : execNode o (subst c) v = execNode (atTime o) c v := by
  by_cases h : c = "%t"
  · subst h
    cases v with
    | nil =>
      rw [execNode_nil, execNode_nil]
      show (if arity "0.25" = 0 then o.parse "0.25" else none) = if arity "%t" = 0 then (if "%t" = "%t" then o.parse "0.25" else o.parse "%t") else none
      rw [if_pos (by decide), if_pos (by decide), if_pos rfl]
    | cons x v =>
      have h1 : execNode o (subst "%t") (x :: v) = none := by
        cases e : execNode o (subst "%t") (x :: v) with
        | none => rfl
        | some w =>
          have := execNode_arity o _ _ _ e
          rw [show arity (subst "%t") = 0 by decide] at this
          cases this
      have h2 : execNode (atTime o) "%t" (x :: v) = none := by
        cases e : execNode (atTime o) "%t" (x :: v) with
        | none => rfl
        | some w =>
          have := execNode_arity (atTime o) _ _ _ e
          rw [show arity "%t" = 0 by decide] at this
          cases this
      rw [h1, h2]
  · have e : subst c = c := if_neg h
    rw [e]
    have hp : (atTime o).parse c = o.parse c := if_neg h
    unfold execNode
    split <;> first | rfl | (rw [hp])

theorem exec_subst {V : Type} (o : Ops V) (nodes : List String) (desc : List (List Nat)) :
    ∀ fuel i, exec o (nodes.map subst) desc fuel i = exec (atTime o) nodes desc fuel i := by
  intro fuel
  induction fuel with
  | zero => intro i; rfl
  | succ fuel ih =>
    intro i
    have e : exec o (nodes.map subst) desc fuel = exec (atTime o) nodes desc fuel := funext ih
    simp only [exec, e, List.getElem?_map]
    cases nodes[i]? with
    | none => rfl
    | some c => simp only [Option.map_some, Option.bind_eq_bind, Option.bind_some, node_subst]

theorem run_subst {V : Type} (o : Ops V) (toks : List String) : run o (toks.map subst) = run (atTime o) toks := by
  unfold run
  simp only [load_subst, link_subst, List.length_map, exec_subst]

/-- Text before which nothing is found. -/
theorem replaced_prepend {pat new s t : List Char} (a : List Char) (h : Replaced pat new s t)
    (ha : ∀ b c, a ++ s = b ++ pat ++ c → a.length ≤ b.length) (hp : pat ≠ []) : Replaced pat new (a ++ s) (a ++ t) := by
  cases h with
  | done s hs =>
    refine .done _ ?_
    rintro ⟨b, c, e⟩
    have hl := ha b c e.symm
    have e1 : b = a ++ b.drop a.length := by
      have : (a ++ s).take a.length = (b ++ pat ++ c).take a.length := by rw [e]
      rw [List.take_left', List.append_assoc, List.take_append_of_le_length hl] at this
      · conv_lhs => rw [← List.take_append_drop a.length b]
        rw [← this]
      · rfl
    refine hs ⟨b.drop a.length, c, ?_⟩
    rw [e1, List.append_assoc, List.append_assoc] at e
    rw [List.append_assoc]
    exact List.append_cancel_left e
  | step a' rest rest' hl hr =>
    have := Replaced.step (pat := pat) (new := new) (a ++ a') rest rest' ?_ hr
    · simpa [List.append_assoc] using this
    · intro b c e
      have h1 := ha b c (by simpa [List.append_assoc] using e)
      have e1 : b = a ++ b.drop a.length := by
        have : (a ++ a' ++ pat ++ rest).take a.length = (b ++ pat ++ c).take a.length := by rw [e]
        rw [List.append_assoc, List.append_assoc, List.take_left' rfl, List.append_assoc, List.take_append_of_le_length h1] at this
        conv_lhs => rw [← List.take_append_drop a.length b]
        rw [← this]
      have := hl (b.drop a.length) c (by
        rw [e1, List.append_assoc, List.append_assoc, List.append_assoc, List.append_assoc] at e
        have := List.append_cancel_left e
        simpa [List.append_assoc] using this)
      rw [e1]
      simp only [List.length_append]
      omega

/-- A word of an expression: `%t`, or a text without colon in which `%t` does not occur. -/
def Word (c : String) : Prop := c = "%t" ∨ (c ≠ "" ∧ ':' ∉ c.toList ∧ ¬ "%t".toList <:+: c.toList)

theorem no_match (w s : List Char) (hw : ¬ ['%', 't'] <:+: w) (b c : List Char) (e : w ++ [':'] ++ s = b ++ ['%', 't'] ++ c) :
    (w ++ [':']).length ≤ b.length := by
  by_contra hlt
  simp only [List.length_append, List.length_singleton, not_le] at hlt
  by_cases h1 : b.length + 2 ≤ w.length
  · refine hw ⟨b, (w.drop (b.length + 2)), ?_⟩
    have := congrArg (List.take (b.length + 2)) e
    rw [List.append_assoc, List.take_append_of_le_length h1, List.take_left' (by simp)] at this
    rw [← this, List.take_append_drop]
  · have h2 : (w ++ [':'] ++ s)[w.length]? = some ':' := by simp
    rw [e] at h2
    have h3 : w.length = b.length ∨ w.length = b.length + 1 := by omega
    rcases h3 with h3 | h3 <;> rw [h3] at h2 <;> simp at h2

theorem replaced_words (toks : List String) (h : ∀ c ∈ toks, Word c) :
    Replaced "%t".toList "0.25".toList ([':'].intercalate (toks.map String.toList)) ([':'].intercalate ((toks.map subst).map String.toList)) := by
  have hpt : "%t".toList = ['%', 't'] := rfl
  have last : ∀ c, Word c → Replaced "%t".toList "0.25".toList c.toList (subst c).toList := by
    intro c hc
    rcases hc with rfl | ⟨_, _, h3⟩
    · have := Replaced.step (pat := "%t".toList) (new := "0.25".toList) [] [] [] (by simp) (.done [] (by simp))
      simpa [show subst "%t" = "0.25" from rfl] using this
    · have : subst c = c := by
        unfold subst
        rw [if_neg]
        rintro rfl
        exact h3 List.infix_rfl
      rw [this]
      exact .done _ h3
  induction toks with
  | nil => exact .done _ (by simp [List.intercalate])
  | cons c toks ih =>
    have ih := ih fun d hd => h d (List.mem_cons_of_mem _ hd)
    have hc := h c List.mem_cons_self
    cases toks with
    | nil => simpa [List.intercalate] using last c hc
    | cons d toks =>
      have e : ∀ (x : List Char) (y : List Char) (l : List (List Char)),
          [':'].intercalate (x :: y :: l) = x ++ [':'] ++ [':'].intercalate (y :: l) := by
        intro x y l
        simp [List.intercalate]
      simp only [List.map_cons] at ih ⊢
      rw [e, e]
      generalize [':'].intercalate (d.toList :: toks.map String.toList) = s at ih ⊢
      generalize [':'].intercalate ((subst d).toList :: (toks.map subst).map String.toList) = t at ih ⊢
      rcases hc with rfl | ⟨_, _, h3⟩
      · have h1 : Replaced "%t".toList "0.25".toList ([':'] ++ s) ([':'] ++ t) :=
          replaced_prepend [':'] ih (fun b c hbc => no_match [] s (by simp) b c hbc) (by decide)
        have := Replaced.step (pat := "%t".toList) (new := "0.25".toList) [] _ _ (by simp) h1
        simpa [List.append_assoc, show subst "%t" = "0.25" from rfl] using this
      · have : subst c = c := by
          unfold subst
          rw [if_neg]
          rintro rfl
          exact h3 List.infix_rfl
        rw [this]
        exact replaced_prepend _ ih (fun b c' hbc => no_match c.toList s h3 b c' hbc) (by decide)

theorem subst_word {c : String} (h : Word c) : (subst c).toList ≠ [] ∧ ∀ x ∈ (subst c).toList, x ∉ ":".toList := by
  rcases h with rfl | ⟨h1, h2, h3⟩
  · decide
  · have : subst c = c := by
      unfold subst
      rw [if_neg]
      rintro rfl
      exact h3 List.infix_rfl
    rw [this]
    refine ⟨by simpa using h1, fun x hx => ?_⟩
    have : x ≠ ':' := by rintro rfl; exact h2 hx
    simpa using this

/-- How words are read. -/
theorem words_run {V : Type} (o : Ops V) (pr : V → List Char) (toks : List String) (more : List (List Char)) (h : ∀ c ∈ toks, Word c) :
    program o pr ([':'].intercalate (toks.map String.toList) :: more) =
      (run (atTime o) toks).map fun v => some ([':'].intercalate (toks.map String.toList) ++ "\t".toList ++ pr v ++ "\n".toList) := by
  obtain ⟨s, e, hs⟩ := replaceAll_spec ([':'].intercalate (toks.map String.toList)) "%t".toList "0.25".toList (by decide)
  have es := Replaced.unique (by decide) hs (replaced_words toks h)
  subst es
  have hsp := split_join ((toks.map subst).map String.toList) ":".toList [':'] (by decide) (by decide) (by
    intro t ht
    obtain ⟨c, hc, rfl⟩ := List.mem_map.1 ht
    obtain ⟨d, hd, rfl⟩ := List.mem_map.1 hc
    exact subst_word (h d hd))
  unfold program
  simp only [e, hsp, Option.bind_eq_bind, Option.bind_some]
  rw [List.map_map, show String.ofList ∘ String.toList = id from funext fun c => String.ofList_toList, List.map_id, run_subst]
  cases run (atTime o) toks <;> rfl

/-- **C131** Every expression written level by level, with colons between its words, is printed with its value, in which `%t` is the
number 0.25; words after it are ignored. -/
theorem calculator_prints {V : Type} (o : Ops V) (pr : V → List Char) (t : Expr) (hw : t.WF) (v : V) (hv : Expr.Value (atTime o) t v)
    (rest : List String) (more : List (List Char)) (h : ∀ c ∈ Expr.levels t.size [t] ++ rest, Word c) :
    let text := [':'].intercalate ((Expr.levels t.size [t] ++ rest).map String.toList)
    program o pr (text :: more) = some (some (text ++ "\t".toList ++ pr v ++ "\n".toList)) := by
  intro text
  rw [words_run o pr _ more h, karva_value (atTime o) t hw v hv rest]
  rfl

/-- **C131** Nothing else is printed: the argument then begins with an expression that has the value printed. -/
theorem calculator_only {V : Type} (o : Ops V) (pr : V → List Char) (toks : List String) (more : List (List Char)) (h : ∀ c ∈ toks, Word c)
    (out : Option (List Char)) (hp : program o pr ([':'].intercalate (toks.map String.toList) :: more) = some out) :
    ∃ t rest v, t.WF ∧ toks = Expr.levels t.size [t] ++ rest ∧ Expr.Value (atTime o) t v ∧
      out = some ([':'].intercalate (toks.map String.toList) ++ "\t".toList ++ pr v ++ "\n".toList) := by
  rw [words_run o pr toks more h] at hp
  obtain ⟨v, hv, e⟩ := Option.map_eq_some_iff.1 hp
  obtain ⟨t, rest, h1, h2, h3⟩ := karva_only (atTime o) toks v hv
  exact ⟨t, rest, v, h1, h2, h3, e.symm⟩

/-- **C131** For real numbers: a numeral is its value, and `%t` is one fourth. -/
theorem calculator_numbers (sin cos log exp : ℚ → ℚ) :
    (∀ n : Cmplx.Numeral, n.Ok → (atTime (realOps sin cos log exp)).parse (String.ofList n.text) = some n.value) ∧
      (atTime (realOps sin cos log exp)).parse "%t" = some (1 / 4) := by
  constructor
  · intro n hn
    have hne : String.ofList n.text ≠ "%t" := by
      intro e
      have e2 : n.text = ['%', 't'] := by
        have := congrArg String.toList e
        simpa using this
      have := Cmplx.numeral_chars hn '%' (by rw [e2]; simp)
      revert this
      decide
    show (if _ then _ else _) = _
    rw [if_neg hne]
    simp only [realOps, String.toList_ofList, (Cmplx.ast_real n hn).2]
    rfl
  · show (Cmplx.astReal "0.25".toList).toOption = some (1 / 4)
    decide +kernel

/-- **C131** For real numbers: the signs are the operations of arithmetic, if the divisor is not smaller than 0.001; `%` is the
remainder of the whole parts and `?` chooses by whether the whole part of the first number is zero. -/
theorem calculator_operations (sin cos log exp : ℚ → ℚ) (x y z : ℚ) :
    execNode (realOps sin cos log exp) "+" [x, y] = some (x + y) ∧
    execNode (realOps sin cos log exp) "-" [x, y] = some (x - y) ∧
    execNode (realOps sin cos log exp) "*" [x, y] = some (x * y) ∧
    (1 / 1000 ≤ |y| → execNode (realOps sin cos log exp) "/" [x, y] = some (x / y)) ∧
    (1 ≤ |y| → execNode (realOps sin cos log exp) "%" [x, y] = some ((⌊|x|⌋₊ % ⌊|y|⌋₊ : Nat) : ℚ)) ∧
    (|y| < 1 → execNode (realOps sin cos log exp) "%" [x, y] = some (⌊|x|⌋₊ : ℚ)) ∧
    execNode (realOps sin cos log exp) "?" [x, y, z] = some (if |x| < 1 then z else y) ∧
    execNode (realOps sin cos log exp) "sin" [x] = some (sin x) ∧ execNode (realOps sin cos log exp) "cos" [x] = some (cos x) ∧
    execNode (realOps sin cos log exp) "log" [x] = some (log x) ∧ execNode (realOps sin cos log exp) "exp" [x] = some (exp x) := by
  refine ⟨rfl, rfl, rfl, fun h => ?_, fun h => ?_, fun h => ?_, ?_, rfl, rfl, rfl, rfl⟩
  · have h2 : ¬ y * y < 1 / 1000000 := by
      have : (1 / 1000 : ℚ) * (1 / 1000) ≤ |y| * |y| := mul_self_le_mul_self (by norm_num) h
      rw [abs_mul_abs_self] at this
      norm_num at this ⊢
      linarith
    simp [execNode, realOps] at h2 ⊢
    intro h3
    exact absurd h3 (not_lt.2 h2)
  · have h2 : ⌊|y|⌋₊ ≠ 0 := by rw [Ne, Nat.floor_eq_zero]; exact not_lt.2 h
    show some (((if ⌊|y|⌋₊ = 0 then ⌊|x|⌋₊ else ⌊|x|⌋₊ % ⌊|y|⌋₊ : Nat)) : ℚ) = _
    rw [if_neg h2]
  · have h2 : ⌊|y|⌋₊ = 0 := Nat.floor_eq_zero.2 h
    show some (((if ⌊|y|⌋₊ = 0 then ⌊|x|⌋₊ else ⌊|x|⌋₊ % ⌊|y|⌋₊ : Nat)) : ℚ) = _
    rw [if_pos h2]
  · have h2 : ⌊|x|⌋₊ = 0 ↔ |x| < 1 := Nat.floor_eq_zero
    simp only [execNode, realOps, ne_eq, h2]
    by_cases h3 : |x| < 1
    · simp [h3]
    · simp [h3]

example (sin cos log exp : ℚ → ℚ) : execNode (realOps sin cos log exp) "/" [3, 2] = some (3 / 2) ∧
    execNode (realOps sin cos log exp) "%" [7, 1 / 2] = some 7 :=
  ⟨(calculator_operations sin cos log exp 3 2 0).2.2.2.1 (by norm_num), by
    rw [(calculator_operations sin cos log exp 7 (1 / 2) 0).2.2.2.2.2.1 (by rw [abs_of_pos] <;> norm_num)]
    norm_num⟩

/-- **C131, violated part** Division by a number smaller than 0.001, zero or not, gives the dividend. -/
theorem calculator_small_fails (sin cos log exp : ℚ → ℚ) (x y : ℚ) (h : y * y < 1 / 1000000) :
    execNode (realOps sin cos log exp) "/" [x, y] = some x := by
  have : (realOps sin cos log exp).tiny y = true := by simpa [realOps] using h
  simp [execNode, this]

/-- **C131, violated part** One divided by 0.0005 is printed as one, and one followed by other words as one. -/
theorem calculator_examples_fail (sin cos log exp : ℚ → ℚ) (pr : ℚ → List Char) :
    program (realOps sin cos log exp) pr ["/:1:0.0005".toList] = some (some ("/:1:0.0005\t".toList ++ pr 1 ++ "\n".toList)) ∧
    program (realOps sin cos log exp) pr ["1:+:2".toList] = some (some ("1:+:2\t".toList ++ pr 1 ++ "\n".toList)) := by
  have hr : ∀ s toks v, StrUtil.replaceAll s "%t".toList "0.25".toList = some s → StrUtil.split [] s ":".toList = some toks →
      run (realOps sin cos log exp) (toks.map String.ofList) = some v →
      program (realOps sin cos log exp) pr [s] = some (some (s ++ "\t".toList ++ pr v ++ "\n".toList)) := by
    intro s toks v h1 h2 h3
    unfold program
    simp only [h1, h2, h3, Option.bind_eq_bind, Option.bind_some]
    rfl
  have p1 : (realOps sin cos log exp).parse "1" = some 1 := by
    show (Cmplx.astReal "1".toList).toOption = some 1
    decide +kernel
  have p2 : (realOps sin cos log exp).parse "0.0005" = some (1 / 2000) := by
    show (Cmplx.astReal "0.0005".toList).toOption = some (1 / 2000)
    decide +kernel
  constructor
  · refine (hr "/:1:0.0005".toList ["/".toList, "1".toList, "0.0005".toList] 1 (by decide +kernel) (by decide +kernel) ?_).trans rfl
    have e : ["/".toList, "1".toList, "0.0005".toList].map String.ofList = ["/", "1", "0.0005"] := by decide +kernel
    have el : load 1 ["/", "1", "0.0005"] = ["/", "1", "0.0005"] := by decide +kernel
    have ek : link 3 0 ["/", "1", "0.0005"] = [[1, 2], [], []] := by decide +kernel
    have hs := calculator_small_fails sin cos log exp 1 (1 / 2000) (by norm_num)
    have a1 : execNode (realOps sin cos log exp) "1" [] = some 1 := by rw [execNode_nil, if_pos (by decide), p1]
    have a2 : execNode (realOps sin cos log exp) "0.0005" [] = some (1 / 2000) := by rw [execNode_nil, if_pos (by decide), p2]
    rw [e]
    unfold run
    simp only [el, List.length_cons, List.length_nil, Nat.zero_add, Nat.reduceAdd, ek, exec, List.getElem?_cons_zero, List.getElem?_cons_succ,
      Option.bind_eq_bind, Option.bind_some, List.mapM_cons, List.mapM_nil, Option.pure_def, a1, a2, hs]
  · refine (hr "1:+:2".toList ["1".toList, "+".toList, "2".toList] 1 (by decide +kernel) (by decide +kernel) ?_).trans rfl
    have e : ["1".toList, "+".toList, "2".toList].map String.ofList = ["1", "+", "2"] := by decide +kernel
    have el : load 1 ["1", "+", "2"] = ["1"] := by decide +kernel
    have ek : link 1 0 ["1"] = [[]] := by decide +kernel
    have a1 : execNode (realOps sin cos log exp) "1" [] = some 1 := by rw [execNode_nil, if_pos (by decide), p1]
    rw [e]
    unfold run
    simp only [el, List.length_cons, List.length_nil, Nat.zero_add, ek, exec, List.getElem?_cons_zero,
      Option.bind_eq_bind, Option.bind_some, List.mapM_nil, Option.pure_def, a1]

/-- Two and a half times a time. -/
def sampleT : Expr := .node "*" [.node "2.5" [], .node "%t" []]

/-- The hypotheses are met: two and a half times the time is 0.625. -/
example (sin cos log exp : ℚ → ℚ) (pr : ℚ → List Char) :
    program (realOps sin cos log exp) pr ["*:2.5:%t".toList] = some (some ("*:2.5:%t\t".toList ++ pr (5 / 8) ++ "\n".toList)) := by
  have hw : sampleT.WF := .mk _ _ rfl (by
    intro a ha
    simp only [List.mem_cons, List.not_mem_nil, or_false] at ha
    rcases ha with rfl | rfl
    · exact .mk _ _ rfl (by simp)
    · exact .mk _ _ rfl (by simp))
  have p1 : (atTime (realOps sin cos log exp)).parse "2.5" = some (5 / 2) := by
    show (Cmplx.astReal "2.5".toList).toOption = some (5 / 2)
    decide +kernel
  have p2 := (calculator_numbers sin cos log exp).2
  have hv : Expr.Value (atTime (realOps sin cos log exp)) sampleT (5 / 8) := by
    have leaf : ∀ c x, operands c = 0 → (atTime (realOps sin cos log exp)).parse c = some x →
        Expr.Value (atTime (realOps sin cos log exp)) (.node c []) x := fun c x h1 h2 =>
      .mk c [] [] x rfl (fun i h _ => absurd h (by simp)) (.number c x h1 h2)
    refine .mk "*" _ [5 / 2, 1 / 4] _ rfl ?_ ?_
    · intro i h h'
      match i, h, h' with
      | 0, _, _ => exact leaf _ _ rfl p1
      | 1, _, _ => exact leaf _ _ rfl p2
    · have := Apply.mul (o := atTime (realOps sin cos log exp)) (5 / 2) (1 / 4)
      have e : (atTime (realOps sin cos log exp)).mul (5 / 2) (1 / 4) = 5 / 8 := by
        show (5 / 2 : ℚ) * (1 / 4) = 5 / 8
        norm_num
      rwa [e] at this
  have hl : Expr.levels sampleT.size [sampleT] = ["*", "2.5", "%t"] := by
    simp [sampleT, Expr.size, Expr.levels, Expr.nextLevel, Expr.code, Expr.args]
  have := calculator_prints (realOps sin cos log exp) pr sampleT hw (5 / 8) hv [] [] (by
    rw [hl]
    intro c hc
    simp only [List.append_nil, List.mem_cons, List.not_mem_nil, or_false] at hc
    rcases hc with rfl | rfl | rfl
    · exact .inr (by decide +kernel)
    · exact .inr (by decide +kernel)
    · exact .inl rfl)
  simp only [hl] at this
  exact this

/-- **C131** Without arguments nothing is printed and the status is one. -/
theorem calculator_usage {V : Type} (o : Ops V) (pr : V → List Char) : program o pr [] = some none := rfl

end Verif.Whole.Calculator
