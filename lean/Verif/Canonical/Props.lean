import Verif.Canonical.Spec
import Verif.Predicate.Lemmas
import Verif.Labels.Props
import Verif.Ast.Props

/-!
# Operator expressions (C38)
-/

namespace Verif.Canonical

open Verif.Str Verif.StrUtil Verif.Predicate

/-! ## Scanning -/

/-- The character before what follows. -/
def lastOr (p : Option Char) : List Char → Option Char
  | [] => p
  | c :: cs => lastOr (some c) cs

theorem lastOr_append (p : Option Char) (a b : List Char) : lastOr p (a ++ b) = lastOr (lastOr p a) b := by
  induction a generalizing p with
  | nil => rfl
  | cons c a ih => exact ih _

theorem dashOk_append (p : Option Char) (a b : List Char) : DashOk p (a ++ b) ↔ DashOk p a ∧ DashOk (lastOr p a) b := by
  induction a generalizing p with
  | nil => simp [DashOk, lastOr]
  | cons c a ih =>
    rw [List.cons_append, DashOk, DashOk, ih, and_assoc]; rfl

theorem dash_step {p : Option Char} {c : Char} (h : c = '-' → p = none ∨ p = some '(' ∨ p = some '+') :
    ¬ (c = '-' ∧ p ≠ none ∧ p ≠ some '(' ∧ p ≠ some '+') := by
  rintro ⟨h1, h2, h3, h4⟩
  rcases h h1 with h | h | h <;> contradiction

theorem scan_plain (w : List Char) (hw : ∀ c ∈ w, c ≠ '(' ∧ c ≠ ')') (main : List Char) (p : Option Char)
    (ats : List (List Char)) (hd : DashOk p w) :
    w.foldlM scanStep ⟨main, [], false, p, ats⟩ = .ok ⟨main ++ w, [], false, lastOr p w, ats⟩ := by
  induction w generalizing main p with
  | nil => simp [lastOr, pure, Except.pure]
  | cons c w ih =>
    obtain ⟨h1, h2⟩ := hd
    have hc := hw c (by simp)
    rw [List.foldlM_cons]
    have : scanStep ⟨main, [], false, p, ats⟩ c = .ok ⟨main ++ [c], [], false, some c, ats⟩ := by
      unfold scanStep
      rw [if_neg (dash_step h1), if_neg hc.1, if_neg hc.2]; rfl
    rw [this]
    simp only [bind, Except.bind]
    rw [ih (fun c hc => hw c (by simp [hc])) _ _ h2]
    simp [lastOr]

theorem scan_inside (w : List Char) (hw : ∀ c ∈ w, c ≠ '(' ∧ c ≠ ')') (main temp : List Char) (p : Option Char)
    (ats : List (List Char)) (hd : DashOk p w) :
    w.foldlM scanStep ⟨main, temp, true, p, ats⟩ = .ok ⟨main, temp ++ w, true, lastOr p w, ats⟩ := by
  induction w generalizing temp p with
  | nil => simp [lastOr, pure, Except.pure]
  | cons c w ih =>
    obtain ⟨h1, h2⟩ := hd
    have hc := hw c (by simp)
    rw [List.foldlM_cons]
    have : scanStep ⟨main, temp, true, p, ats⟩ c = .ok ⟨main, temp ++ [c], true, some c, ats⟩ := by
      unfold scanStep
      rw [if_neg (dash_step h1), if_neg hc.1, if_neg hc.2]; rfl
    rw [this]
    simp only [bind, Except.bind]
    rw [ih (fun c hc => hw c (by simp [hc])) _ _ h2]
    simp [lastOr]

/-- What stands for parentheses number `k`. -/
def atText (k : Nat) : List Char := '@' :: Nat.toDigits 10 k ++ ['@']

/-- The factor in the main buffer. -/
def mainFactor (k : Nat) : Factor → List Char
  | .paren _ => atText k
  | f => f.text

/-- Texts in parentheses. -/
def parens : List Factor → List (List Char)
  | [] => []
  | .paren s :: t => s :: parens t
  | .real _ :: t => parens t
  | .imag _ :: t => parens t
  | .op _ :: t => parens t

theorem parens_cons (f : Factor) (t : List Factor) : parens (f :: t) = parens [f] ++ parens t := by
  cases f <;> simp [parens]

/-- The factors of a term in the main buffer, the first parentheses having number `k`. -/
def mainTerm (k : Nat) : List Factor → List (List Char)
  | [] => []
  | f :: t => mainFactor k f :: mainTerm (k + (parens [f]).length) t

def mainExpr (k : Nat) : List (List Factor) → List (List (List Char))
  | [] => []
  | t :: e => mainTerm k t :: mainExpr (k + (parens t).length) e

theorem plain_chars (f : Factor) (h : f.Ok) (hp : ∀ s, f ≠ .paren s) :
    ∀ c ∈ f.text, c ≠ '(' ∧ c ≠ ')' ∧ c ≠ '+' ∧ c ≠ '*' ∧ c ≠ '@' := by
  have hnum : ∀ c ∈ "0123456789.-".toList, c ≠ '(' ∧ c ≠ ')' ∧ c ≠ '+' ∧ c ≠ '*' ∧ c ≠ '@' := by decide
  intro c hc
  cases f with
  | real s => exact hnum c (h.2 c hc)
  | imag s =>
    rcases h with rfl | ⟨r, _, rfl, hr⟩
    · simp [Factor.text] at hc; subst hc; decide
    · simp only [Factor.text, List.mem_append, List.mem_singleton] at hc
      rcases hc with hc | rfl
      · exact hnum c (hr c hc)
      · decide
  | paren s => exact absurd rfl (hp s)
  | op s =>
    have := h.1 c hc
    simp at this
    tauto

theorem text_ne_nil (f : Factor) (h : f.Ok) : f.text ≠ [] := by
  cases f with
  | real s => exact h.1
  | imag s => rcases h with rfl | ⟨r, _, rfl, _⟩ <;> simp [Factor.text]
  | paren s => simp [Factor.text]
  | op s => obtain ⟨_, _, c, w, rfl, _⟩ := h; simp [Factor.text]

theorem scan_factor (f : Factor) (h : f.Ok) (main : List Char) (p : Option Char) (ats : List (List Char))
    (hd : DashOk p f.text) :
    f.text.foldlM scanStep ⟨main, [], false, p, ats⟩ =
      .ok ⟨main ++ mainFactor ats.length f, [], false, lastOr p f.text, ats ++ parens [f]⟩ := by
  by_cases hp : ∃ s, f = .paren s
  · obtain ⟨s, rfl⟩ := hp
    simp only [Factor.text, parens, mainFactor] at hd ⊢
    obtain ⟨h1, h2⟩ := hd
    rw [show s.append [')'] = s ++ [')'] from rfl, dashOk_append] at h2
    rw [List.cons_append, List.foldlM_cons]
    have e1 : scanStep ⟨main, [], false, p, ats⟩ '(' = .ok ⟨main, [], true, some '(', ats⟩ := by
      unfold scanStep; rw [if_neg (by simp), if_pos rfl]; rfl
    rw [e1]
    simp only [bind, Except.bind]
    rw [List.foldlM_append, scan_inside s h main [] _ ats h2.1]
    simp only [bind, Except.bind, List.foldlM_cons, List.foldlM_nil, List.nil_append]
    have e2 : scanStep ⟨main, s, true, lastOr (some '(') s, ats⟩ ')' =
        .ok ⟨main ++ atText ats.length, [], false, some ')', ats ++ [s]⟩ := by
      unfold scanStep; rw [if_neg (by simp), if_neg (by simp), if_pos rfl]; rfl
    rw [e2, lastOr, lastOr_append]
    rfl
  · push Not at hp
    have hc := plain_chars f h hp
    rw [scan_plain f.text (fun c hc' => ⟨(hc c hc').1, (hc c hc').2.1⟩) main p ats hd]
    cases f with
    | paren s => exact absurd rfl (hp s)
    | _ => simp [parens, mainFactor]

theorem inter_cons' (c : Char) (t : List Char) (L : List (List Char)) (h : L ≠ []) :
    [c].intercalate (t :: L) = t ++ c :: [c].intercalate L := by
  cases L with
  | nil => exact absurd rfl h
  | cons u r => exact inter_cons c t u r

theorem scan_term : ∀ (t : List Factor) (_ : ∀ f ∈ t, f.Ok) (main : List Char) (p : Option Char)
    (ats : List (List Char)) (_ : DashOk p (termText t)),
    (termText t).foldlM scanStep ⟨main, [], false, p, ats⟩ =
      .ok ⟨main ++ ['*'].intercalate (mainTerm ats.length t), [], false, lastOr p (termText t), ats ++ parens t⟩
  | [], _, main, p, ats, _ => by
    simp [termText, parens, mainTerm, lastOr, pure, Except.pure, inter_nil]
  | [f], h, main, p, ats, hd => by
    have e : termText [f] = f.text := by simp [termText, inter_one]
    rw [e] at hd ⊢
    rw [scan_factor f (h f (by simp)) main p ats hd]
    simp [mainTerm, inter_one]
  | f :: g :: t, h, main, p, ats, hd => by
    have e : termText (f :: g :: t) = f.text ++ '*' :: termText (g :: t) := by
      unfold termText; rw [List.map_cons, inter_cons' _ _ _ (by simp)]
    rw [e, dashOk_append] at hd
    obtain ⟨hd1, _, hd2⟩ := hd
    have ih := scan_term (g :: t) (fun f hf => h f (by simp [List.mem_cons.1 hf])) (main ++ mainFactor ats.length f ++ ['*'])
      (some '*') (ats ++ parens [f]) hd2
    rw [e, List.foldlM_append, scan_factor f (h f (by simp)) main p ats hd1]
    simp only [bind, Except.bind, List.foldlM_cons]
    have e1 : scanStep ⟨main ++ mainFactor ats.length f, [], false, lastOr p f.text, ats ++ parens [f]⟩ '*' =
        .ok ⟨main ++ mainFactor ats.length f ++ ['*'], [], false, some '*', ats ++ parens [f]⟩ := by
      unfold scanStep; rw [if_neg (by simp), if_neg (by simp), if_neg (by simp)]; rfl
    rw [e1]
    simp only
    rw [ih, parens_cons f (g :: t), lastOr_append, lastOr]
    congr 2
    · rw [show mainTerm ats.length (f :: g :: t) = mainFactor ats.length f ::
        mainTerm (ats.length + (parens [f]).length) (g :: t) from rfl, inter_cons' _ _ _ (by simp [mainTerm])]
      simp
    · simp

theorem scan_expr : ∀ (e : List (List Factor)) (_ : ∀ t ∈ e, ∀ f ∈ t, f.Ok) (main : List Char) (p : Option Char)
    (ats : List (List Char)) (_ : DashOk p (exprText e)),
    (exprText e).foldlM scanStep ⟨main, [], false, p, ats⟩ =
      .ok ⟨main ++ ['+'].intercalate ((mainExpr ats.length e).map (['*'].intercalate)), [], false, lastOr p (exprText e),
        ats ++ e.flatMap parens⟩
  | [], _, main, p, ats, _ => by
    simp [exprText, mainExpr, lastOr, pure, Except.pure, inter_nil]
  | [t], h, main, p, ats, hd => by
    have e : exprText [t] = termText t := by simp [exprText, inter_one]
    rw [e] at hd ⊢
    rw [scan_term t (h t (by simp)) main p ats hd]
    simp [mainExpr, inter_one]
  | t :: u :: r, h, main, p, ats, hd => by
    have e : exprText (t :: u :: r) = termText t ++ '+' :: exprText (u :: r) := by
      unfold exprText; rw [List.map_cons, inter_cons' _ _ _ (by simp)]
    rw [e, dashOk_append] at hd
    obtain ⟨hd1, _, hd2⟩ := hd
    have ih := scan_expr (u :: r) (fun f hf => h f (by simp [List.mem_cons.1 hf]))
      (main ++ ['*'].intercalate (mainTerm ats.length t) ++ ['+']) (some '+') (ats ++ parens t) hd2
    rw [e, List.foldlM_append, scan_term t (h t (by simp)) main p ats hd1]
    simp only [bind, Except.bind, List.foldlM_cons]
    have e1 : scanStep ⟨main ++ ['*'].intercalate (mainTerm ats.length t), [], false, lastOr p (termText t), ats ++ parens t⟩ '+' =
        .ok ⟨main ++ ['*'].intercalate (mainTerm ats.length t) ++ ['+'], [], false, some '+', ats ++ parens t⟩ := by
      unfold scanStep; rw [if_neg (by simp), if_neg (by simp), if_neg (by simp)]; rfl
    rw [e1]
    simp only
    rw [ih, lastOr_append, lastOr]
    congr 2
    · rw [show mainExpr ats.length (t :: u :: r) = mainTerm ats.length t ::
        mainExpr (ats.length + (parens t).length) (u :: r) from rfl, List.map_cons,
        inter_cons' _ _ _ (by simp [mainExpr])]
      simp
    · simp

/-! ## The constructor -/

theorem toDigits_chars (k : Nat) : ∀ c ∈ Nat.toDigits 10 k, c ∈ ['0', '1', '2', '3', '4', '5', '6', '7', '8', '9'] :=
  fun c hc => (isDigit_iff c).1 (isDigit_toDigits k c hc)

theorem atText_chars (k : Nat) : ∀ c ∈ atText k, c ≠ '+' ∧ c ≠ '*' := by
  intro c hc
  simp only [atText, List.cons_append, List.mem_cons, List.mem_append, List.mem_singleton] at hc
  rcases hc with rfl | hc | rfl | hc
  · decide
  · have := toDigits_chars k c hc
    revert this
    have : ∀ c ∈ ['0', '1', '2', '3', '4', '5', '6', '7', '8', '9'], c ≠ '+' ∧ c ≠ '*' := by decide
    exact this c
  · decide
  · simp at hc

theorem mainTerm_chars : ∀ (t : List Factor) (k : Nat), (∀ f ∈ t, f.Ok) →
    ∀ s ∈ mainTerm k t, s ≠ [] ∧ ∀ c ∈ s, c ≠ '+' ∧ c ≠ '*'
  | [], _, _, s, hs => by simp [mainTerm] at hs
  | f :: t, k, h, s, hs => by
    rcases List.mem_cons.1 hs with rfl | hs
    · have hf := h f (by simp)
      by_cases hp : ∃ s, f = .paren s
      · obtain ⟨s, rfl⟩ := hp
        exact ⟨by simp [mainFactor, atText], atText_chars k⟩
      · push Not at hp
        have e : mainFactor k f = f.text := by cases f <;> first | rfl | exact absurd rfl (hp _)
        rw [e]
        exact ⟨text_ne_nil f hf, fun c hc => ⟨(plain_chars f hf hp c hc).2.2.1, (plain_chars f hf hp c hc).2.2.2.1⟩⟩
    · exact mainTerm_chars t _ (fun f hf => h f (by simp [hf])) s hs

theorem mem_mainExpr : ∀ (e : List (List Factor)) (k : Nat) (L : List (List Char)), L ∈ mainExpr k e →
    ∃ t ∈ e, ∃ k', L = mainTerm k' t
  | [], _, L, h => by simp [mainExpr] at h
  | t :: e, k, L, h => by
    rcases List.mem_cons.1 h with rfl | h
    · exact ⟨t, by simp, k, rfl⟩
    · obtain ⟨t', h1, h2⟩ := mem_mainExpr e _ L h
      exact ⟨t', by simp [h1], h2⟩

theorem ctor_text {F : Type} (arith : List Char → Out F) (e : List (List Factor)) (h : ∀ t ∈ e, t ≠ [] ∧ ∀ f ∈ t, f.Ok)
    (hd : DashOk none (exprText e)) (vals : List F) (hv : (e.flatMap parens).mapM arith = .ok vals) :
    QuasiCanonical.ctor arith (exprText e) =
      .ok ⟨e.flatMap parens, (mainExpr 0 e).map (['*'].intercalate), vals⟩ := by
  unfold QuasiCanonical.ctor
  rw [scan_expr e (fun t ht => (h t ht).2) [] none [] hd]
  simp only [bind, Except.bind, List.nil_append, List.length_nil, Bool.false_eq_true, if_false]
  rw [split_join _ ['+'] ['+'] (by simp) (by simp) ?_]
  · simp only [ofThrow, hv]
  · intro s hs
    obtain ⟨L, hL, rfl⟩ := List.mem_map.1 hs
    obtain ⟨t, ht, k', rfl⟩ := mem_mainExpr e 0 L hL
    have hc := mainTerm_chars t k' (h t ht).2
    constructor
    · apply inter_ne_nil
      · have := (h t ht).1
        cases t with
        | nil => exact absurd rfl this
        | cons f t => simp [mainTerm]
      · exact fun s hs => (hc s hs).1
    · intro c hc' hm
      simp only [List.mem_singleton] at hm
      subst hm
      rcases mem_inter '*' _ _ hc' with h | ⟨s, hs, h⟩
      · simp at h
      · exact ((hc s hs).2 _ h).1 rfl

/-! ## Factors -/

theorem all_false {s : List Char} {c : Char} (hc : c ∈ s) (h : c ∉ "0123456789.-+".toList) :
    isRealScalar s = .ok false := by
  unfold isRealScalar
  rw [if_neg (by intro e; rw [List.length_eq_zero_iff.1 e] at hc; simp at hc)]
  congr 1
  rw [List.all_eq_false]
  refine ⟨c, hc, ?_⟩
  have hd : isDigit c = false := by
    rw [Bool.eq_false_iff]
    intro hd
    have := (isDigit_iff c).1 hd
    apply h
    have sub : ∀ c ∈ ['0', '1', '2', '3', '4', '5', '6', '7', '8', '9'], c ∈ "0123456789.-+".toList := by decide
    exact sub c this
  simp at h
  simp [hd, h]

theorem all_true {s : List Char} (hs : s ≠ []) (h : ∀ c ∈ s, c ∈ "0123456789.-".toList) : isRealScalar s = .ok true := by
  unfold isRealScalar
  rw [if_neg (by simpa using hs)]
  congr 1
  rw [List.all_eq_true]
  intro c hc
  have : ∀ c ∈ "0123456789.-".toList, (c == '.' || c == '-' || c == '+' || isDigit c) = true := by decide
  exact this c (h c hc)

theorem pureComplex_false {c : Char} {w : List Char} (h : c ∉ "0123456789.-+".toList) (hi : c :: w ≠ ['i']) :
    isPureComplex (c :: w) = .ok false := by
  unfold isPureComplex
  rw [if_neg hi]
  split
  · rfl
  · rename_i hl
    have : 1 ≤ w.length := by simp at hl; omega
    apply all_false (c := c) _ h
    rw [List.length_cons, Nat.add_sub_cancel, List.take_cons (by omega)]
    simp

theorem scalarIndex_at (n k : Nat) (hk : k < n) (hn : n ≤ 2 ^ 31) : scalarIndex n (atText k) = .ok (some k) := by
  have hl : (atText k).length = (Nat.toDigits 10 k).length + 2 := by simp [atText]
  have hp := Labels.toDigits_pos k
  unfold scalarIndex
  rw [if_neg (by omega), if_neg ?_]
  · rw [show substr (atText k) 1 ((atText k).length - 2) = some (Nat.toDigits 10 k) by
      rw [hl]; simp [substr, atText]]
    simp only [ofThrow, bind, Except.bind]
    rw [Labels.atoi_digits k (by omega)]
    simp only [ofNested]
    rw [if_neg (by push Not; constructor <;> simp; exact hk)]
    simp
  · rw [not_or, not_not, not_not]
    refine ⟨by simp [atText], ?_⟩
    rw [hl]
    simp [atText]

theorem scalarIndex_op (n : Nat) (s : List Char) (h : '@' ∉ s) : scalarIndex n s = .ok none := by
  unfold scalarIndex
  split
  · rfl
  · rw [if_pos]
    left
    intro e
    apply h
    cases s with
    | nil => simp at e
    | cons c s => simp at e; simp [e]

/-! ## Terms -/

section
variable {F A : Type} [CommSemiring F] [Semiring A] [Algebra F A]

/-- Times `a`. -/
def times (p : Option A) (a : A) : A :=
  match p with
  | none => a
  | some b => b * a

/-- The product so far. -/
def comb (p : Option A) : List A → Option A
  | [] => p
  | a :: as => comb (some (times p a)) as

theorem comb_some (b : A) (as : List A) : comb (some b) as = some (b * as.prod) := by
  induction as generalizing b with
  | nil => simp [comb]
  | cons a as ih => simp [comb, times, ih, mul_assoc]

theorem comb_none (as : List A) (h : as ≠ []) : comb none as = some as.prod := by
  cases as with
  | nil => exact absurd rfl h
  | cons a as => simp [comb, times, comb_some]

theorem fold_term (sp : Spec F A) (arith : List Char → Out F) (qc : QuasiCanonical F) (hm : ∀ a b, sp.metaItems a b = true)
    (hn : qc.ats.length ≤ 2 ^ 31) : ∀ (t : List Factor) (k : Nat) (fs : List F) (as : List A) (p : Option A) (x : F),
    (∀ f ∈ t, f.Ok) → (∀ (j : Nat) s, (parens t)[j]? = some s → k + j < qc.ats.length ∧
      ∃ f, arith s = .ok f ∧ qc.cached[k + j]? = some f) →
    List.Forall₂ (ScalarOf sp arith) t fs → List.Forall₂ (fun s x => sp.item s = .ok x) (opsOf t) as →
    (mainTerm k t).foldlM (procFactor sp qc) (p, x) = .ok (comb p as, x * fs.prod)
  | [], k, fs, as, p, x, _, _, h1, h2 => by
    cases h1
    cases h2
    simp [mainTerm, comb, pure, Except.pure]
  | .real s :: t, k, fs, as, p, x, ho, hq, h1, h2 => by
    obtain ⟨f, fs, hf, h1', rfl⟩ := List.forall₂_cons_left_iff.1 h1
    cases hf with | real _ _ hf => ?_
    have hs : Factor.Ok (.real s) := ho _ (by simp)
    have e : procFactor sp qc (p, x) s = .ok (p, x * f) := by
      unfold procFactor
      rw [all_true hs.1 hs.2]
      simp [bind, Except.bind, hf, pure, Except.pure]
    have ih := fold_term sp arith qc hm hn t k fs as p (x * f) (fun f hf => ho f (by simp [hf])) hq h1' h2
    rw [mainTerm, List.foldlM_cons]
    simp only [mainFactor, Factor.text, parens, List.length_nil, Nat.add_zero]
    rw [e]
    simp only [bind, Except.bind]
    rw [ih, List.prod_cons, mul_assoc]
  | .imag s :: t, k, fs, as, p, x, ho, hq, h1, h2 => by
    obtain ⟨f, fs, hf, h1', rfl⟩ := List.forall₂_cons_left_iff.1 h1
    cases hf with | imag _ _ hf => ?_
    have hs : Factor.Ok (.imag s) := ho _ (by simp)
    have er : isRealScalar s = .ok false := by
      apply all_false (c := 'i') _ (by decide)
      rcases hs with rfl | ⟨r, _, rfl, _⟩ <;> simp
    have ei : isPureComplex s = .ok true := by
      unfold isPureComplex
      rcases hs with rfl | ⟨r, hr, rfl, hc⟩
      · rfl
      · have : 0 < r.length := List.length_pos_iff.2 hr
        rw [if_neg (by simp [hr]), if_neg (by simp; omega)]
        simp only [List.length_append, List.length_singleton, Nat.add_sub_cancel, List.take_left']
        exact all_true hr hc
    have e : procFactor sp qc (p, x) s = .ok (p, x * f) := by
      unfold procFactor
      rw [er, ei]
      simp [bind, Except.bind, hf, pure, Except.pure]
    have ih := fold_term sp arith qc hm hn t k fs as p (x * f) (fun f hf => ho f (by simp [hf])) hq h1' h2
    rw [mainTerm, List.foldlM_cons]
    simp only [mainFactor, Factor.text, parens, List.length_nil, Nat.add_zero]
    rw [e]
    simp only [bind, Except.bind]
    rw [ih, List.prod_cons, mul_assoc]
  | .paren s :: t, k, fs, as, p, x, ho, hq, h1, h2 => by
    obtain ⟨f, fs, hf, h1', rfl⟩ := List.forall₂_cons_left_iff.1 h1
    cases hf with | paren _ _ hf => ?_
    obtain ⟨hk, f', hf', hc⟩ := hq 0 s (by simp [parens])
    rw [hf, Except.ok.injEq] at hf'
    subst hf'
    have er : isRealScalar (atText k) = .ok false :=
      all_false (c := '@') (by simp [atText]) (by decide)
    have ei : isPureComplex (atText k) = .ok false :=
      pureComplex_false (by decide) (by simp)
    have e : procFactor sp qc (p, x) (atText k) = .ok (p, x * f) := by
      unfold procFactor
      rw [er, ei, scalarIndex_at _ k hk hn]
      simp only [bind, Except.bind, pure, Except.pure, Bool.false_eq_true, if_false]
      rw [Nat.add_zero] at hc
      rw [hc]
    have ih := fold_term sp arith qc hm hn t (k + 1) fs as p (x * f) (fun f hf => ho f (by simp [hf]))
      (fun j s hj => by
        have := hq (j + 1) s (by simpa [parens] using hj)
        rwa [show k + (j + 1) = k + 1 + j by omega] at this) h1' h2
    rw [mainTerm, List.foldlM_cons]
    simp only [mainFactor, parens, List.length_cons, List.length_nil, Nat.zero_add]
    rw [e]
    simp only [bind, Except.bind]
    rw [ih, List.prod_cons, mul_assoc]
  | .op s :: t, k, fs, as, p, x, ho, hq, h1, h2 => by
    obtain ⟨f, fs, hf, h1', rfl⟩ := List.forall₂_cons_left_iff.1 h1
    cases hf
    obtain ⟨a, as, ha, h2', rfl⟩ := List.forall₂_cons_left_iff.1 h2
    have hs : Factor.Ok (.op s) := ho _ (by simp)
    obtain ⟨hch, hi, c, w, rfl, hcw⟩ := hs
    have hn' : c ∉ "0123456789.-+".toList := by
      have := hch c (by simp)
      simp at this hcw ⊢
      tauto
    have e : procFactor sp qc (p, x) (c :: w) = .ok (some (times p a), x) := by
      unfold procFactor
      rw [all_false (c := c) (by simp) hn', pureComplex_false hn' hi,
        scalarIndex_op _ _ (fun h => by have := hch _ h; simp at this)]
      simp only [bind, Except.bind, pure, Except.pure, Bool.false_eq_true, if_false]
      rw [ha]
      cases p <;> simp [hm, times]
    have ih := fold_term sp arith qc hm hn t k fs as (some (times p a)) x (fun f hf => ho f (by simp [hf])) hq h1' h2'
    rw [mainTerm, List.foldlM_cons]
    simp only [mainFactor, Factor.text, parens, List.length_nil, Nat.add_zero]
    rw [e]
    simp only [bind, Except.bind]
    rw [ih, List.prod_cons, one_mul]
    rfl

theorem split_term (t : List Factor) (k : Nat) (h : ∀ f ∈ t, f.Ok) :
    split [] (['*'].intercalate (mainTerm k t)) ['*'] = some (mainTerm k t) := by
  rw [split_join _ ['*'] ['*'] (by simp) (by simp)]
  · intro s hs
    have := mainTerm_chars t k h s hs
    exact ⟨this.1, fun c hc hm => (this.2 c hc).2 (by simpa using hm)⟩

/-- A term with an operator has its value; a term without leaves the result empty. -/
theorem procTerm_eq (sp : Spec F A) (arith : List Char → Out F) (qc : QuasiCanonical F)
    (hm : ∀ a b, sp.metaItems a b = true) (hn : qc.ats.length ≤ 2 ^ 31) (t : List Factor) (k : Nat)
    (ho : ∀ f ∈ t, f.Ok) (hq : ∀ (j : Nat) s, (parens t)[j]? = some s → k + j < qc.ats.length ∧
      ∃ f, arith s = .ok f ∧ qc.cached[k + j]? = some f) (a : A) (h : TermValue sp arith t a) :
    procTerm sp qc (['*'].intercalate (mainTerm k t)) = .ok (if opsOf t = [] then none else some a) := by
  obtain ⟨fs, as, h1, h2, rfl⟩ := h
  unfold procTerm
  rw [split_term t k ho]
  simp only [ofThrow, bind, Except.bind]
  rw [fold_term sp arith qc hm hn t k fs as none 1 ho hq h1 h2]
  simp only
  by_cases he : opsOf t = []
  · rw [if_pos he]
    rw [he] at h2
    cases h2
    simp [comb, pure, Except.pure]
  · rw [if_neg he, comb_none as (by rintro rfl; cases h2' : opsOf t <;> simp_all)]
    simp [pure, Except.pure]

/-! ## Expressions -/

/-- Sum of the values of the terms that have an operator. -/
def opSum : List (List Factor) → List A → A
  | t :: e, a :: vs => if opsOf t = [] then opSum e vs else a + opSum e vs
  | _, _ => 0

theorem opSum_eq (e : List (List Factor)) (vs : List A) (hl : e.length = vs.length) (h : ∀ t ∈ e, opsOf t ≠ []) :
    opSum e vs = vs.sum := by
  induction e generalizing vs with
  | nil => cases vs with
    | nil => rfl
    | cons _ _ => simp at hl
  | cons t e ih =>
    cases vs with
    | nil => simp at hl
    | cons a vs =>
      rw [opSum, if_neg (h t (by simp)), ih vs (by simpa using hl) (fun t ht => h t (by simp [ht])), List.sum_cons]

theorem fold_terms (sp : Spec F A) (arith : List Char → Out F) (qc : QuasiCanonical F)
    (hm : ∀ a b, sp.metaItems a b = true) (hr : ∀ a r, sp.metaResult a r = true) (hn : qc.ats.length ≤ 2 ^ 31) :
    ∀ (e : List (List Factor)) (k i : Nat) (vs : List A) (r : A), i ≠ 0 → (∀ t ∈ e, ∀ f ∈ t, f.Ok) →
    (∀ (j : Nat) s, (e.flatMap parens)[j]? = some s → k + j < qc.ats.length ∧
      ∃ f, arith s = .ok f ∧ qc.cached[k + j]? = some f) → List.Forall₂ (TermValue sp arith) e vs →
    ((mainExpr k e).map (['*'].intercalate)).foldlM (termStep sp qc) (i, some r) =
      .ok (i + e.length, some (r + opSum e vs))
  | [], k, i, vs, r, _, _, _, h => by
    cases h
    simp [mainExpr, opSum, pure, Except.pure]
  | t :: e, k, i, vs, r, hi, ho, hq, h => by
    obtain ⟨a, vs, ha, h', rfl⟩ := List.forall₂_cons_left_iff.1 h
    have hq1 : ∀ (j : Nat) s, (parens t)[j]? = some s → k + j < qc.ats.length ∧
      ∃ f, arith s = .ok f ∧ qc.cached[k + j]? = some f := fun j s hj => hq j s (by
        rw [List.flatMap_cons, List.getElem?_append_left (List.getElem?_eq_some_iff.1 hj).1]; exact hj)
    have hq2 : ∀ (j : Nat) s, (e.flatMap parens)[j]? = some s → k + (parens t).length + j < qc.ats.length ∧
      ∃ f, arith s = .ok f ∧ qc.cached[k + (parens t).length + j]? = some f := fun j s hj => by
        have := hq ((parens t).length + j) s (by
          rw [List.flatMap_cons, List.getElem?_append_right (by omega), Nat.add_sub_cancel_left]; exact hj)
        rwa [← Nat.add_assoc] at this
    have ht := procTerm_eq sp arith qc hm hn t k (ho t (by simp)) hq1 a ha
    rw [mainExpr, List.map_cons, List.foldlM_cons]
    unfold termStep
    rw [ht]
    by_cases he : opsOf t = []
    · have ih := fold_terms sp arith qc hm hr hn e _ (i + 1) vs r (by omega) (fun t ht => ho t (by simp [ht])) hq2 h'
      rw [if_pos he, opSum, if_pos he]
      simp only [bind, Except.bind, pure, Except.pure]
      unfold termStep at ih
      simp only [bind, Except.bind, pure, Except.pure] at ih
      rw [ih, List.length_cons]
      congr 2
      omega
    · have ih := fold_terms sp arith qc hm hr hn e _ (i + 1) vs (r + a) (by omega) (fun t ht => ho t (by simp [ht])) hq2 h'
      rw [if_neg he, opSum, if_neg he]
      simp only [bind, Except.bind, pure, Except.pure, hr, hi, Bool.not_true, Bool.false_eq_true, if_false]
      unfold termStep at ih
      simp only [bind, Except.bind, pure, Except.pure, hr, Bool.not_true, Bool.false_eq_true, if_false] at ih
      rw [ih, List.length_cons]
      congr 2
      · omega
      · rw [add_assoc]

theorem mapM_parens (arith : List Char → Out F) (L : List (List Char)) (h : ∀ s ∈ L, ∃ f, arith s = .ok f) :
    ∃ vals, L.mapM arith = .ok vals ∧ ∀ (j : Nat) s, L[j]? = some s → ∃ f, arith s = .ok f ∧ vals[j]? = some f := by
  induction L with
  | nil => exact ⟨[], by simp [pure, Except.pure], by simp⟩
  | cons s L ih =>
    obtain ⟨f, hf⟩ := h s (by simp)
    obtain ⟨vals, h1, h2⟩ := ih (fun s hs => h s (by simp [hs]))
    refine ⟨f :: vals, by simp [List.mapM_cons, hf, h1, bind, Except.bind, pure, Except.pure], ?_⟩
    intro j u hj
    cases j with
    | zero => simp at hj; subst hj; exact ⟨f, hf, by simp⟩
    | succ j => simpa using h2 j u (by simpa using hj)

theorem parens_scalar (sp : Spec F A) (arith : List Char → Out F) (t : List Factor) (fs : List F)
    (h : List.Forall₂ (ScalarOf sp arith) t fs) : ∀ s ∈ parens t, ∃ f, arith s = .ok f := by
  induction h with
  | nil => simp [parens]
  | cons hf _ ih =>
    rcases hf with ⟨s, f, hf⟩ | ⟨s, f, hf⟩ | ⟨s, f, hf⟩ | ⟨s⟩
    · exact ih
    · exact ih
    · intro u hu
      rcases List.mem_cons.1 hu with rfl | hu
      · exact ⟨_, by assumption⟩
      · exact ih u hu
    · exact ih

theorem parens_value (sp : Spec F A) (arith : List Char → Out F) (e : List (List Factor)) (vs : List A)
    (h : List.Forall₂ (TermValue sp arith) e vs) : ∀ s ∈ e.flatMap parens, ∃ f, arith s = .ok f := by
  induction h with
  | nil => simp
  | cons ht _ ih =>
    obtain ⟨fs, _, h1, _⟩ := ht
    intro s hs
    rw [List.flatMap_cons, List.mem_append] at hs
    rcases hs with hs | hs
    · exact parens_scalar sp arith _ fs h1 s hs
    · exact ih s hs

/-- What `evaluate` gives in general: terms without an operator count for nothing, and if the first term has no
operator the old contents of the result are added to. -/
theorem evaluate_eq (sp : Spec F A) (arith : List Char → Out F) (result : Option A) (t : List Factor)
    (e : List (List Factor)) (a : A) (vs : List A)
    (hm : ∀ a b, sp.metaItems a b = true) (hr : ∀ a r, sp.metaResult a r = true)
    (ho : ∀ u ∈ t :: e, u ≠ [] ∧ ∀ f ∈ u, f.Ok) (hd : DashOk none (exprText (t :: e)))
    (hn : ((t :: e).flatMap parens).length ≤ 2 ^ 31) (ha : TermValue sp arith t a)
    (hv : List.Forall₂ (TermValue sp arith) e vs) :
    (opsOf t ≠ [] → evaluate sp arith result (exprText (t :: e)) = .ok (some (a + opSum e vs))) ∧
    (∀ r, opsOf t = [] → result = some r →
      evaluate sp arith result (exprText (t :: e)) = .ok (some (r + opSum e vs))) := by
  obtain ⟨vals, h1, h2⟩ := mapM_parens arith ((t :: e).flatMap parens) (parens_value sp arith _ _ (.cons ha hv))
  have hq : ∀ (j : Nat) s, ((t :: e).flatMap parens)[j]? = some s → j < ((t :: e).flatMap parens).length ∧
      ∃ f, arith s = .ok f ∧ vals[j]? = some f :=
    fun j s hj => ⟨(List.getElem?_eq_some_iff.1 hj).1, h2 j s hj⟩
  have hq1 : ∀ (j : Nat) s, (parens t)[j]? = some s → 0 + j < ((t :: e).flatMap parens).length ∧
      ∃ f, arith s = .ok f ∧ vals[0 + j]? = some f := fun j s hj => by
    rw [Nat.zero_add]
    exact hq j s (by rw [List.flatMap_cons, List.getElem?_append_left (List.getElem?_eq_some_iff.1 hj).1]; exact hj)
  have hq2 : ∀ (j : Nat) s, (e.flatMap parens)[j]? = some s → (0 + (parens t).length) + j < ((t :: e).flatMap parens).length ∧
      ∃ f, arith s = .ok f ∧ vals[0 + (parens t).length + j]? = some f := fun j s hj => by
    rw [Nat.zero_add]
    exact hq _ s (by
      rw [List.flatMap_cons, List.getElem?_append_right (by omega), Nat.add_sub_cancel_left]; exact hj)
  have hp := procTerm_eq sp arith ⟨(t :: e).flatMap parens, (mainExpr 0 (t :: e)).map (['*'].intercalate), vals⟩
    hm hn t 0 (ho t (by simp)).2 hq1 a ha
  have hf := fold_terms sp arith ⟨(t :: e).flatMap parens, (mainExpr 0 (t :: e)).map (['*'].intercalate), vals⟩
    hm hr hn e (0 + (parens t).length) 1 vs
  unfold evaluate
  rw [ctor_text arith (t :: e) ho hd vals h1]
  have e1 : (mainExpr 0 (t :: e)).map (['*'].intercalate) = ['*'].intercalate (mainTerm 0 t) ::
    (mainExpr (0 + (parens t).length) e).map (['*'].intercalate) := rfl
  refine ⟨fun h => ?_, fun r h hres => ?_⟩
  · have hs : termStep sp ⟨(t :: e).flatMap parens, (mainExpr 0 (t :: e)).map (['*'].intercalate), vals⟩ (0, result)
        (['*'].intercalate (mainTerm 0 t)) = .ok (1, some a) := by
      unfold termStep
      rw [hp, if_neg h]
      simp [bind, Except.bind, pure, Except.pure, hr]
    have := hf a (by omega) (fun u hu => (ho u (by simp [hu])).2) hq2 hv
    simp only [bind, Except.bind]
    rw [e1] at hs this ⊢
    rw [List.foldlM_cons, hs]
    simp only [bind, Except.bind]
    rw [this]
    rfl
  · subst hres
    have hs : termStep sp ⟨(t :: e).flatMap parens, (mainExpr 0 (t :: e)).map (['*'].intercalate), vals⟩ (0, some r)
        (['*'].intercalate (mainTerm 0 t)) = .ok (1, some r) := by
      unfold termStep
      rw [hp, if_pos h]
      simp [bind, Except.bind, pure, Except.pure]
    have := hf r (by omega) (fun u hu => (ho u (by simp [hu])).2) hq2 hv
    simp only [bind, Except.bind]
    rw [e1] at hs this ⊢
    rw [List.foldlM_cons, hs]
    simp only [bind, Except.bind]
    rw [this]
    rfl

/-- **C38** The text of a sum of products, each with at least one operator, evaluates to the sum over terms of the
product of the numbers times the product of the operators in order, whatever the result held before. -/
theorem canonical_value (sp : Spec F A) (arith : List Char → Out F) (result : Option A) (e : List (List Factor))
    (vs : List A) (hm : ∀ a b, sp.metaItems a b = true) (hr : ∀ a r, sp.metaResult a r = true)
    (he : e ≠ []) (ho : ∀ t ∈ e, opsOf t ≠ [] ∧ ∀ f ∈ t, f.Ok) (hd : DashOk none (exprText e))
    (hn : (exprText e).length ≤ 2 ^ 31) (hv : List.Forall₂ (TermValue sp arith) e vs) :
    evaluate sp arith result (exprText e) = .ok (some vs.sum) := by
  have hne : ∀ t ∈ e, t ≠ [] ∧ ∀ f ∈ t, f.Ok := fun t ht => ⟨by
    rintro rfl; exact (ho [] ht).1 rfl, (ho t ht).2⟩
  have hlen : ∀ e : List (List Factor), (e.flatMap parens).length ≤ (exprText e).length := by
    have ht : ∀ t : List Factor, (parens t).length ≤ (termText t).length := by
      intro t
      induction t with
      | nil => simp [parens]
      | cons f t ih =>
        rw [parens_cons, List.length_append]
        have h1 : (parens [f]).length ≤ f.text.length := by cases f <;> simp [parens, Factor.text]
        cases t with
        | nil => simp [termText, inter_one, parens]; exact h1
        | cons g t =>
          have : termText (f :: g :: t) = f.text ++ '*' :: termText (g :: t) := by
            unfold termText; rw [List.map_cons, inter_cons' _ _ _ (by simp)]
          rw [this, List.length_append, List.length_cons]
          omega
    intro e
    induction e with
    | nil => simp
    | cons t e ih =>
      rw [List.flatMap_cons, List.length_append]
      have := ht t
      cases e with
      | nil => simp [exprText, inter_one]; exact this
      | cons u r =>
        have e : exprText (t :: u :: r) = termText t ++ '+' :: exprText (u :: r) := by
          unfold exprText; rw [List.map_cons, inter_cons' _ _ _ (by simp)]
        rw [e, List.length_append, List.length_cons]
        omega
  cases e with
  | nil => exact absurd rfl he
  | cons t e =>
    obtain ⟨a, vs, ha, hv', rfl⟩ := List.forall₂_cons_left_iff.1 hv
    rw [(evaluate_eq sp arith result t e a vs hm hr hne hd (le_trans (hlen _) hn) ha hv').1 (ho t (by simp)).1,
      opSum_eq e vs hv'.length_eq (fun t ht => (ho t (by simp [ht])).1), List.sum_cons]

end

/-- **C38** Inside parentheses: the tokens of an arithmetic expression, level by level and joined by `:`, are its
value, if the text does not contain "pi". -/
theorem parens_arith {F : Type} (o : Ast.Ops F) (piText : List Char) (x : Ast.Expr) (hw : x.WF) (v : F)
    (hv : Ast.Expr.Value o x v) (toks : List (List Char)) (ht : toks.map String.ofList = Ast.Expr.levels x.size [x])
    (hc : ∀ s ∈ toks, s ≠ [] ∧ ':' ∉ s) (hpi : ¬ "pi".toList <:+: [':'].intercalate toks) :
    simpleArithmetics o piText ([':'].intercalate toks) = .ok v := by
  unfold simpleArithmetics
  obtain ⟨u, h1, h2⟩ := replaceAll_spec ([':'].intercalate toks) "pi".toList piText (by decide)
  have hu : u = [':'].intercalate toks := by
    generalize [':'].intercalate toks = w at *
    cases h2 with
    | done => rfl
    | step a rest rest' _ _ => exact absurd ⟨a, rest, rfl⟩ hpi
  rw [h1, hu]
  simp only
  rw [split_join toks [':'] [':'] (by simp) (by simp)
    (fun s hs => ⟨(hc s hs).1, fun c hc' hm => (hc s hs).2 (by
      rw [List.mem_singleton] at hm; exact hm ▸ hc')⟩)]
  simp only
  rw [ht]
  have := Ast.karva_value o x hw v hv []
  rw [List.append_nil] at this
  rw [this]
  rfl

/-! ## Concrete cases -/

/-- Operators "c" and "d" are the integers 5 and 7; a real number is read as a decimal integer. -/
def demo : Spec Int Int where
  readReal s := .ok (if s = ['-', '2'] then -2 else if s = ['3'] then 3 else 1)
  readImag _ := .ok 1
  item s := if s = ['c'] then .ok 5 else if s = ['d'] then .ok 7 else throwOut
  metaItems _ _ := true
  metaResult _ _ := true
  plusEmpty := .ok

/-- "-2*c*(p)*d+3*d": -2·5·4·7 + 3·7. -/
def demoExpr : List (List Factor) :=
  [[.real ['-', '2'], .op ['c'], .paren ['p'], .op ['d']], [.real ['3'], .op ['d']]]

example : String.ofList (exprText demoExpr) = "-2*c*(p)*d+3*d" := by decide +kernel

example : evaluate demo (fun _ => .ok 4) none (exprText demoExpr) = .ok (some (-259)) := by
  have := canonical_value demo (fun _ => .ok 4) none demoExpr [-280, 21] (fun _ _ => rfl) (fun _ _ => rfl) (by simp [demoExpr])
    (by
      intro t ht
      simp only [demoExpr, List.mem_cons, List.not_mem_nil, or_false] at ht
      rcases ht with rfl | rfl <;> refine ⟨by simp [opsOf], ?_⟩ <;> intro f hf <;>
        simp only [List.mem_cons, List.not_mem_nil, or_false] at hf
      · rcases hf with rfl | rfl | rfl | rfl <;> simp [Factor.Ok]
      · rcases hf with rfl | rfl <;> simp [Factor.Ok])
    (by
      have : exprText demoExpr = "-2*c*(p)*d+3*d".toList := by decide +kernel
      rw [this]; simp [DashOk])
    (by decide +kernel)
    (by
      refine .cons ⟨[-2, 1, 4, 1], [5, 7], ?_, ?_, by decide⟩ (.cons ⟨[3, 1], [7], ?_, ?_, by decide⟩ .nil)
      · exact .cons (.real _ _ rfl) (.cons (.op _) (.cons (.paren _ _ rfl) (.cons (.op _) .nil)))
      · exact .cons rfl (.cons rfl .nil)
      · exact .cons (.real _ _ rfl) (.cons (.op _) .nil)
      · exact .cons rfl .nil)
  simpa using this

/-- **C38** A term that is a number without an operator is dropped: "c+3" is c, whatever c is. -/
theorem number_term_dropped_fails (x : Int) :
    evaluate { demo with item := fun _ => .ok x } (fun _ => .ok 0) none "c+3".toList = .ok (some x) := by
  have := (evaluate_eq { demo with item := fun _ => .ok x } (fun _ => .ok 0) none [.op ['c']] [[.real ['3']]] x [3]
    (fun _ _ => rfl) (fun _ _ => rfl)
    (by
      intro t ht
      simp only [List.mem_cons, List.not_mem_nil, or_false] at ht
      rcases ht with rfl | rfl <;> simp [Factor.Ok])
    (by
      have : exprText [[.op ['c']], [.real ['3']]] = "c+3".toList := by decide +kernel
      rw [this]; simp [DashOk])
    (by decide)
    ⟨[1], [x], .cons (.op _) .nil, .cons rfl .nil, by simp⟩
    (.cons ⟨[3], [], .cons (.real _ _ rfl) .nil, .nil, by simp⟩ .nil)).1 (by simp [opsOf])
  have e : exprText [[.op ['c']], [.real ['3']]] = "c+3".toList := by decide +kernel
  rw [e] at this
  simpa [opSum, opsOf] using this

/-- **C38** When the first term has no operator, what the result held before is added: with 100 in the result,
"3+c" is 100 + c. -/
theorem old_result_added_fails (x : Int) :
    evaluate { demo with item := fun _ => .ok x } (fun _ => .ok 0) (some 100) "3+c".toList = .ok (some (100 + x)) := by
  have := (evaluate_eq { demo with item := fun _ => .ok x } (fun _ => .ok 0) (some 100) [.real ['3']] [[.op ['c']]] 3 [x]
    (fun _ _ => rfl) (fun _ _ => rfl)
    (by
      intro t ht
      simp only [List.mem_cons, List.not_mem_nil, or_false] at ht
      rcases ht with rfl | rfl <;> simp [Factor.Ok])
    (by
      have : exprText [[.real ['3']], [.op ['c']]] = "3+c".toList := by decide +kernel
      rw [this]; simp [DashOk])
    (by decide)
    ⟨[3], [], .cons (.real _ _ rfl) .nil, .nil, by simp⟩
    (.cons ⟨[1], [x], .cons (.op _) .nil, .cons rfl .nil, by simp⟩ .nil)).2 100 (by simp [opsOf]) rfl
  have e : exprText [[.real ['3']], [.op ['c']]] = "3+c".toList := by decide +kernel
  rw [e] at this
  simpa [opSum, opsOf] using this

end Verif.Canonical
