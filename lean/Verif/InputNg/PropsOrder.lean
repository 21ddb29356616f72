import Verif.InputNg.Model
import Verif.Labels.Props
import Mathlib.Data.Prod.Lex
import Mathlib.Data.List.Lex
import Mathlib.Data.Char

/-!
# C48: the order of the labels of an input file is a strict weak order
-/

namespace Verif.InputNg

open Verif.Str Verif.StrUtil

/-- The label can be compared: what follows `@`, if anything, is a number (digits and signs) that fits in an `int`. -/
def Comparable (x : Str) : Prop := ∃ p, mysplit x = .ok p

/-- What labels are ordered by: those with no number first. -/
def rank (x : Str) (n : Nat) : Nat ×ₗ List Char ×ₗ Nat :=
  if n = 0 then toLex (0, toLex (x, 0)) else toLex (1, toLex (findRootLabel x ++ ['@'], n))

theorem lt_append_mark (a b s t : Str) (ha : '@' ∉ a) (hb : '@' ∉ b) (h : a ≠ b) :
    a ++ '@' :: s < b ++ '@' :: t ↔ a ++ ['@'] < b ++ ['@'] := by
  induction a generalizing b with
  | nil =>
    cases b with
    | nil => exact absurd rfl h
    | cons c b =>
      have hc : '@' ≠ c := fun e => hb (List.mem_cons.2 (.inl e))
      simp only [List.nil_append, List.cons_append, List.cons_lt_cons_iff]
      simp [hc]
  | cons d a ih =>
    cases b with
    | nil =>
      have hd : d ≠ '@' := fun e => ha (List.mem_cons.2 (.inl e.symm))
      simp only [List.nil_append, List.cons_append, List.cons_lt_cons_iff]
      simp [hd]
    | cons c b =>
      simp only [List.cons_append, List.cons_lt_cons_iff]
      by_cases hdc : d = c
      · subst hdc
        rw [ih b (fun e => ha (by simp [e])) (fun e => hb (by simp [e])) (fun e => h (by rw [e]))]
      · simp [hdc]

theorem root_split (x : Str) (h : '@' ∈ x) : ∃ s, x = findRootLabel x ++ '@' :: s := by
  induction x with
  | nil => simp at h
  | cons c x ih =>
    by_cases hc : c = '@'
    · exact ⟨x, by simp [findRootLabel, hc]⟩
    · obtain ⟨s, hs⟩ := ih (by rcases List.mem_cons.1 h with e | e; exact absurd e.symm hc; exact e)
      refine ⟨s, ?_⟩
      have : findRootLabel (c :: x) = c :: findRootLabel x := by simp [findRootLabel, hc]
      rw [this, List.cons_append, ← hs]

theorem root_no_mark (x : Str) : '@' ∉ findRootLabel x := by
  unfold findRootLabel
  induction x with
  | nil => simp
  | cons c x ih =>
    rw [List.takeWhile_cons]
    split
    · rename_i hc
      rw [List.mem_cons, not_or]
      exact ⟨fun e => by simp [← e] at hc, ih⟩
    · simp

theorem mysplit_eq (x : Str) (p : Str × Nat) (h : mysplit x = .ok p) :
    p.1 = findRootLabel x ∧ (p.2 ≠ 0 → '@' ∈ x) := by
  unfold mysplit at h
  simp only at h
  split at h
  · cases h; exact ⟨rfl, by simp⟩
  · rename_i hne
    cases ha : ofNested (atoi (splitAt' x).2) with
    | error e => rw [ha] at h; simp [bind, Except.bind] at h
    | ok n =>
      rw [ha] at h
      cases h
      refine ⟨rfl, fun _ => ?_⟩
      by_contra hx
      apply hne
      have : x.dropWhile (· ≠ '@') = [] := by
        have := List.dropWhile_append_of_pos (p := fun c : Char => decide (c ≠ '@')) (l₁ := x) (l₂ := []) (by
          intro c hc; simp; intro e; exact hx (e ▸ hc))
        simpa using this
      unfold splitAt'
      rw [this]
      rfl

open Classical in
theorem less_rank (x y : Str) (p q : Str × Nat) (hx : mysplit x = .ok p) (hy : mysplit y = .ok q) :
    less x y = .ok (decide (rank x p.2 < rank y q.2)) := by
  obtain ⟨hp, hpm⟩ := mysplit_eq x p hx
  obtain ⟨hq, hqm⟩ := mysplit_eq y q hy
  unfold less
  rw [hx, hy]
  simp only [bind, Except.bind, pure, Except.pure, rank]
  by_cases h1 : p.2 = 0 <;> by_cases h2 : q.2 = 0
  · simp only [h1, h2, and_self, if_true, Prod.Lex.toLex_lt_toLex]
    simp
  · simp [h1, h2, Prod.Lex.toLex_lt_toLex]
  · simp [h1, h2, Prod.Lex.toLex_lt_toLex]
  · simp only [h1, h2, and_self, if_false, false_and, and_false, Prod.Lex.toLex_lt_toLex, lt_self_iff_false,
      true_and, false_or]
    rw [hp, hq]
    by_cases hr : findRootLabel x = findRootLabel y
    · simp [hr]
    · simp only [hr, not_false_eq_true, ne_eq, if_true]
      obtain ⟨s, hs⟩ := root_split x (hpm h1)
      obtain ⟨t, ht⟩ := root_split y (hqm h2)
      have := lt_append_mark (findRootLabel x) (findRootLabel y) s t (root_no_mark x) (root_no_mark y) hr
      rw [← hs, ← ht] at this
      have hne : findRootLabel x ++ ['@'] ≠ findRootLabel y ++ ['@'] := fun e => hr (List.append_cancel_right e)
      congr 1
      rw [decide_eq_decide, this]
      simp [hne]

/-- **C48** The comparison of comparable labels gives an answer, and it is a strict weak order: no label is before
itself, being before is transitive, and so is being neither before nor after. -/
theorem less_strict_weak (x y z : Str) (hx : Comparable x) (hy : Comparable y) (hz : Comparable z) :
    (∃ b, less x y = .ok b) ∧
    less x x = .ok false ∧
    (less x y = .ok true → less y x = .ok false) ∧
    (less x y = .ok true → less y z = .ok true → less x z = .ok true) ∧
    (less x y = .ok false → less y x = .ok false → less y z = .ok false → less z y = .ok false →
      less x z = .ok false ∧ less z x = .ok false) := by
  classical
  obtain ⟨p, hp⟩ := hx
  obtain ⟨q, hq⟩ := hy
  obtain ⟨r, hr⟩ := hz
  rw [less_rank x y p q hp hq, less_rank y x q p hq hp, less_rank x x p p hp hp, less_rank y z q r hq hr,
    less_rank x z p r hp hr, less_rank z y r q hr hq, less_rank z x r p hr hp]
  simp only [Except.ok.injEq, decide_eq_true_eq, decide_eq_false_iff_not, not_lt]
  exact ⟨⟨_, rfl⟩, le_refl _, le_of_lt, lt_trans, fun a b c d => ⟨le_trans c a, le_trans b d⟩⟩

/-- **C48** The order of repeated labels: the plain label is first, then `@1`, `@2`, … as numbers, not as texts; and
labels with no mark are in the order of their texts. -/
theorem less_repeated (r r' : Str) (hr : '@' ∉ r) (hr' : '@' ∉ r') (m n : Nat) (hm : 0 < m) (hn : 0 < n)
    (hm2 : m < 2 ^ 31) (hn2 : n < 2 ^ 31) :
    less r r' = .ok (decide (r < r')) ∧
    less r (r' ++ '@' :: Nat.toDigits 10 n) = .ok true ∧
    less (r' ++ '@' :: Nat.toDigits 10 n) r = .ok false ∧
    less (r ++ '@' :: Nat.toDigits 10 m) (r ++ '@' :: Nat.toDigits 10 n) = .ok (decide (m < n)) := by
  classical
  have key : ∀ (r : Str) (n : Nat), '@' ∉ r → n < 2 ^ 31 →
      mysplit r = .ok (r, 0) ∧ mysplit (r ++ '@' :: Nat.toDigits 10 n) = .ok (r, n) := by
    intro r n hr hn
    have h1 : r.takeWhile (· ≠ '@') = r := by
      have := List.takeWhile_append_of_pos (p := (· ≠ '@')) (l₁ := r) (l₂ := []) (by
        intro a ha; simp; intro e; exact hr (e ▸ ha))
      simpa using this
    have h2 : ∀ l : Str, (r ++ l).takeWhile (· ≠ '@') = r ++ l.takeWhile (· ≠ '@') := fun l =>
      List.takeWhile_append_of_pos (by intro a ha; simp; intro e; exact hr (e ▸ ha))
    have h3 : ∀ l : Str, (r ++ l).dropWhile (· ≠ '@') = l.dropWhile (· ≠ '@') := fun l =>
      List.dropWhile_append_of_pos (by intro a ha; simp; intro e; exact hr (e ▸ ha))
    have h4 : (Nat.toDigits 10 n).filter (· ≠ '@') = Nat.toDigits 10 n := by
      rw [List.filter_eq_self]
      intro c hc
      have := isDigit_toDigits n c hc
      simp only [ne_eq, decide_not, Bool.not_eq_eq_eq_not, Bool.not_true, decide_eq_false_iff_not]
      rintro rfl; revert this; decide
    constructor
    · have h5 : r.dropWhile (· ≠ '@') = [] := by have := h3 []; simpa using this
      unfold mysplit splitAt'
      simp only [h1, h5]
      rfl
    · unfold mysplit splitAt'
      rw [h2, h3]
      have h6 : ((('@' :: Nat.toDigits 10 n).dropWhile (· ≠ '@')).filter (· ≠ '@')) = Nat.toDigits 10 n := by
        simpa using h4
      simp only [h6]
      rw [if_neg (by intro e; have := Labels.toDigits_pos n; rw [e] at this; simp at this),
        Labels.atoi_digits n (by omega)]
      simp only [ofNested, bind, Except.bind, pure, Except.pure]
      congr 2
      · simp
      · rw [Int.emod_eq_of_lt (by omega) (by omega)]; rfl
  have rk : ∀ (r : Str) (n : Nat), '@' ∉ r → findRootLabel (r ++ '@' :: Nat.toDigits 10 n) = r := by
    intro r n hr
    have := List.takeWhile_append_of_pos (p := (· ≠ '@')) (l₁ := r) (l₂ := '@' :: Nat.toDigits 10 n)
      (by intro a ha; simp; intro e; exact hr (e ▸ ha))
    unfold findRootLabel
    rw [this]; simp
  obtain ⟨a1, a2⟩ := key r m hr hm2
  obtain ⟨b1, b2⟩ := key r' n hr' hn2
  obtain ⟨_, c2⟩ := key r n hr hn2
  refine ⟨?_, ?_, ?_, ?_⟩
  · rw [less_rank _ _ _ _ a1 b1]; simp [rank, Prod.Lex.toLex_lt_toLex]
  · rw [less_rank _ _ _ _ a1 b2]; simp [rank, Prod.Lex.toLex_lt_toLex, Nat.pos_iff_ne_zero.1 hn]
  · rw [less_rank _ _ _ _ b2 a1]; simp [rank, Prod.Lex.toLex_lt_toLex, Nat.pos_iff_ne_zero.1 hn]
  · rw [less_rank _ _ _ _ a2 c2]
    simp [rank, Prod.Lex.toLex_lt_toLex, Nat.pos_iff_ne_zero.1 hn, Nat.pos_iff_ne_zero.1 hm, rk r m hr, rk r n hr]

/-- Comparable labels with and without numbers; `U@9` is before `U@10`, though not as a text. -/
example : Comparable "U@10".toList ∧ Comparable "U@9".toList ∧ Comparable "V".toList ∧
    less "U@9".toList "U@10".toList = .ok true ∧ ¬ "U@9".toList < "U@10".toList :=
  ⟨⟨("U".toList, 10), by decide +kernel⟩, ⟨("U".toList, 9), by decide +kernel⟩, ⟨("V".toList, 0), by decide +kernel⟩,
    by decide +kernel, by decide +kernel⟩

/-- A label typed with other text after `@` makes the comparison itself throw. -/
theorem less_throws_fails : less "U@x".toList "V".toList = throwOut := by decide +kernel

/-- Different texts can be equivalent keys: `U@1` and `U@01`. -/
theorem equivalent_keys_fails : less "U@1".toList "U@01".toList = .ok false ∧
    less "U@01".toList "U@1".toList = .ok false := by decide +kernel

end Verif.InputNg
