import Verif.SumDec.Model
import Mathlib.Data.List.Lex
import Mathlib.Data.List.Nodup
import Mathlib.Data.List.Range
import Mathlib.Algebra.BigOperators.Group.List.Basic

/-! # C24, C25 -/

namespace Verif.SumDec

open Verif.Loop

/-- All tuples of length `d` with sum at most `n`, in the order the recursion meets them. -/
def tuples : Nat → Nat → List (List Nat)
  | 0, _ => [[]]
  | d + 1, n => (List.range (n + 1)).flatMap fun i => (tuples d (n - i)).map (i :: ·)

theorem mem_tuples (d n : Nat) (l : List Nat) : l ∈ tuples d n ↔ l.length = d ∧ l.sum ≤ n := by
  induction d generalizing n l with
  | zero => simp [tuples]; rintro rfl; simp
  | succ d ih =>
    simp only [tuples, List.mem_flatMap, List.mem_range, List.mem_map]
    constructor
    · rintro ⟨i, hi, t, ht, rfl⟩
      obtain ⟨h1, h2⟩ := (ih _ _).1 ht
      exact ⟨by simp [h1], by simp; omega⟩
    · rintro ⟨h1, h2⟩
      cases l with
      | nil => simp at h1
      | cons a l =>
        simp at h1 h2
        exact ⟨a, by omega, l, (ih _ _).2 ⟨h1, by omega⟩, rfl⟩

theorem tuples_sorted (d n : Nat) : (tuples d n).Pairwise (· < ·) := by
  induction d generalizing n with
  | zero => simp [tuples]
  | succ d ih =>
    rw [tuples, List.pairwise_flatMap]
    refine ⟨?_, ?_⟩
    · intro i _
      rw [List.pairwise_map]
      exact (ih _).imp (fun h => List.cons_lt_cons_iff.2 (Or.inr ⟨rfl, h⟩))
    · refine List.pairwise_lt_range.imp ?_
      intro i j hij s hs t ht
      obtain ⟨s', -, rfl⟩ := List.mem_map.1 hs
      obtain ⟨t', -, rfl⟩ := List.mem_map.1 ht
      exact List.cons_lt_cons_iff.2 (Or.inl hij)

/-- What is stored out of the successes `L`, counting from `k`. -/
def keep (sel : Sel) (selection k : Nat) (L : List (List Nat)) : List (List Nat) :=
  match sel with
  | .all => L
  | .size => []
  | .index => if k ≤ selection then (L[selection - k]?).toList else []

theorem keep_append (sel : Sel) (selection k : Nat) (A B : List (List Nat)) :
    keep sel selection k (A ++ B) = keep sel selection k A ++ keep sel selection (k + A.length) B := by
  cases sel with
  | all => rfl
  | size => rfl
  | index =>
    simp only [keep]
    by_cases h : k ≤ selection
    · rw [if_pos h, if_pos h]
      by_cases h2 : selection - k < A.length
      · rw [List.getElem?_append_left h2, if_neg (by omega)]; simp
      · rw [List.getElem?_append_right (by omega), if_pos (by omega),
          List.getElem?_eq_none (show A.length ≤ selection - k by omega)]
        simp [Nat.sub_sub]
    · rw [if_neg h, if_neg h, if_neg (by omega)]; rfl

theorem sum_eq_foldl (l : List Nat) : l.foldl (· + ·) 0 = l.sum := by
  rw [List.sum_eq_foldl]

theorem reentrant_spec (sum : Nat) (sel : Sel) (selection : Nat) (d : Nat) (st : St) (n x : Nat)
    (hx : x + d = st.data.length) :
    ∃ data, reentrant sum sel selection d st n x =
      some ⟨data, st.size + ((tuples d n).filter fun t => decide ((st.data.take x).sum + t.sum = sum)).length,
        st.stored ++ keep sel selection st.size
          (((tuples d n).filter fun t => decide ((st.data.take x).sum + t.sum = sum)).map (st.data.take x ++ ·))⟩ ∧
      data.length = st.data.length ∧ data.take x = st.data.take x := by
  induction d generalizing st n x with
  | zero =>
    unfold reentrant
    rw [if_pos (by omega), sum_eq_foldl]
    have ht : st.data.take x = st.data := List.take_of_length_le (by omega)
    refine ⟨st.data, ?_, rfl, rfl⟩
    by_cases h : st.data.sum = sum
    · rw [if_neg (by simpa using h)]
      simp only [tuples, ht, List.sum_nil, Nat.add_zero, h, decide_true, List.filter_cons_of_pos,
        List.filter_nil, List.length_singleton, List.map_cons, List.map_nil, List.append_nil,
        Option.some.injEq, St.mk.injEq, true_and]
      cases sel with
      | all => simp [keep]
      | size => simp [keep]
      | index =>
        simp only [keep, reduceCtorEq, decide_false, true_and, Bool.false_or, decide_eq_true_eq]
        by_cases e : selection = st.size
        · simp [e]
        · rw [if_neg e]
          split_ifs with h1
          · rw [List.getElem?_eq_none (by simp; omega)]; simp
          · simp
    · rw [if_pos h]
      simp only [tuples, ht, List.sum_nil, Nat.add_zero, h, decide_false, Bool.false_eq_true,
        not_false_eq_true, List.filter_cons_of_neg, List.filter_nil, List.length_nil, List.map_nil]
      cases sel <;> simp [keep]
  | succ d ih =>
    unfold reentrant
    rw [if_neg (by omega)]
    simp only
    obtain ⟨st', h1, h2, h3, h4, h5⟩ := loopN_inv (fun i (s : St) => s.data.length = st.data.length ∧
        s.data.take x = st.data.take x ∧
        s.size = st.size + (((List.range i).flatMap fun i => (tuples d (n - i)).map (i :: ·)).filter
          fun t => decide ((st.data.take x).sum + t.sum = sum)).length ∧
        s.stored = st.stored ++ keep sel selection st.size
          ((((List.range i).flatMap fun i => (tuples d (n - i)).map (i :: ·)).filter
            fun t => decide ((st.data.take x).sum + t.sum = sum)).map (st.data.take x ++ ·)))
      (n + 1) (fun i st => do
          let data ← setAt st.data x i
          reentrant sum sel selection d ⟨data, st.size, st.stored⟩ (n - i) (x + 1)) st
      ⟨rfl, rfl, by simp, by cases sel <;> simp [keep]⟩ (by
        rintro i s hi ⟨g1, g2, g3, g4⟩
        rw [setAt_some (by omega)]
        simp only [bind, Option.bind_some]
        obtain ⟨data, e1, e2, e3⟩ := ih ⟨s.data.set x i, s.size, s.stored⟩ (n - i) (x + 1) (by simp; omega)
        have htake : (s.data.set x i).take (x + 1) = st.data.take x ++ [i] := by
          rw [List.take_succ_eq_append_getElem (by simp; omega), List.take_set_of_le (le_refl x), g2]
          simp
        simp only [htake, List.length_set] at e1 e2 e3
        have hflt : ∀ t : List Nat, ((st.data.take x ++ [i]).sum + t.sum = sum) ↔
            ((st.data.take x).sum + (i :: t).sum = sum) := by
          intro t; simp [Nat.add_assoc]
        have hf : ((tuples d (n - i)).filter fun t => decide ((st.data.take x ++ [i]).sum + t.sum = sum)).map
            (i :: ·) = ((tuples d (n - i)).map (i :: ·)).filter
              fun t => decide ((st.data.take x).sum + t.sum = sum) := by
          rw [List.filter_map]
          congr 1
          apply List.filter_congr
          intro t _
          simp only [Function.comp, hflt]
        refine ⟨_, e1, ?_, ?_, ?_, ?_⟩
        · simp only; rw [e2, g1]
        · simp only
          have : data.take x = (data.take (x + 1)).take x := by rw [List.take_take, Nat.min_eq_left (by omega)]
          rw [this, e3, List.take_append_of_le_length (by simp; omega), List.take_of_length_le (by simp)]
        · simp only
          rw [g3, List.range_succ, List.flatMap_append, List.filter_append, List.length_append, Nat.add_assoc]
          simp only [List.flatMap_cons, List.flatMap_nil, List.append_nil]
          rw [← hf, List.length_map]
        · simp only
          rw [g4, List.range_succ, List.flatMap_append, List.filter_append, List.map_append, keep_append,
            List.append_assoc]
          congr 2
          simp only [List.flatMap_cons, List.flatMap_nil, List.append_nil, List.length_map]
          rw [← g3, ← hf, List.map_map]
          congr 1
          apply List.map_congr_left
          intro t _
          simp)
    refine ⟨st'.data, ?_, h2, h3⟩
    rw [h1, tuples, ← h4, ← h5]

/-- **C24** `SumDecomposition(total, sum)` lists every tuple of `total` natural numbers with
the given sum exactly once, in lexicographic order, and `size()` is their number. -/
theorem all_spec (total sum : Nat) (selection : Nat) :
    ∃ st, ctor total sum .all selection = some st ∧ (∀ l, l ∈ st.stored ↔ l.length = total ∧ l.sum = sum) ∧
      st.stored.Pairwise (· < ·) ∧ st.stored.Nodup ∧ st.size = st.stored.length := by
  obtain ⟨data, h, -, -⟩ := reentrant_spec sum .all selection total ⟨List.replicate total 0, 0, []⟩ sum 0
    (by simp)
  have hs : ((tuples total sum).filter fun t => decide (t.sum = sum)).Pairwise (· < ·) :=
    (tuples_sorted total sum).filter _
  refine ⟨_, h, ?_, ?_, ?_, ?_⟩
  · intro l
    simp only [keep, List.take_zero, List.sum_nil, Nat.zero_add, List.nil_append, List.map_id']
    rw [List.mem_filter, mem_tuples, decide_eq_true_eq]
    constructor
    · rintro ⟨⟨h1, -⟩, h2⟩; exact ⟨h1, h2⟩
    · rintro ⟨h1, h2⟩; exact ⟨⟨h1, by omega⟩, h2⟩
  · simpa [keep] using hs
  · have : ((tuples total sum).filter fun t => decide (t.sum = sum)).Nodup := hs.imp ne_of_lt
    simpa [keep] using this
  · simp [keep]

/-- **C24** With `SEL_SIZE` nothing is stored but `size()` is the same. -/
theorem size_spec (total sum : Nat) (s1 s2 : Nat) :
    ∃ st st', ctor total sum .all s1 = some st ∧ ctor total sum .size s2 = some st' ∧ st'.size = st.size ∧
      st'.stored = [] := by
  obtain ⟨d1, h1, -⟩ := reentrant_spec sum .all s1 total ⟨List.replicate total 0, 0, []⟩ sum 0 (by simp)
  obtain ⟨d2, h2, -⟩ := reentrant_spec sum .size s2 total ⟨List.replicate total 0, 0, []⟩ sum 0 (by simp)
  exact ⟨_, _, h1, h2, rfl, rfl⟩

/-- **C24** With `SEL_INDEX` only the tuple at position `selection` is stored. -/
theorem index_spec (total sum : Nat) (s1 selection : Nat) :
    ∃ st st', ctor total sum .all s1 = some st ∧ ctor total sum .index selection = some st' ∧
      st'.size = st.size ∧ at_ st' 0 = at_ st selection ∧ at_ st' 1 = none := by
  obtain ⟨d1, h1, -⟩ := reentrant_spec sum .all s1 total ⟨List.replicate total 0, 0, []⟩ sum 0 (by simp)
  obtain ⟨d2, h2, -⟩ := reentrant_spec sum .index selection total ⟨List.replicate total 0, 0, []⟩ sum 0 (by simp)
  refine ⟨_, _, h1, h2, rfl, ?_, ?_⟩
  · simp only [at_, keep, Nat.zero_le, if_true, List.nil_append, Nat.sub_zero]
    cases h : (List.map (fun x => List.take 0 (List.replicate total 0) ++ x)
      ((tuples total sum).filter fun t => decide ((List.take 0 (List.replicate total 0)).sum + t.sum = sum)))[selection]?
    · simp
    · simp
  · simp only [at_, keep, Nat.zero_le, if_true, List.nil_append, Nat.sub_zero]
    cases h : (List.map (fun x => List.take 0 (List.replicate total 0) ++ x)
      ((tuples total sum).filter fun t => decide ((List.take 0 (List.replicate total 0)).sum + t.sum = sum)))[selection]?
    · simp
    · simp

example : (ctor 3 2 .all 0).map (·.stored) =
    some [[0, 0, 2], [0, 1, 1], [0, 2, 0], [1, 0, 1], [1, 1, 0], [2, 0, 0]] := by decide +kernel

/-! ## C25 -/

/-- **C25** `unpack` inverts packing: the pair has `x < n` and `x + n*y = ind`. -/
theorem unpack_spec (n ind : Nat) (hn : 0 < n) :
    ∃ x y, unpack n ind = some (x, y) ∧ x < n ∧ x + n * y = ind := by
  unfold unpack
  rw [if_neg (by omega)]
  exact ⟨_, _, rfl, Nat.mod_lt _ hn, Nat.mod_add_div _ _⟩

/-- **C25** `pack` after `unpack` gives back the entry of the permutation, for all indices that
fit in a `SizeType`. -/
theorem pack_unpack (w n ind : Nat) (hn : 0 < n) (p : List Nat) (hi : ind < p.length) (hw : ind < 2 ^ w) :
    ∃ x y, unpack n ind = some (x, y) ∧ pack w n x y p = p[ind]? := by
  obtain ⟨x, y, h1, h2, h3⟩ := unpack_spec n ind hn
  refine ⟨x, y, h1, ?_⟩
  unfold pack
  rw [Nat.mod_eq_of_lt (show n * y < 2 ^ w by omega), h3, Nat.mod_eq_of_lt hw]

/-- **C25** With the identity permutation, `unpack` after `pack` gives back the pair. -/
theorem unpack_pack (w n N x y : Nat) (hx : x < n) (hN : x + n * y < N) (hw : N ≤ 2 ^ w) :
    ∃ ind, pack w n x y (List.range N) = some ind ∧ unpack n ind = some (x, y) := by
  refine ⟨x + n * y, ?_, ?_⟩
  · unfold pack
    rw [Nat.mod_eq_of_lt (show n * y < 2 ^ w by omega), Nat.mod_eq_of_lt (by omega),
      List.getElem?_range hN]
  · unfold unpack
    rw [if_neg (by omega), Nat.add_mul_mod_self_left, Nat.mod_eq_of_lt hx,
      Nat.add_mul_div_left _ _ (by omega), Nat.div_eq_of_lt hx, Nat.zero_add]

/-- **C25** With a permutation `perm` and its inverse `pinv`, `unpack` applied to `perm` of the
packed index gives back the pair. -/
theorem unpack_perm_pack (w n N x y : Nat) (perm pinv : List Nat) (hx : x < n) (hN : x + n * y < N)
    (hw : N ≤ 2 ^ w) (hinv : ∀ i, i < N → ∃ k, pinv[i]? = some k ∧ perm[k]? = some i) :
    ∃ k ind, pack w n x y pinv = some k ∧ perm[k]? = some ind ∧ unpack n ind = some (x, y) := by
  obtain ⟨k, h1, h2⟩ := hinv _ hN
  refine ⟨k, x + n * y, ?_, h2, ?_⟩
  · unfold pack
    rw [Nat.mod_eq_of_lt (show n * y < 2 ^ w by omega), Nat.mod_eq_of_lt (by omega), h1]
  · unfold unpack
    rw [if_neg (by omega), Nat.add_mul_mod_self_left, Nat.mod_eq_of_lt hx,
      Nat.add_mul_div_left _ _ (by omega), Nat.div_eq_of_lt hx, Nat.zero_add]

example : unpack 3 11 = some (2, 3) ∧ pack 64 3 2 3 (List.range 12) = some 11 := by
  simp [unpack, pack]

example := pack_unpack 32 3 5 (by decide) (List.range 9) (by decide) (by decide)
example := unpack_pack 32 3 9 2 1 (by decide) (by decide) (by decide)
example := unpack_perm_pack 32 2 3 1 0 [1, 2, 0] [2, 0, 1] (by decide) (by decide) (by decide)
  (by intro i hi; match i, hi with | 0, _ | 1, _ | 2, _ => exact ⟨_, rfl, rfl⟩)
example := unpack_spec 3 5 (by decide)

end Verif.SumDec
