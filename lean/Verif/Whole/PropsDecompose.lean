import Verif.Whole.ModelDecompose
import Verif.SumDec.Props
import Verif.Host.PropsRunId
import Mathlib.Data.Nat.Choose.Sum

/-!
# Properties of examples/sumDecomposition.cpp
-/

namespace Verif.Whole.Decompose

open Verif.SumDec

/-- `L` has all tuples of `t` numbers with sum `s`, each once, in lexicographic order. -/
def Decompositions (t s : Nat) (L : List (List Nat)) : Prop :=
  L.Pairwise (· < ·) ∧ ∀ l, l ∈ L ↔ l.length = t ∧ l.sum = s

/-- There is only one such list. -/
theorem decompositions_unique {t s : Nat} {L L' : List (List Nat)} (h : Decompositions t s L) (h' : Decompositions t s L') : L = L' := by
  have hp : L.Perm L' := (List.perm_ext_iff_of_nodup (h.1.imp ne_of_lt) (h'.1.imp ne_of_lt)).2 fun l => by rw [h.2, h'.2]
  exact hp.eq_of_pairwise (fun a b _ _ h1 h2 => absurd h1 (lt_asymm h2)) h.1 h'.1

theorem count (d n : Nat) : ((tuples d n).filter fun t => decide (t.sum = n)).length = Nat.multichoose d n := by
  induction d generalizing n with
  | zero =>
    cases n with
    | zero => simp [tuples]
    | succ n => simp [tuples]
  | succ d ih =>
    have key : ∀ k, k ≤ n + 1 → (((List.range k).flatMap fun i => (tuples d (n - i)).map (i :: ·)).filter fun t => decide (t.sum = n)).length =
        ∑ i ∈ Finset.range k, Nat.multichoose d (n - i) := by
      intro k
      induction k with
      | zero => simp
      | succ k ihk =>
        intro hk
        rw [List.range_succ, List.flatMap_append, List.filter_append, List.length_append, ihk (by omega), Finset.sum_range_succ]
        congr 1
        simp only [List.flatMap_cons, List.flatMap_nil, List.append_nil]
        rw [List.filter_map, List.length_map, ← ih (n - k)]
        congr 1
        apply List.filter_congr
        intro t _
        simp only [Function.comp, List.sum_cons]
        congr 1
        apply propext
        omega
    rw [tuples, key (n + 1) (Nat.le_refl _), ← Finset.sum_range_reflect]
    have : ∀ i ∈ Finset.range (n + 1), Nat.multichoose d (n - (n + 1 - 1 - i)) = Nat.multichoose d i := by
      intro i hi
      have := Finset.mem_range.1 hi
      congr 1
      omega
    rw [Finset.sum_congr rfl this]
    rw [Nat.multichoose_eq, show d + 1 + n - 1 = n + d by omega, Nat.choose_symm_add]
    exact Nat.sum_range_multichoose n d

/-- **C136** The number of decompositions is a binomial coefficient. -/
theorem decompositions_count {t s : Nat} {L : List (List Nat)} (h : Decompositions t s L) : L.length = (t + s - 1).choose s := by
  have : L = (tuples t s).filter fun x => decide (x.sum = s) := by
    refine decompositions_unique h ⟨(tuples_sorted t s).filter _, fun l => ?_⟩
    rw [List.mem_filter, mem_tuples, decide_eq_true_eq]
    constructor
    · rintro ⟨⟨h1, _⟩, h2⟩; exact ⟨h1, h2⟩
    · rintro ⟨h1, h2⟩; exact ⟨⟨h1, by omega⟩, h2⟩
  rw [this, count, Nat.multichoose_eq]

theorem size_digits (n : Nat) (h : n ≤ 2147483647) : size (Nat.toDigits 10 n) = .ok n := by
  unfold size Host.atoi
  rw [Host.leading_nat, if_pos (by omega)]
  simp

/-- What is printed for a list of decompositions. -/
def listed (L : List (List Nat)) : List Char :=
  Nat.toDigits 10 L.length ++ '\n' :: L.flatMap fun v => Nat.toDigits 10 v.length ++ '\n' :: (v.flatMap fun x => Nat.toDigits 10 x ++ ['\n']) ++ ['\n']

/-- The state the constructor ends with. -/
theorem ctor_eq (t s : Nat) {L : List (List Nat)} (h : Decompositions t s L) (sel : Sel) (k : Nat) :
    ∃ data, ctor t s sel k = some ⟨data, L.length, keep sel k 0 L⟩ := by
  obtain ⟨data, e, -, -⟩ := reentrant_spec s sel k t ⟨List.replicate t 0, 0, []⟩ s 0 (by simp)
  have : L = (tuples t s).filter fun x => decide (x.sum = s) := by
    refine decompositions_unique h ⟨(tuples_sorted t s).filter _, fun l => ?_⟩
    rw [List.mem_filter, mem_tuples, decide_eq_true_eq]
    constructor
    · rintro ⟨⟨h1, _⟩, h2⟩; exact ⟨h1, h2⟩
    · rintro ⟨h1, h2⟩; exact ⟨⟨h1, by omega⟩, h2⟩
  refine ⟨data, ?_⟩
  unfold ctor
  rw [e, this]
  simp

/-- **C136** With two numbers the program prints all decompositions, in lexicographic order, if their number fits into an `int`. -/
theorem decompose_all (t s : Nat) (ht : t ≤ 2147483647) (hs : s ≤ 2147483647) {L : List (List Nat)} (h : Decompositions t s L)
    (hn : (t + s - 1).choose s ≤ 2147483647) : program [Nat.toDigits 10 t, Nat.toDigits 10 s] = .ok (0, listed L) := by
  obtain ⟨data, e⟩ := ctor_eq t s h .all 0
  unfold program
  simp only [size_digits t ht, size_digits s hs, selected, bind, Except.bind, e]
  rw [if_neg (by rw [decompositions_count h]; omega)]
  rfl

/-- **C136** With a number after them it prints only the decomposition at that position, from zero on, or none if there is none. -/
theorem decompose_index (t s k : Nat) (ht : t ≤ 2147483647) (hs : s ≤ 2147483647) (hk : k ≤ 2147483647) {L : List (List Nat)}
    (h : Decompositions t s L) (hn : (t + s - 1).choose s ≤ 2147483647) (more : List (List Char)) :
    program (Nat.toDigits 10 t :: Nat.toDigits 10 s :: Nat.toDigits 10 k :: more) = .ok (0, listed (L[k]?).toList) := by
  obtain ⟨data, e⟩ := ctor_eq t s h .index k
  have hk2 : Host.atoi (Nat.toDigits 10 k) = some (k : Int) := by
    unfold Host.atoi
    rw [Host.leading_nat, if_pos (by omega)]
  unfold program
  simp only [size_digits t ht, size_digits s hs, selected, hk2, bind, Except.bind]
  rw [if_neg (by omega)]
  simp only [Int.toNat_natCast, e]
  rw [if_neg (by rw [decompositions_count h]; omega)]
  simp only [keep, Nat.zero_le, if_true, Nat.sub_zero]
  rfl

/-- **C136** With a negative number after them it prints how many there are. -/
theorem decompose_size (t s : Nat) (neg : List Char) (i : Int) (hi : Host.atoi neg = some i) (h0 : i < 0) (ht : t ≤ 2147483647)
    (hs : s ≤ 2147483647) (hn : (t + s - 1).choose s ≤ 2147483647) (more : List (List Char)) :
    program (Nat.toDigits 10 t :: Nat.toDigits 10 s :: neg :: more) = .ok (0, Nat.toDigits 10 ((t + s - 1).choose s) ++ ['\n']) := by
  obtain ⟨st, -, h2, h3, h4, -⟩ := all_spec t s 0
  have h : Decompositions t s st.stored := ⟨h3, h2⟩
  obtain ⟨data, e⟩ := ctor_eq t s h .size 0
  unfold program
  simp only [size_digits t ht, size_digits s hs, selected, hi, bind, Except.bind]
  rw [if_pos h0]
  simp only [e]
  rw [if_neg (by rw [decompositions_count h]; omega), decompositions_count h]
  rfl

/-- **C136** There always is such a list. -/
theorem decompositions_exist (t s : Nat) : ∃ L, Decompositions t s L := by
  obtain ⟨st, -, h2, h3, -⟩ := all_spec t s 0
  exact ⟨_, h3, h2⟩

/-- **C136, violated part** If the number of decompositions does not fit into an `int`, the behaviour is undefined, whatever is asked
for. -/
theorem decompose_overflow_fails (t s : Nat) (ht : t ≤ 2147483647) (hs : s ≤ 2147483647) (hn : 2147483647 < (t + s - 1).choose s)
    (more : List (List Char)) : program (Nat.toDigits 10 t :: Nat.toDigits 10 s :: more) = ubOut := by
  obtain ⟨L, h⟩ := decompositions_exist t s
  unfold program
  simp only [size_digits t ht, size_digits s hs, bind, Except.bind]
  cases hsel : selected more with
  | error e =>
    simp only []
    cases more with
    | nil => cases hsel
    | cons m more =>
      unfold selected at hsel
      cases ha : Host.atoi m with
      | none => simp only [ha] at hsel; cases hsel; rfl
      | some i => simp only [ha] at hsel; cases hsel
  | ok sel =>
    obtain ⟨data, e⟩ := ctor_eq t s h sel.1 sel.2
    simp only [e]
    rw [if_pos (by rw [decompositions_count h]; exact hn)]

/-- **C136** Fewer than two arguments are refused without a message. -/
theorem decompose_usage (args : List (List Char)) (h : args.length < 2) : program args = .ok (1, []) := by
  match args, h with
  | [], _ => rfl
  | [_], _ => rfl

/-- The hypotheses are met. -/
example : (program ["3".toList, "2".toList, "1".toList]) = .ok (0, "1\n3\n0\n1\n1\n\n".toList) := by
  obtain ⟨L, h⟩ := decompositions_exist 3 2
  have := decompose_index 3 2 1 (by decide) (by decide) (by decide) h (by decide) []
  have e : L = [[0, 0, 2], [0, 1, 1], [0, 2, 0], [1, 0, 1], [1, 1, 0], [2, 0, 0]] := by
    obtain ⟨d, e⟩ := ctor_eq 3 2 h .all 0
    have e2 : (ctor 3 2 .all 0).map (·.stored) = some [[0, 0, 2], [0, 1, 1], [0, 2, 0], [1, 0, 1], [1, 1, 0], [2, 0, 0]] := by decide +kernel
    rw [e] at e2
    simpa [keep] using e2
  subst e
  exact this

example : Host.atoi "-1".toList = some (-1) := by decide

end Verif.Whole.Decompose
