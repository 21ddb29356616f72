import Verif.Random.Spec
import Mathlib.Data.Fintype.EquivFin
import Mathlib.Data.Rat.Defs
import Mathlib.Tactic.Linarith
import Mathlib.Tactic.Positivity
import Mathlib.Algebra.Order.Field.Rat
import Mathlib.Tactic.NormNum

/-!
# Mersenne twister (C41)
-/

namespace Verif.Random

open Verif.Loop

theorem bits_hi : ∀ i : Fin 32, (0x80000000#32).getLsbD i.val = decide (i.val = 31) := by decide
theorem bits_lo : ∀ i : Fin 32, (0x7fffffff#32).getLsbD i.val = decide (i.val < 31) := by decide

theorem mix_eq (a b : BitVec 32) : (a &&& 0x80000000#32) + (b &&& 0x7fffffff#32) = mixWord a b := by
  have h : (a &&& 0x80000000#32) &&& (b &&& 0x7fffffff#32) = 0#32 := by
    apply BitVec.eq_of_getLsbD_eq
    intro i hi
    rw [BitVec.getLsbD_and, BitVec.getLsbD_and, BitVec.getLsbD_and, bits_hi ⟨i, hi⟩, bits_lo ⟨i, hi⟩]
    by_cases h31 : i = 31
    · subst h31; simp
    · simp [h31]
  rw [BitVec.add_eq_or_of_and_eq_zero _ _ h]
  unfold mixWord
  apply BitVec.eq_of_getLsbD_eq
  intro i hi
  rw [BitVec.getLsbD_append, BitVec.getLsbD_or, BitVec.getLsbD_and, BitVec.getLsbD_and, bits_hi ⟨i, hi⟩,
    bits_lo ⟨i, hi⟩]
  by_cases h31 : i < 31
  · have : i ≠ 31 := by omega
    simp [h31, this]
  · have : i = 31 := by omega
    subst this
    simp

theorem odd_iff (y : BitVec 32) : y % 2#32 ≠ 0#32 ↔ y.getLsbD 0 = true := by
  have h : (y % 2#32).toNat = y.toNat % 2 := by simp [BitVec.toNat_umod]
  rw [Ne, ← BitVec.toNat_inj, h, BitVec.getLsbD]
  simp [Nat.testBit_zero]

/-! ## Generation -/

/-- `st` holds words `m` to `m + 623` of the stream. -/
def Block (x : Nat → BitVec 32) (m : Nat) (st : List (BitVec 32)) : Prop :=
  st.length = 624 ∧ ∀ i < 624, st[i]? = some (x (m + i))

theorem generate_spec (x : Nat → BitVec 32) (hx : Stream x) (m : Nat) (st : List (BitVec 32)) (h : Block x m st) :
    ∃ st', generate st = some st' ∧ Block x (m + 624) st' := by
  obtain ⟨hl, hb⟩ := h
  obtain ⟨st', h1, h2, h3⟩ := loopN_inv
    (fun i (st : List (BitVec 32)) => st.length = 624 ∧
      ∀ j < 624, st[j]? = some (x (if j < i then m + 624 + j else m + j))) 624 genStep st
    ⟨hl, fun j hj => by rw [if_neg (by omega)]; exact hb j hj⟩
    (by
      intro i st hi ⟨hl, hst⟩
      have ha := hst i hi
      rw [if_neg (by omega)] at ha
      have hbv : st[(i + 1) % 624]? = some (x (m + i + 1)) := by
        rw [hst _ (Nat.mod_lt _ (by omega))]
        split <;> congr 2 <;> omega
      have hcv : st[(i + 397) % 624]? = some (x (m + i + 397)) := by
        rw [hst _ (Nat.mod_lt _ (by omega))]
        split <;> congr 2 <;> omega
      have hv : genStep i st = some (st.set i (x (m + 624 + i))) := by
        unfold genStep
        rw [ha, hbv, hcv]
        simp only [bind, Option.bind_some]
        rw [setAt, if_pos (by omega), mix_eq, show m + 624 + i = (m + i) + 624 by omega, hx]
        simp only [Option.bind_some]
        unfold twist
        by_cases ho : (mixWord (x (m + i)) (x (m + i + 1))).getLsbD 0 = true
        · rw [if_pos ho, if_pos ((odd_iff _).2 ho), List.getElem?_set_self (by omega)]
          simp only [Option.bind_some]
          rw [setAt, if_pos (by rw [List.length_set]; omega), List.set_set, BitVec.xor_assoc]
        · rw [if_neg ho, if_neg (fun h => ho ((odd_iff _).1 h))]
          rfl
      refine ⟨_, hv, by simpa using hl, fun j hj => ?_⟩
      by_cases hji : j = i
      · subst hji
        rw [List.getElem?_set_self (by omega), if_pos (by omega)]
      · rw [List.getElem?_set_ne (by omega), hst j hj]
        congr 2
        by_cases h : j < i
        · rw [if_pos h, if_pos (by omega)]
        · rw [if_neg h, if_neg (by omega)])
  refine ⟨st', h1, h2, fun i hi => ?_⟩
  rw [h3 i hi, if_pos hi]

theorem seed_spec (old : List (BitVec 32)) (hold : old.length = 624) (s : BitVec 32) (x : Nat → BitVec 32)
    (hx : Seeded s x) : ∃ g, seed old s = some g ∧ g.index = 0 ∧ Block x 0 g.state := by
  unfold seed
  rw [setAt, if_pos (by omega)]
  simp only [bind, Option.bind_some]
  obtain ⟨st', h1, h2, h3⟩ := loopFrom_inv
    (fun i (st : List (BitVec 32)) => st.length = 624 ∧ ∀ j < i, st[j]? = some (x j)) 1 624 (by omega) seedStep
    (old.set 0 s)
    ⟨by simpa using hold, fun j hj => by
      have : j = 0 := by omega
      subst this
      rw [List.getElem?_set_self (by omega), hx.1]⟩
    (by
      intro i st h1 hi ⟨hl, hst⟩
      have hv : seedStep i st = some (st.set i (x i)) := by
        unfold seedStep
        rw [hst (i - 1) (by omega)]
        simp only [bind, Option.bind_some]
        have := hx.2 (i - 1) (by omega)
        rw [show i - 1 + 1 = i by omega] at this
        rw [setAt, if_pos (by omega), this]
        congr 2
        rw [show (4294967295#32) = BitVec.allOnes 32 by decide, BitVec.allOnes_and]
      refine ⟨_, hv, by simpa using hl, fun j hj => ?_⟩
      by_cases hji : j = i
      · subst hji
        rw [List.getElem?_set_self (by omega)]
      · rw [List.getElem?_set_ne (by omega), hst j (by omega)])
  rw [h1]
  exact ⟨⟨0, st'⟩, rfl, rfl, h2, fun i hi => by rw [Nat.zero_add]; exact h3 i hi⟩

/-- The generator after `k` calls. -/
def After (x : Nat → BitVec 32) (k : Nat) (g : MT) : Prop :=
  g.index = k % 624 ∧ Block x (if k % 624 = 0 then k else 624 * (k / 624) + 624) g.state

theorem random_spec (x : Nat → BitVec 32) (hx : Stream x) (k : Nat) (g : MT) (h : After x k g) :
    ∃ g', random g = some (temper (x (624 + k)), g') ∧ After x (k + 1) g' := by
  obtain ⟨hi, hb⟩ := h
  have key : ∃ st, (if g.index = 0 then generate g.state else some g.state) = some st ∧
      Block x (624 * (k / 624) + 624) st := by
    by_cases h0 : k % 624 = 0
    · rw [if_pos h0] at hb
      rw [if_pos (by omega)]
      obtain ⟨st', h1, h2⟩ := generate_spec x hx k g.state hb
      refine ⟨st', h1, ?_⟩
      rw [show 624 * (k / 624) + 624 = k + 624 by omega]
      exact h2
    · rw [if_neg h0] at hb
      rw [if_neg (by omega)]
      exact ⟨_, rfl, hb⟩
  obtain ⟨st, h1, h2, h3⟩ := key
  refine ⟨⟨(g.index + 1) % 624, st⟩, ?_, ?_, ?_⟩
  · unfold random
    rw [h1]
    simp only [bind, Option.bind_some]
    rw [hi, h3 _ (Nat.mod_lt _ (by omega))]
    simp only [Option.bind_some]
    rw [show 624 * (k / 624) + 624 + k % 624 = 624 + k by omega]
    rfl
  · simp only
    omega
  · have : (if (k + 1) % 624 = 0 then k + 1 else 624 * ((k + 1) / 624) + 624) = 624 * (k / 624) + 624 := by
      split <;> omega
    rw [this]
    exact ⟨h2, h3⟩

theorem outputs_from (x : Nat → BitVec 32) (hx : Stream x) (n k : Nat) (g : MT) (h : After x k g) :
    ∃ g', outputs n g = some ((List.range n).map fun i => temper (x (624 + k + i)), g') := by
  induction n generalizing k g with
  | zero => exact ⟨g, rfl⟩
  | succ n ih =>
    obtain ⟨g1, h1, h2⟩ := random_spec x hx k g h
    obtain ⟨g2, h3⟩ := ih (k + 1) g1 h2
    refine ⟨g2, ?_⟩
    rw [outputs, h1]
    simp only [bind, Option.bind_some]
    rw [h3]
    simp only [Option.bind_some, pure]
    rw [List.range_succ_eq_map, List.map_cons, List.map_map, Nat.add_zero]
    congr 3
    apply List.map_congr_left
    intro i _
    simp only [Function.comp]
    congr 2
    omega

/-- **C41** The results of `n` calls are the scrambled words 624 to 623 + n of the infinite recurrence that starts
from the seed, for every seed and every `n`; no access is out of bounds. -/
theorem mt_stream (old : List (BitVec 32)) (hold : old.length = 624) (s : BitVec 32) (x : Nat → BitVec 32)
    (hs : Seeded s x) (hx : Stream x) (n : Nat) :
    ∃ g g', ctor old s = some g ∧ outputs n g = some ((List.range n).map fun i => temper (x (624 + i)), g') := by
  obtain ⟨g, h1, h2, h3⟩ := seed_spec old hold s x hs
  obtain ⟨g', h4⟩ := outputs_from x hx n 0 g ⟨by simpa using h2, by simpa using h3⟩
  exact ⟨g, g', h1, by simpa using h4⟩

/-- The stream of a seed. -/
def stream (s : BitVec 32) (n : Nat) : BitVec 32 :=
  if h0 : n = 0 then s
  else if h : n < 624 then
    1812433253#32 * ((stream s (n - 1) ^^^ (stream s (n - 1) >>> 30)) + BitVec.ofNat 32 n)
  else stream s (n - 227) ^^^ twist (mixWord (stream s (n - 624)) (stream s (n - 623)))
termination_by n
decreasing_by all_goals omega

/-- **C41** Every seed has such a stream. -/
theorem stream_exists (s : BitVec 32) : Seeded s (stream s) ∧ Stream (stream s) := by
  refine ⟨⟨by rw [stream, dif_pos rfl], fun i hi => ?_⟩, fun n => ?_⟩
  · rw [stream, dif_neg (by omega), dif_pos (by omega), Nat.add_sub_cancel]
  · rw [stream, dif_neg (by omega), dif_neg (by omega)]
    rw [show n + 624 - 227 = n + 397 by omega, show n + 624 - 624 = n by omega, show n + 624 - 623 = n + 1 by omega]

/-- **C41** The result does not depend on the uninitialised array. -/
theorem mt_deterministic (old old' : List (BitVec 32)) (h : old.length = 624) (h' : old'.length = 624) (s : BitVec 32)
    (n : Nat) : ((ctor old s).bind (outputs n)).map (·.1) = ((ctor old' s).bind (outputs n)).map (·.1) := by
  obtain ⟨g, g', h1, h2⟩ := mt_stream old h s _ (stream_exists s).1 (stream_exists s).2 n
  obtain ⟨g1, g1', h3, h4⟩ := mt_stream old' h' s _ (stream_exists s).1 (stream_exists s).2 n
  rw [h1, h3, Option.bind_some, Option.bind_some, h2, h4]
  rfl

/-! ## Scrambling -/

theorem zero_of_shr (s : Nat) (hs : 0 < s) (d : BitVec 32) (h : ∀ i < 32, d.getLsbD i = true → d.getLsbD (s + i) = true) :
    d = 0#32 := by
  have key : ∀ n i, 32 - i ≤ n → d.getLsbD i = false := by
    intro n
    induction n with
    | zero => intro i hi; exact BitVec.getLsbD_of_ge d i (by omega)
    | succ n ih =>
      intro i hi
      by_cases hi' : i < 32
      · by_contra hc
        rw [Bool.not_eq_false] at hc
        have := h i hi' hc
        rw [ih (s + i) (by omega)] at this
        exact absurd this (by simp)
      · exact BitVec.getLsbD_of_ge d i (by omega)
  apply BitVec.eq_of_getLsbD_eq
  intro i hi
  rw [key (32 - i) i (by omega)]
  simp

theorem zero_of_shl (s : Nat) (hs : 0 < s) (d : BitVec 32)
    (h : ∀ i < 32, d.getLsbD i = true → s ≤ i ∧ d.getLsbD (i - s) = true) : d = 0#32 := by
  have key : ∀ i, i < 32 → d.getLsbD i = false := by
    intro i
    induction i using Nat.strong_induction_on with
    | _ i ih =>
      intro hi
      by_contra hc
      rw [Bool.not_eq_false] at hc
      obtain ⟨h1, h2⟩ := h i hi hc
      rw [ih (i - s) (by omega) (by omega)] at h2
      exact absurd h2 (by simp)
  apply BitVec.eq_of_getLsbD_eq
  intro i hi
  rw [key i hi]
  simp

theorem eq_of_xor_zero {a b : BitVec 32} (h : a ^^^ b = 0#32) : a = b := BitVec.xor_eq_zero_iff.1 h

theorem shr_injective (s : Nat) (hs : 0 < s) : Function.Injective fun y : BitVec 32 => y ^^^ (y >>> s) := by
  intro a b hab
  apply eq_of_xor_zero
  apply zero_of_shr s hs
  intro i hi ht
  have := congrArg (fun v : BitVec 32 => v.getLsbD i) hab
  simp only [BitVec.getLsbD_xor, BitVec.getLsbD_ushiftRight] at this ht ⊢
  revert this ht
  cases a.getLsbD i <;> cases b.getLsbD i <;> cases a.getLsbD (s + i) <;> cases b.getLsbD (s + i) <;> simp

theorem shl_injective (s : Nat) (hs : 0 < s) (m : BitVec 32) :
    Function.Injective fun y : BitVec 32 => y ^^^ ((y <<< s) &&& m) := by
  intro a b hab
  apply eq_of_xor_zero
  apply zero_of_shl s hs
  intro i hi ht
  have := congrArg (fun v : BitVec 32 => v.getLsbD i) hab
  simp only [BitVec.getLsbD_xor, BitVec.getLsbD_and, BitVec.getLsbD_shiftLeft, hi, decide_true, Bool.true_and] at this ht ⊢
  by_cases hsi : i < s
  · simp only [hsi, decide_true, Bool.not_true, Bool.false_and] at this
    revert this ht
    cases a.getLsbD i <;> cases b.getLsbD i <;> simp
  · refine ⟨by omega, ?_⟩
    simp only [hsi, decide_false, Bool.not_false, Bool.true_and] at this
    revert this ht
    cases a.getLsbD i <;> cases b.getLsbD i <;> cases a.getLsbD (i - s) <;> cases b.getLsbD (i - s) <;>
      cases m.getLsbD i <;> simp

/-- **C41** The scrambling of an output word is a bijection of the 32-bit words. -/
theorem temper_bijective : Function.Bijective temper := by
  have hinj : Function.Injective temper := by
    intro a b hab
    unfold temper at hab
    exact shr_injective 11 (by omega) (shl_injective 7 (by omega) _ (shl_injective 15 (by omega) _
      (shr_injective 18 (by omega) hab)))
  have : Finite (BitVec 32) := Finite.of_injective (fun v : BitVec 32 => v.toFin) (fun a b h => BitVec.toFin_inj.1 h)
  exact ⟨hinj, Finite.surjective_of_injective hinj⟩

/-- **C41** `operator()` is between 0 and 1, and 1 is the image of a word. -/
theorem unit_interval (y : BitVec 32) : 0 ≤ (y.toNat : Rat) / 4294967295 ∧ (y.toNat : Rat) / 4294967295 ≤ 1 := by
  constructor
  · positivity
  · rw [div_le_one (by norm_num)]
    have : y.toNat ≤ 4294967295 := by have := y.isLt; omega
    exact_mod_cast this

/-! ## What does not hold -/

/-- **C41** Ranks 0 and 1 get the same stream, for every seed. -/
theorem ranks_0_1_same_fails (old : List (BitVec 32)) (s : BitVec 32) : ctorRank old s 0 = ctorRank old s 1 := rfl

/-- **C41** For no seed is the stream the one of the published algorithm: the second word already differs. -/
theorem not_reference_fails (s : BitVec 32) (x r : Nat → BitVec 32) (hx : Seeded s x) (hr : ReferenceSeeded s r) :
    x 1 ≠ r 1 := by
  have h1 := hx.2 0 (by omega)
  have h2 := hr.2 0 (by omega)
  rw [hx.1] at h1
  rw [hr.1] at h2
  simp only [Nat.zero_add] at h1 h2
  rw [h1, h2, BitVec.mul_add]
  intro h
  have := (BitVec.add_right_inj _).1 h
  revert this
  decide

example : ∃ x, Seeded 5489#32 x ∧ Stream x ∧ x 0 = 5489#32 ∧ x 1 = 1812433253#32 * 5490#32 := by
  refine ⟨stream 5489#32, (stream_exists _).1, (stream_exists _).2, (stream_exists _).1.1, ?_⟩
  have := (stream_exists 5489#32).1.2 0 (by omega)
  rw [(stream_exists 5489#32).1.1] at this
  rw [this]
  decide

/-! ## Concrete cases of the hypotheses: the usual seed 5489. -/

example := mt_deterministic (List.replicate 624 0#32) (List.replicate 624 7#32) List.length_replicate List.length_replicate 5489#32 1000
example := mt_stream (List.replicate 624 7#32) List.length_replicate 5489#32 _ (stream_exists _).1 (stream_exists _).2 1000

end Verif.Random
