import Verif.Random.Spec
import Mathlib.NumberTheory.LucasPrimality
import Mathlib.Tactic.NormNum.Prime
import Mathlib.FieldTheory.Finite.Basic
import Mathlib.Data.Int.Interval

/-!
# Random number generators (C40, C41)
-/

namespace Verif.Random

open Verif.Loop

/-! ## RandomForTests -/

/-- Powers modulo `m` by repeated squaring. -/
def pm (b m : Nat) : Nat → Nat → Nat
  | 0, _ => 1 % m
  | f + 1, e => if e = 0 then 1 % m else
      if e % 2 = 0 then pm b m f (e / 2) * pm b m f (e / 2) % m else pm b m f (e / 2) * pm b m f (e / 2) % m * b % m

theorem pm_eq (b m f e : Nat) (h : e < 2 ^ f) : pm b m f e = b ^ e % m := by
  induction f generalizing e with
  | zero =>
    have : e = 0 := by simpa using h
    subst this; simp [pm]
  | succ f ih =>
    rw [pm]
    split
    · rename_i h0; subst h0; simp
    · rw [ih (e / 2) (by rw [pow_succ] at h; omega)]
      split
      · rw [← Nat.mul_mod, ← pow_add]
        congr 2
        omega
      · rw [← Nat.mul_mod, ← pow_add, Nat.mod_mul_mod, ← pow_succ]
        congr 2
        omega

theorem pow_cast (n : Nat) : (16807 : ZMod minstdModulus) ^ n = ((16807 ^ n % minstdModulus : Nat) : ZMod minstdModulus) := by
  rw [ZMod.natCast_mod]
  push_cast
  rfl

theorem cast_ne_one (r : Nat) (h1 : r < minstdModulus) (h2 : r ≠ 1) : (r : ZMod minstdModulus) ≠ 1 := by
  intro e
  have : ((r : Nat) : ZMod minstdModulus) = ((1 : Nat) : ZMod minstdModulus) := by simpa using e
  rw [ZMod.natCast_eq_natCast_iff', Nat.mod_eq_of_lt h1] at this
  exact h2 this

theorem pow_full : (16807 : ZMod minstdModulus) ^ (minstdModulus - 1) = 1 := by
  rw [pow_cast, ← pm_eq 16807 minstdModulus 31 _ (by decide),
    show pm 16807 minstdModulus 31 (minstdModulus - 1) = 1 by decide +kernel]
  simp

theorem prime_factors (q : Nat) (hq : q.Prime) (hd : q ∣ minstdModulus - 1) :
    q = 2 ∨ q = 3 ∨ q = 7 ∨ q = 11 ∨ q = 31 ∨ q = 151 ∨ q = 331 := by
  have hf : minstdModulus - 1 = 2 * (3 * (3 * (7 * (11 * (31 * (151 * 331)))))) := by decide
  rw [hf] at hd
  have key : ∀ {p r : Nat}, p.Prime → q ∣ p * r → q = p ∨ q ∣ r := fun hp h =>
    (hq.dvd_mul.1 h).imp (fun h => (Nat.prime_dvd_prime_iff_eq hq hp).1 h) id
  rcases key (by norm_num) hd with h | hd
  · exact Or.inl h
  rcases key (by norm_num) hd with h | hd
  · exact Or.inr (Or.inl h)
  rcases key (by norm_num) hd with h | hd
  · exact Or.inr (Or.inl h)
  rcases key (by norm_num) hd with h | hd
  · exact Or.inr (Or.inr (Or.inl h))
  rcases key (by norm_num) hd with h | hd
  · exact Or.inr (Or.inr (Or.inr (Or.inl h)))
  rcases key (by norm_num) hd with h | hd
  · exact Or.inr (Or.inr (Or.inr (Or.inr (Or.inl h))))
  rcases key (by norm_num) hd with h | hd
  · exact Or.inr (Or.inr (Or.inr (Or.inr (Or.inr (Or.inl h)))))
  · exact Or.inr (Or.inr (Or.inr (Or.inr (Or.inr (Or.inr ((Nat.prime_dvd_prime_iff_eq hq (by norm_num)).1 hd))))))

theorem pow_part (q : Nat) (hq : q.Prime) (hd : q ∣ minstdModulus - 1) :
    (16807 : ZMod minstdModulus) ^ ((minstdModulus - 1) / q) ≠ 1 := by
  have hlt : (minstdModulus - 1) / q < 2 ^ 31 :=
    lt_of_le_of_lt (Nat.div_le_self _ _) (by decide)
  rw [pow_cast]
  refine cast_ne_one _ (Nat.mod_lt _ (by decide)) ?_
  rw [← pm_eq 16807 minstdModulus 31 _ hlt]
  rcases prime_factors q hq hd with rfl | rfl | rfl | rfl | rfl | rfl | rfl <;> decide +kernel

theorem p_prime : Nat.Prime minstdModulus :=
  lucas_primality _ 16807 pow_full pow_part

instance : Fact (Nat.Prime minstdModulus) := ⟨p_prime⟩

/-- 16807 is a primitive root. -/
theorem order_full : orderOf (16807 : ZMod minstdModulus) = minstdModulus - 1 :=
  orderOf_eq_of_pow_and_pow_div_prime (by decide) pow_full pow_part

theorem int32_some {x : Int} (h1 : -2147483648 ≤ x) (h2 : x ≤ 2147483647) : int32 x = some x := if_pos ⟨h1, h2⟩

/-- **C40** One step from any `int`: no overflow, the new state is in range and is 16807 times the old one modulo
2^31 - 1 if that is not zero. -/
theorem next_step (s : Int) (h1 : -2147483648 ≤ s) (h2 : s ≤ 2147483647) :
    ∃ n, next s = some n ∧ 1 ≤ n ∧ n ≤ 2147483646 ∧ (s % 2147483647 ≠ 0 → n = 16807 * s % 2147483647) := by
  have ht : s = 127773 * s.tdiv 127773 + s.tmod 127773 := (Int.mul_tdiv_add_tmod s 127773).symm
  have hm : s.tmod 127773 < 127773 := Int.tmod_lt_of_pos s (by omega)
  have hm' : -127773 < s.tmod 127773 := by
    have := Int.lt_tmod_of_pos s (b := 127773) (by omega)
    omega
  have hsign : (0 ≤ s → 0 ≤ s.tmod 127773) ∧ (s ≤ 0 → s.tmod 127773 ≤ 0) := by
    constructor
    · intro h; exact Int.tmod_nonneg _ h
    · intro h
      have := Int.tmod_nonneg 127773 (a := -s) (by omega)
      rw [Int.neg_tmod] at this
      omega
  unfold next
  generalize s.tdiv 127773 = q at *
  generalize s.tmod 127773 = r at *
  rw [int32_some (by omega) (by omega), int32_some (by omega) (by omega)]
  simp only [bind, Option.bind_some]
  rw [int32_some (by omega) (by omega)]
  simp only [bind, Option.bind_some]
  by_cases hn : 16807 * r - 2836 * q ≤ 0
  · rw [if_pos hn, int32_some (by omega) (by omega)]
    simp only [Option.bind_some]
    by_cases hb : 16807 * r - 2836 * q + 2147483647 ≥ 2147483647
    · rw [if_pos hb]
      refine ⟨1, rfl, by omega, by omega, ?_⟩
      intro h
      exfalso
      have : 16807 * s = 2147483647 * q := by omega
      omega
    · rw [if_neg hb]
      refine ⟨_, rfl, by omega, by omega, fun h => by omega⟩
  · rw [if_neg hn]
    simp only [Option.bind_some]
    rw [if_neg (by omega)]
    refine ⟨_, rfl, by omega, by omega, fun h => by omega⟩

/-- The result of the `k`-th call, as an integer. -/
theorem state_eq (s : Int) (h1 : -2147483648 ≤ s) (h2 : s ≤ 2147483647) (h3 : s % 2147483647 ≠ 0) (k : Nat) :
    ∃ n, state s (k + 1) = some n ∧ 1 ≤ n ∧ n ≤ 2147483646 ∧ n = 16807 ^ (k + 1) * s % 2147483647 := by
  induction k with
  | zero =>
    obtain ⟨n, e, a, b, c⟩ := next_step s h1 h2
    exact ⟨n, by simpa [state] using e, a, b, by simpa using c h3⟩
  | succ k ih =>
    obtain ⟨m, e, a, b, c⟩ := ih
    obtain ⟨n, e', a', b', c'⟩ := next_step m (by omega) (by omega)
    refine ⟨n, by rw [state, e]; simpa using e', a', b', ?_⟩
    rw [c' (by omega), c, Int.mul_emod, Int.emod_emod_of_dvd _ (dvd_refl _), ← Int.mul_emod, pow_succ' 16807 (k + 1),
      Int.mul_assoc]

/-- **C40** For every seed the generator runs for ever without overflow, its states stay between 1 and 2^31 - 2,
and the number returned is strictly between 0 and 1. -/
theorem always_in_range (s : Int) (h1 : -2147483648 ≤ s) (h2 : s ≤ 2147483647) (k : Nat) :
    ∃ n, state s (k + 1) = some n ∧ 1 ≤ n ∧ n ≤ 2147483646 ∧
      0 < (n : Rat) / 2147483647 ∧ (n : Rat) / 2147483647 < 1 := by
  have key : ∃ n, state s (k + 1) = some n ∧ 1 ≤ n ∧ n ≤ 2147483646 := by
    induction k with
    | zero =>
      obtain ⟨n, e, a, b, _⟩ := next_step s h1 h2
      exact ⟨n, by simpa [state] using e, a, b⟩
    | succ k ih =>
      obtain ⟨m, e, a, b⟩ := ih
      obtain ⟨n, e', a', b', _⟩ := next_step m (by omega) (by omega)
      exact ⟨n, by rw [state, e]; simpa using e', a', b'⟩
  obtain ⟨n, e, a, b⟩ := key
  refine ⟨n, e, a, b, ?_, ?_⟩
  · have : (1 : Rat) ≤ n := by exact_mod_cast a
    positivity
  · rw [div_lt_one (by norm_num)]
    have : (n : Rat) ≤ 2147483646 := by exact_mod_cast b
    linarith

/-- **C40** From a seed between 1 and 2^31 - 2 the states are 16807^k times the seed modulo 2^31 - 1. -/
theorem state_closed (s : Int) (h1 : 1 ≤ s) (h2 : s ≤ 2147483646) (k : Nat) :
    state s k = some (16807 ^ k * s % 2147483647) := by
  cases k with
  | zero => simp [state]; omega
  | succ k =>
    obtain ⟨n, e, _, _, c⟩ := state_eq s (by omega) (by omega) (by omega) k
    rw [e, c]

theorem cast_state (s : Int) (k : Nat) :
    (((16807 ^ k * s % 2147483647 : Int)) : ZMod minstdModulus) = 16807 ^ k * (s : ZMod minstdModulus) := by
  have : ((2147483647 : Int)) = ((minstdModulus : Nat) : Int) := rfl
  rw [this, ZMod.intCast_mod]
  push_cast
  rfl

theorem seed_unit (s : Int) (h1 : 1 ≤ s) (h2 : s ≤ 2147483646) : (s : ZMod minstdModulus) ≠ 0 := by
  intro e
  rw [ZMod.intCast_zmod_eq_zero_iff_dvd] at e
  obtain ⟨c, hc⟩ := e
  unfold minstdModulus at hc
  omega

/-- **C40** Full period: two states are equal exactly when the number of calls between them is a multiple of
2^31 - 2. -/
theorem full_period (s : Int) (h1 : 1 ≤ s) (h2 : s ≤ 2147483646) (j k : Nat) :
    state s j = state s (j + k) ↔ 2147483646 ∣ k := by
  rw [state_closed s h1 h2, state_closed s h1 h2]
  have hs := seed_unit s h1 h2
  have h16 : (16807 : ZMod minstdModulus) ≠ 0 := by
    intro e
    have := pow_full
    rw [e, zero_pow (by decide)] at this
    exact zero_ne_one this
  have hz : 16807 ^ j * s % 2147483647 = 16807 ^ (j + k) * s % 2147483647 ↔
      (16807 : ZMod minstdModulus) ^ k = 1 := by
    have : 16807 ^ j * s % 2147483647 = 16807 ^ (j + k) * s % 2147483647 ↔
        ((16807 ^ j * s % 2147483647 : Int) : ZMod minstdModulus) = ((16807 ^ (j + k) * s % 2147483647 : Int) : ZMod minstdModulus) := by
      rw [ZMod.intCast_eq_intCast_iff']
      show _ ↔ _ % ((2147483647 : Nat) : Int) = _ % ((2147483647 : Nat) : Int)
      simp
    rw [this, cast_state, cast_state, pow_add]
    constructor
    · intro h
      have h' : 16807 ^ j * (s : ZMod minstdModulus) * 16807 ^ k = 16807 ^ j * (s : ZMod minstdModulus) * 1 := by
        rw [mul_one, mul_right_comm]; exact h.symm
      exact mul_left_cancel₀ (mul_ne_zero (pow_ne_zero _ h16) hs) h'
    · intro h
      rw [h, mul_one]
  rw [Option.some.injEq, hz, ← orderOf_dvd_iff_pow_eq_one, order_full]
  rfl

/-- **C40** Every number from 1 to 2^31 - 2 comes up. -/
theorem all_states (s : Int) (h1 : 1 ≤ s) (h2 : s ≤ 2147483646) (n : Int) (h3 : 1 ≤ n) (h4 : n ≤ 2147483646) :
    ∃ k, k < 2147483646 ∧ state s k = some n := by
  have hinj : Set.InjOn (fun k : Nat => 16807 ^ k * s % 2147483647) (Finset.range 2147483646) := by
    intro a ha b hb hab
    have ha : a < 2147483646 := Finset.mem_range.1 (Finset.mem_coe.1 ha)
    have hb : b < 2147483646 := Finset.mem_range.1 (Finset.mem_coe.1 hb)
    have key : ∀ a b : Nat, a ≤ b → b < 2147483646 → 16807 ^ a * s % 2147483647 = 16807 ^ b * s % 2147483647 → a = b := by
      intro a b h hb e
      obtain ⟨d, rfl⟩ := Nat.le.dest h
      have := (full_period s h1 h2 a d).1 (by rw [state_closed s h1 h2, state_closed s h1 h2, e])
      obtain ⟨c, hc⟩ := this
      have : c = 0 := by omega
      subst this
      omega
    rcases le_total a b with h | h
    · exact key _ _ h hb hab
    · exact (key _ _ h ha hab.symm).symm
  have hmaps : ∀ k : Nat, 16807 ^ k * s % 2147483647 ∈ Finset.Icc (1 : Int) 2147483646 := by
    intro k
    rw [Finset.mem_Icc]
    rcases k with _ | m
    · simp; constructor <;> omega
    · obtain ⟨n, e', a, b, c⟩ := state_eq s (by omega) (by omega) (by omega) m
      rw [← c]; exact ⟨a, b⟩
  have himg : (Finset.range 2147483646).image (fun k : Nat => 16807 ^ k * s % 2147483647) =
      Finset.Icc (1 : Int) 2147483646 := by
    apply Finset.eq_of_subset_of_card_le
    · intro x hx
      obtain ⟨k, _, rfl⟩ := Finset.mem_image.1 hx
      exact hmaps k
    · rw [Finset.card_image_of_injOn hinj, Int.card_Icc, Finset.card_range]
      decide
  have : n ∈ (Finset.range 2147483646).image (fun k : Nat => 16807 ^ k * s % 2147483647) := by
    rw [himg, Finset.mem_Icc]; exact ⟨h3, h4⟩
  obtain ⟨k, hk, e⟩ := Finset.mem_image.1 this
  exact ⟨k, Finset.mem_range.1 hk, by rw [state_closed s h1 h2, ← e]⟩

example : (state 1 1 = some 16807 ∧ state 1 2 = some 282475249 ∧ state 1 3 = some 1622650073) ∧
    state (-2147483648) 1 = some 2147466840 ∧ state 0 1 = some 1 := by decide +kernel

/-! ## Concrete cases of the hypotheses. -/

example := all_states 1 (by decide) (by decide) 2147483646 (by decide) (by decide)
example := always_in_range (-2147483648) (by decide) (by decide) 99
example := full_period 16807 (by decide) (by decide) 3 4
example := next_step 0 (by decide) (by decide)
example := state_closed 16807 (by decide) (by decide) 12

end Verif.Random
