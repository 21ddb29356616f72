import Verif.BitManip.Model

namespace Verif.BitManip

/-- Number of one digits of `n` in base 2. -/
def ones (n : Nat) : Nat := if n = 0 then 0 else n % 2 + ones (n / 2)
termination_by n

theorem ones_zero : ones 0 = 0 := by rw [ones]; simp

theorem ones_step (n : Nat) : ones n = n % 2 + ones (n / 2) := by
  by_cases h : n = 0
  · subst h; simp [ones_zero]
  · rw [ones]; simp [h]

theorem and_split (k x h m g : Nat) (hx : x < 2 ^ k) (hm : m < 2 ^ k) :
    (x + 2 ^ k * h) &&& (m + 2 ^ k * g) = (x &&& m) + 2 ^ k * (h &&& g) := by
  have hp : 0 < 2 ^ k := Nat.two_pow_pos k
  have e := Nat.mod_add_div ((x + 2 ^ k * h) &&& (m + 2 ^ k * g)) (2 ^ k)
  rw [Nat.and_mod_two_pow, Nat.and_div_two_pow] at e
  rw [Nat.add_mul_mod_self_left, Nat.add_mul_mod_self_left, Nat.mod_eq_of_lt hx,
    Nat.mod_eq_of_lt hm, Nat.add_mul_div_left _ _ hp, Nat.add_mul_div_left _ _ hp,
    Nat.div_eq_of_lt hx, Nat.div_eq_of_lt hm, Nat.zero_add, Nat.zero_add] at e
  exact e.symm

theorem ones_and_pred (n : Nat) (hn : n ≠ 0) : ones (n &&& (n - 1)) + 1 = ones n := by
  induction n using Nat.strongRecOn with
  | _ n ih =>
    rcases Nat.mod_two_eq_zero_or_one n with h | h
    · have hm : n / 2 ≠ 0 := by omega
      have e1 : n = 0 + 2 ^ 1 * (n / 2) := by omega
      have e2 : n - 1 = 1 + 2 ^ 1 * (n / 2 - 1) := by omega
      have e : n &&& (n - 1) = 2 * (n / 2 &&& (n / 2 - 1)) := by
        rw [e2]
        conv => lhs; lhs; rw [e1]
        rw [and_split _ _ _ _ _ (by omega) (by omega)]; simp
      rw [e, ones_step (2 * _), ones_step n]
      have := ih (n / 2) (by omega) hm
      have e3 : 2 * (n / 2 &&& (n / 2 - 1)) / 2 = (n / 2 &&& (n / 2 - 1)) := by omega
      rw [e3]; omega
    · have e1 : n = 1 + 2 ^ 1 * (n / 2) := by omega
      have e2 : n - 1 = 0 + 2 ^ 1 * (n / 2) := by omega
      have e : n &&& (n - 1) = 2 * (n / 2) := by
        rw [e2]
        conv => lhs; lhs; rw [e1]
        rw [and_split _ _ _ _ _ (by omega) (by omega)]; simp
      rw [e, ones_step (2 * _), ones_step n]
      have e3 : 2 * (n / 2) / 2 = n / 2 := by omega
      rw [e3]; omega

theorem kernighanLoop_eq (v : BitVec 64) (c : Nat) : kernighanLoop v c = c + ones v.toNat := by
  fun_induction kernighanLoop v c with
  | case1 c => simp [ones_zero]
  | case2 v c h ih =>
    have hv : v.toNat ≠ 0 := fun h' => h (BitVec.eq_of_toNat_eq (by simpa using h'))
    have h1 : (v - 1).toNat = v.toNat - 1 := by
      rw [BitVec.toNat_sub_of_le]
      · rfl
      · rw [BitVec.le_def]; show 1 ≤ _; omega
    rw [ih, BitVec.toNat_and, h1, ← ones_and_pred v.toNat hv]
    omega

/-! ### SWAR -/

/-- Fields of width `w`, least significant first. -/
def pack (w : Nat) : List Nat → Nat
  | [] => 0
  | x :: xs => x + 2 ^ w * pack w xs

/-- Sums of neighbouring fields. -/
def pairs : List Nat → List Nat
  | x :: y :: r => (x + y) :: pairs r
  | l => l

theorem swar_nat (w : Nat) : ∀ (n : Nat) (l : List Nat), l.length = 2 * n →
    (∀ x ∈ l, x < 2 ^ w) →
    (pack (2 * w) (List.replicate n (2 ^ w - 1)) &&& pack w l) +
      (pack (2 * w) (List.replicate n (2 ^ w - 1)) &&& (pack w l / 2 ^ w)) =
      pack (2 * w) (pairs l)
  | 0, l, hl, _ => by
    have : l = [] := List.eq_nil_of_length_eq_zero (by omega)
    subst this; simp [pack, pairs]
  | n + 1, l, hl, hx => by
    match l, hl with
    | x :: y :: r, hl =>
      have ih := swar_nat w n r (by simp at hl; omega) (fun z hz => hx z (by simp [hz]))
      have hx1 : x < 2 ^ w := hx x (by simp)
      have hy1 : y < 2 ^ w := hx y (by simp)
      have hp : 0 < 2 ^ w := Nat.two_pow_pos w
      have hpp : 2 ^ (2 * w) = 2 ^ w * 2 ^ w := by rw [Nat.two_mul, Nat.pow_add]
      have hm : 2 ^ w - 1 < 2 ^ (2 * w) := by
        rw [hpp]; have := Nat.le_mul_of_pos_right (2 ^ w) hp; omega
      have hle : ∀ a b, a < 2 ^ w → b < 2 ^ w → a + 2 ^ w * b < 2 ^ (2 * w) := by
        intro a b ha hb
        rw [hpp]
        have : 2 ^ w * (b + 1) ≤ 2 ^ w * 2 ^ w := Nat.mul_le_mul_left _ hb
        rw [Nat.mul_add] at this
        omega
      have hmask : ∀ a b, a < 2 ^ w → (2 ^ w - 1) &&& (a + 2 ^ w * b) = a := by
        intro a b ha
        rw [Nat.and_comm, Nat.and_two_pow_sub_one_eq_mod, Nat.add_mul_mod_self_left,
          Nat.mod_eq_of_lt ha]
      have e1 : pack w (x :: y :: r) = (x + 2 ^ w * y) + 2 ^ (2 * w) * pack w r := by
        simp only [pack, hpp]
        rw [Nat.mul_add]; simp [Nat.mul_assoc, Nat.add_assoc]
      have e2 : pack w (x :: y :: r) / 2 ^ w =
          (y + 2 ^ w * (pack w r % 2 ^ w)) + 2 ^ (2 * w) * (pack w r / 2 ^ w) := by
        have : pack w (x :: y :: r) / 2 ^ w = y + 2 ^ w * pack w r := by
          simp only [pack]
          rw [Nat.add_mul_div_left _ _ hp, Nat.div_eq_of_lt hx1, Nat.zero_add]
        rw [this, hpp, Nat.add_assoc, Nat.mul_assoc, ← Nat.mul_add, Nat.mod_add_div]
      have e3 : pack (2 * w) (List.replicate (n + 1) (2 ^ w - 1)) =
          (2 ^ w - 1) + 2 ^ (2 * w) * pack (2 * w) (List.replicate n (2 ^ w - 1)) := by
        rw [List.replicate_succ]; rfl
      rw [e2, e1, e3, and_split _ _ _ _ _ hm (hle _ _ hx1 hy1),
        and_split _ _ _ _ _ hm (hle _ _ hy1 (Nat.mod_lt _ hp)), hmask _ _ hx1, hmask _ _ hy1]
      simp only [pairs, pack]
      rw [← ih, Nat.mul_add]
      omega

theorem pack_lt (w : Nat) : ∀ (l : List Nat), (∀ x ∈ l, x < 2 ^ w) →
    pack w l < 2 ^ (w * l.length)
  | [], _ => by simp [pack]
  | x :: xs, h => by
    have ih := pack_lt w xs (fun z hz => h z (by simp [hz]))
    have hx := h x (by simp)
    simp only [pack, List.length_cons, Nat.mul_add, Nat.mul_one, Nat.pow_add]
    have h1 : 2 ^ w * (pack w xs + 1) ≤ 2 ^ w * 2 ^ (w * xs.length) := Nat.mul_le_mul_left _ ih
    rw [Nat.mul_add] at h1
    rw [Nat.mul_comm (2 ^ (w * xs.length))]
    omega

theorem pairs_length : ∀ (n : Nat) (l : List Nat), l.length = 2 * n → (pairs l).length = n
  | 0, l, h => by have : l = [] := List.eq_nil_of_length_eq_zero (by omega); subst this; rfl
  | n + 1, l, h => by
    match l, h with
    | x :: y :: r, h => simp [pairs, pairs_length n r (by simp at h; omega)]

theorem pairs_le (b : Nat) : ∀ (n : Nat) (l : List Nat), l.length = 2 * n → (∀ x ∈ l, x ≤ b) →
    ∀ x ∈ pairs l, x ≤ 2 * b
  | 0, l, h, _ => by
    have : l = [] := List.eq_nil_of_length_eq_zero (by omega); subst this; simp [pairs]
  | n + 1, l, h, hb => by
    match l, h with
    | x :: y :: r, h =>
      intro z hz
      simp only [pairs, List.mem_cons] at hz
      rcases hz with rfl | hz
      · have := hb x (by simp); have := hb y (by simp); omega
      · exact pairs_le b n r (by simp at h; omega) (fun a ha => hb a (by simp [ha])) z hz

theorem pairs_sum : ∀ (n : Nat) (l : List Nat), l.length = 2 * n → (pairs l).sum = l.sum
  | 0, l, h => by have : l = [] := List.eq_nil_of_length_eq_zero (by omega); subst this; rfl
  | n + 1, l, h => by
    match l, h with
    | x :: y :: r, h =>
      simp only [pairs, List.sum_cons, pairs_sum n r (by simp at h; omega)]; omega

/-- One SWAR line on a word holding `2n` fields of width `w`, each at most `w`. -/
theorem swarStep_pack {N : Nat} (w n : Nat) (mask b : BitVec N) (l : List Nat)
    (hN : N = 2 * w * n) (hw : 0 < w)
    (hmask : mask.toNat = pack (2 * w) (List.replicate n (2 ^ w - 1)))
    (hl : l.length = 2 * n) (hle : ∀ x ∈ l, x ≤ w) (hb : b.toNat = pack w l) :
    (swarStep mask w b).toNat = pack (2 * w) (pairs l) := by
  have hlt : ∀ x ∈ l, x < 2 ^ w := fun x hx => Nat.lt_of_le_of_lt (hle x hx) Nat.lt_two_pow_self
  have key := swar_nat w n l hl hlt
  have hfields : ∀ x ∈ pairs l, x < 2 ^ (2 * w) := fun x hx =>
    Nat.lt_of_le_of_lt (pairs_le w n l hl hle x hx) Nat.lt_two_pow_self
  have hbound := pack_lt (2 * w) (pairs l) hfields
  rw [pairs_length n l hl, ← hN] at hbound
  simp only [swarStep, BitVec.toNat_add, BitVec.toNat_and, BitVec.toNat_ushiftRight,
    Nat.shiftRight_eq_div_pow, hmask, hb]
  rw [key, Nat.mod_eq_of_lt hbound]

/-- The binary digits of a number below `2^k`, least significant first. -/
def digits : Nat → Nat → List Nat
  | 0, _ => []
  | k + 1, n => n % 2 :: digits k (n / 2)

theorem digits_length : ∀ k n, (digits k n).length = k
  | 0, _ => rfl
  | k + 1, n => by simp [digits, digits_length k]

theorem digits_le : ∀ k n, ∀ x ∈ digits k n, x ≤ 1
  | 0, _ => by simp [digits]
  | k + 1, n => by
    intro x hx
    simp only [digits, List.mem_cons] at hx
    rcases hx with rfl | hx
    · omega
    · exact digits_le k _ x hx

theorem pack_digits : ∀ k n, n < 2 ^ k → pack 1 (digits k n) = n
  | 0, n, h => by simp at h; simp [digits, pack, h]
  | k + 1, n, h => by
    simp only [digits, pack]
    rw [pack_digits k (n / 2) (by rw [Nat.pow_succ] at h; omega)]; omega

theorem sum_digits : ∀ k n, n < 2 ^ k → (digits k n).sum = ones n
  | 0, n, h => by simp at h; simp [digits, h, ones_zero]
  | k + 1, n, h => by
    rw [ones_step]
    simp only [digits, List.sum_cons]
    rw [sum_digits k (n / 2) (by rw [Nat.pow_succ] at h; omega)]

theorem pack_single (w : Nat) (l : List Nat) (h : l.length = 1) : pack w l = l.sum := by
  match l, h with
  | [x], _ => simp [pack]

theorem count64_eq (b : BitVec 64) : count64 b = ones b.toNat := by
  have hb := b.isLt
  have l0 := digits_length 64 b.toNat
  have s1 := swarStep_pack 1 32 0x5555555555555555#64 b _ (by omega) (by omega)
    (by decide +kernel) l0 (digits_le _ _) (pack_digits 64 _ hb).symm
  have b1 := pairs_le 1 32 _ l0 (digits_le _ _)
  have l1 := pairs_length 32 _ l0
  have s2 := swarStep_pack 2 16 0x3333333333333333#64 _ _ (by omega) (by omega)
    (by decide +kernel) l1 b1 s1
  have b2 := pairs_le 2 16 _ l1 b1
  have l2 := pairs_length 16 _ l1
  have s3 := swarStep_pack 4 8 0x0f0f0f0f0f0f0f0f#64 _ _ (by omega) (by omega)
    (by decide +kernel) l2 b2 s2
  have b3 := pairs_le 4 8 _ l2 b2
  have l3 := pairs_length 8 _ l2
  have s4 := swarStep_pack 8 4 0x00ff00ff00ff00ff#64 _ _ (by omega) (by omega)
    (by decide +kernel) l3 b3 s3
  have b4 := pairs_le 8 4 _ l3 b3
  have l4 := pairs_length 4 _ l3
  have s5 := swarStep_pack 16 2 0x0000ffff0000ffff#64 _ _ (by omega) (by omega)
    (by decide +kernel) l4 b4 s4
  have b5 := pairs_le 16 2 _ l4 b4
  have l5 := pairs_length 2 _ l4
  have s6 := swarStep_pack 32 1 0x00000000ffffffff#64 _ _ (by omega) (by omega)
    (by decide +kernel) l5 b5 s5
  have l6 := pairs_length 1 _ l5
  show (swarStep _ 32 _).toNat = _
  rw [s6]
  have hs : (pairs (pairs (pairs (pairs (pairs (pairs (digits 64 b.toNat))))))).sum =
      ones b.toNat := by
    rw [pairs_sum 1 _ l5, pairs_sum 2 _ l4, pairs_sum 4 _ l3, pairs_sum 8 _ l2,
      pairs_sum 16 _ l1, pairs_sum 32 _ l0, sum_digits 64 _ hb]
  rw [← hs]
  exact pack_single _ _ l6

theorem count32_eq (b : BitVec 32) : count32 b = ones b.toNat := by
  have hb := b.isLt
  have l0 := digits_length 32 b.toNat
  have s1 := swarStep_pack 1 16 0x55555555#32 b _ (by omega) (by omega)
    (by decide +kernel) l0 (digits_le _ _) (pack_digits 32 _ hb).symm
  have b1 := pairs_le 1 16 _ l0 (digits_le _ _)
  have l1 := pairs_length 16 _ l0
  have s2 := swarStep_pack 2 8 0x33333333#32 _ _ (by omega) (by omega)
    (by decide +kernel) l1 b1 s1
  have b2 := pairs_le 2 8 _ l1 b1
  have l2 := pairs_length 8 _ l1
  have s3 := swarStep_pack 4 4 0x0f0f0f0f#32 _ _ (by omega) (by omega)
    (by decide +kernel) l2 b2 s2
  have b3 := pairs_le 4 4 _ l2 b2
  have l3 := pairs_length 4 _ l2
  have s4 := swarStep_pack 8 2 0x00ff00ff#32 _ _ (by omega) (by omega)
    (by decide +kernel) l3 b3 s3
  have b4 := pairs_le 8 2 _ l3 b3
  have l4 := pairs_length 2 _ l3
  have s5 := swarStep_pack 16 1 0x0000ffff#32 _ _ (by omega) (by omega)
    (by decide +kernel) l4 b4 s4
  have l5 := pairs_length 1 _ l4
  show (swarStep _ 16 _).toNat = _
  rw [s5]
  have hs : (pairs (pairs (pairs (pairs (pairs (digits 32 b.toNat)))))).sum =
      ones b.toNat := by
    rw [pairs_sum 1 _ l4, pairs_sum 2 _ l3, pairs_sum 4 _ l2, pairs_sum 8 _ l1,
      pairs_sum 16 _ l0, sum_digits 32 _ hb]
  rw [← hs]
  exact pack_single _ _ l5

/-- `ones` counts the positions whose bit is set. -/
theorem ones_eq_countP : ∀ (k n : Nat), n < 2 ^ k →
    ones n = (List.range k).countP (fun i => n.testBit i)
  | 0, n, h => by simp at h; simp [h, ones_zero]
  | k + 1, n, h => by
    have ih := ones_eq_countP k (n / 2) (by rw [Nat.pow_succ] at h; omega)
    rw [ones_step, ih, List.range_succ_eq_map, List.countP_cons, List.countP_map]
    have : (fun i => n.testBit i) ∘ Nat.succ = fun i => (n / 2).testBit i := by
      funext i; simp [Nat.testBit_succ]
    rw [this, Nat.testBit_zero]
    rcases Nat.mod_two_eq_zero_or_one n with h | h <;> simp [h] <;> omega

end Verif.BitManip
