import Verif.IoNg.Model
import Mathlib.Tactic.Ring
import Mathlib.Tactic.NormNum

/-!
# C53: the bytes that store a vector of `bool`
-/

namespace Verif.IoNg

open Verif.Loop

/-! ## The size -/

theorem encodeSize_length (n t : Nat) : (encodeSize n t).length = n := by
  induction n generalizing t with
  | zero => rfl
  | succ n ih =>
    simp only [encodeSize, List.length_cons]
    split
    · simp
    · simp [ih]

theorem decodeSize_zero (n level : Nat) (rest : List (BitVec 8)) :
    decodeSize (List.replicate n 0 ++ rest) level n = 0 := by
  induction n generalizing level with
  | zero => simp [decodeSize]
  | succ n ih =>
    rw [List.replicate_succ, List.cons_append, decodeSize, List.tail_cons, ih]
    simp

theorem decode_encode (n t level : Nat) (rest : List (BitVec 8)) :
    decodeSize (encodeSize n t ++ rest) level n = (t % 256 ^ n) * level := by
  induction n generalizing t level with
  | zero => simp [decodeSize, Nat.mod_one]
  | succ n ih =>
    simp only [encodeSize, List.cons_append, decodeSize, List.headD_cons, List.tail_cons]
    have h1 : (BitVec.ofNat 8 (t % 256)).toNat = t % 256 := by
      simp [BitVec.toNat_ofNat]
    have h2 : t % 256 ^ (n + 1) = t % 256 + 256 * (t / 256 % 256 ^ n) := by
      rw [pow_succ' (a := 256), Nat.mod_mul]
    rw [h1, h2]
    split
    · rename_i h
      rw [decodeSize_zero, h]; simp
    · rw [ih]; ring

/-! ## The bits -/

theorem mask_bit (x : BitVec 8) (r : Nat) : (decide (x &&& (1#8 <<< r) ≠ 0)) = x.getLsbD r := by
  have : (1#8 <<< r) = BitVec.twoPow 8 r := by simp [BitVec.twoPow]
  rw [this, BitVec.and_twoPow]
  by_cases h : x.getLsbD r = true
  · have hr : r < 8 := BitVec.lt_of_getLsbD h
    rw [if_pos h, h]
    simp only [ne_eq, decide_eq_true_eq]
    intro e
    have := congrArg (fun v => v.getLsbD r) e
    simp [BitVec.getLsbD_twoPow, hr] at this
  · rw [if_neg h]
    simp [h]

theorem or_mask_bit (x : BitVec 8) (r s : Nat) (hs : s < 8) :
    (x ||| (1#8 <<< r)).getLsbD s = (x.getLsbD s || decide (r = s)) := by
  have : (1#8 <<< r) = BitVec.twoPow 8 r := by simp [BitVec.twoPow]
  rw [this, BitVec.getLsbD_or, BitVec.getLsbD_twoPow]
  by_cases h : r = s
  · subst h; simp [hs]
  · simp [h]

/-- Mask and index after `i` rounds. -/
structure At (s : Pack) (i : Nat) : Prop where
  mask : s.mask = 1#8 <<< (i % 8)
  j : s.j = 4 + i / 8
  count : s.count = 0

theorem at_next (s : Pack) (i : Nat) (h : At s i) : At (s.next i) (i + 1) ∧ (s.next i).bytes = s.bytes ∧
    (s.next i).dest = s.dest := by
  unfold Pack.next
  by_cases h8 : (i + 1) % 8 = 0
  · have hi : i > 0 := by omega
    simp only [hi, h8, and_self, if_true, h.count, Nat.zero_add]
    refine ⟨⟨?_, ?_, rfl⟩, trivial⟩
    · rw [h8]; rfl
    · show s.j + 1 = _
      rw [h.j]; omega
  · simp only [h8, and_false, if_false, h.count]
    rw [if_neg (by decide)]
    refine ⟨⟨?_, ?_, rfl⟩, rfl, rfl⟩
    · show s.mask <<< 1 = _
      rw [h.mask, ← BitVec.shiftLeft_add]
      congr 1
      omega
    · show s.j = _
      rw [h.j]; omega

/-- Bit `k` of the bytes after the first four. -/
def bitAt (c : List (BitVec 8)) (k : Nat) : Bool := (c.getD (4 + k / 8) 0).getLsbD (k % 8)

theorem pack_spec (src : List Bool) (c : List (BitVec 8)) (hc : 4 + src.length / 8 < c.length)
    (h0 : ∀ k, bitAt c k = false) (n : Nat) (hn : n ≤ src.length) :
    ∃ s, loopN n (packStep src) ⟨c, 1, 4, 0, []⟩ = some s ∧ At s n ∧ s.bytes.length = c.length ∧
      (∀ q < 4, s.bytes[q]? = c[q]?) ∧ ∀ k, bitAt s.bytes k = (decide (k < n) && src.getD k false) := by
  refine (loopN_inv (fun i s => At s i ∧ s.bytes.length = c.length ∧
      (∀ q < 4, s.bytes[q]? = c[q]?) ∧ ∀ k, bitAt s.bytes k = (decide (k < i) && src.getD k false)) n _ _ ?_ ?_)
  · exact ⟨⟨rfl, rfl, rfl⟩, rfl, fun _ _ => rfl, fun k => by simp [h0]⟩
  · rintro i s hi ⟨h1, h2, h3, h4⟩
    have hlt : i < src.length := by omega
    have hg : src[i]? = some src[i] := List.getElem?_eq_getElem hlt
    have hj : s.j < s.bytes.length := by
      rw [h1.j, h2]
      have : i / 8 ≤ src.length / 8 := Nat.div_le_div_right (by omega)
      omega
    have hgd : src.getD i false = src[i] := by simp [List.getD, hg]
    unfold packStep
    simp only [hg, bind, Option.bind_some]
    cases hb : src[i] with
    | false =>
      simp only [Bool.false_eq_true, if_false, Option.bind_some, pure]
      refine ⟨_, rfl, ?_⟩
      obtain ⟨g1, g2, _⟩ := at_next s i h1
      refine ⟨g1, by rw [g2]; exact h2, by rw [g2]; exact h3, ?_⟩
      intro k
      rw [g2, h4 k]
      by_cases hk : k = i
      · subst hk; rw [hgd, hb]; simp
      · have : (k < i + 1) ↔ k < i := by omega
        simp [this]
    | true =>
      obtain ⟨u, hu⟩ : ∃ u, updAt s.bytes s.j (· ||| s.mask) = some u := ⟨_, updAt_some _ hj⟩
      have hu' : u = s.bytes.modify s.j (· ||| s.mask) := by
        have := updAt_some (l := s.bytes) (· ||| s.mask) hj
        rw [this] at hu
        cases hu
        apply List.ext_getElem?
        intro q
        rw [List.getElem?_set, List.getElem?_modify]
        by_cases hq : s.j = q
        · subst hq
          simp [hj]
        · simp [hq]
      simp only [if_true, hu, Option.bind_some, pure]
      refine ⟨_, rfl, ?_⟩
      have h1' : At { s with bytes := u } i := ⟨h1.mask, h1.j, h1.count⟩
      obtain ⟨g1, g2, _⟩ := at_next { s with bytes := u } i h1'
      have hul : u.length = s.bytes.length := by rw [hu']; simp
      refine ⟨g1, by rw [g2]; show u.length = _; rw [hul, h2], ?_, ?_⟩
      · intro q hq
        rw [g2]
        show u[q]? = _
        rw [hu', List.getElem?_modify, ← h3 q hq]
        have : s.j ≠ q := by rw [h1.j]; omega
        simp [this]
      · intro k
        rw [g2]
        show bitAt u k = _
        have hk8 : k % 8 < 8 := Nat.mod_lt _ (by decide)
        have hget : u.getD (4 + k / 8) 0 = if s.j = 4 + k / 8 then s.bytes.getD (4 + k / 8) 0 ||| s.mask
            else s.bytes.getD (4 + k / 8) 0 := by
          simp only [List.getD, hu', List.getElem?_modify]
          by_cases he : s.j = 4 + k / 8
          · rw [if_pos he]
            have : s.bytes[4 + k / 8]? = some (s.bytes[4 + k / 8]'(he ▸ hj)) := List.getElem?_eq_getElem _
            simp [he, this]
          · rw [if_neg he]
            cases s.bytes[4 + k / 8]? <;> simp [he]
        have hold := h4 k
        unfold bitAt at hold ⊢
        rw [hget]
        by_cases he : s.j = 4 + k / 8
        · rw [if_pos he, h1.mask, or_mask_bit _ _ _ hk8, hold]
          rw [h1.j] at he
          by_cases hki : k = i
          · subst hki; rw [hgd, hb]; simp
          · have h5 : i % 8 ≠ k % 8 := by
              intro e
              have a := Nat.div_add_mod i 8
              have b := Nat.div_add_mod k 8
              omega
            have : (k < i + 1) ↔ k < i := by omega
            simp [h5, this]
        · rw [if_neg he, hold]
          rw [h1.j] at he
          have hki : k ≠ i := by rintro rfl; exact he rfl
          have : (k < i + 1) ↔ k < i := by omega
          simp [this]

theorem unpack_spec (x : List (BitVec 8)) (n : Nat) (hx : n = 0 ∨ 4 + (n - 1) / 8 < x.length) :
    ∃ s, loopN n unpackStep ⟨x, 1, 4, 0, []⟩ = some s ∧ s.dest = (List.range n).map (bitAt x) := by
  obtain ⟨s, h1, _, _, h2⟩ := (loopN_inv (fun i s => At s i ∧ s.bytes = x ∧ s.dest = (List.range i).map (bitAt x)) n
    unpackStep ⟨x, 1, 4, 0, []⟩ ⟨⟨rfl, rfl, rfl⟩, rfl, rfl⟩ (by
      rintro i s hi ⟨h1, h2, h3⟩
      have hj : s.j < s.bytes.length := by
        rw [h1.j, h2]
        have : i / 8 ≤ (n - 1) / 8 := Nat.div_le_div_right (by omega)
        omega
      have hg : s.bytes[s.j]? = some s.bytes[s.j] := List.getElem?_eq_getElem hj
      unfold unpackStep
      simp only [hg, bind, Option.bind_some, pure]
      refine ⟨_, rfl, ?_⟩
      generalize hd : s.dest ++ [decide (s.bytes[s.j] &&& s.mask ≠ 0)] = dest
      obtain ⟨g1, g2, g3⟩ := at_next { s with dest := dest } i ⟨h1.mask, h1.j, h1.count⟩
      refine ⟨g1, by rw [g2]; exact h2, ?_⟩
      rw [g3]
      show dest = _
      rw [← hd, h3, List.range_succ, List.map_append, List.map_singleton, h1.mask, mask_bit]
      congr 2
      unfold bitAt
      simp only [h1.j] at hg ⊢
      subst h2
      rw [List.getD, hg]
      rfl))
  exact ⟨s, h1, h2⟩

theorem bitAt_zero (e : List (BitVec 8)) (he : e.length = 4) (m k : Nat) :
    bitAt (e ++ List.replicate m 0) k = false := by
  unfold bitAt
  rw [List.getD, List.getElem?_append_right (by omega), List.getElem?_replicate]
  split <;> simp

/-! ## Properties -/

/-- What is stored and read back: for any number of bits, the first `2^32` are counted modulo `2^32`. -/
theorem bools_roundtrip_mod (v : List Bool) :
    (convertFromBoolean v).bind convertToBoolean = some (v.take (v.length % 2 ^ 32)) := by
  unfold convertFromBoolean
  by_cases h0 : v.length = 0
  · rw [if_pos h0]
    have : v = [] := List.length_eq_zero_iff.1 h0
    subst this
    decide +kernel
  · rw [if_neg h0]
    have he := encodeSize_length 4 v.length
    obtain ⟨s, h1, h2, h3, h4, h5⟩ := pack_spec v (encodeSize 4 v.length ++ List.replicate (v.length / 8 + 5 - 4) 0)
      (by simp only [List.length_append, he, List.length_replicate]; omega)
      (bitAt_zero _ he _) v.length (le_refl _)
    simp only []
    rw [h1, Option.map_some, Option.bind_some]
    have hlen : s.bytes.length = v.length / 8 + 5 := by
      rw [h3]; simp only [List.length_append, he, List.length_replicate]; omega
    unfold convertToBoolean
    rw [if_neg (by omega)]
    have hbytes : s.bytes = encodeSize 4 v.length ++ s.bytes.drop 4 := by
      rw [← List.take_append_drop 4 s.bytes]
      congr 1
      · apply List.ext_getElem?
        intro q
        by_cases hq : q < 4
        · rw [List.getElem?_take_of_lt hq, h4 q hq, List.getElem?_append_left (by omega)]
        · rw [List.getElem?_eq_none (by simp; omega), List.getElem?_eq_none (by omega)]
      · simp
    have hsize : decodeSize s.bytes 1 4 = v.length % 2 ^ 32 := by
      rw [hbytes, decode_encode]
      norm_num
    rw [hsize]
    obtain ⟨s', h6, h7⟩ := unpack_spec s.bytes (v.length % 2 ^ 32) (by
      right
      rw [hlen]
      have h8 : v.length % 2 ^ 32 ≤ v.length := Nat.mod_le _ _
      have : (v.length % 2 ^ 32 - 1) / 8 ≤ v.length / 8 := Nat.div_le_div_right (by omega)
      omega)
    rw [h6, Option.map_some, h7]
    congr 1
    apply List.ext_getElem?
    intro k
    have hle : v.length % 2 ^ 32 ≤ v.length := Nat.mod_le _ _
    generalize v.length % 2 ^ 32 = m at hle
    by_cases hk : k < m
    · rw [List.getElem?_map, List.getElem?_range hk, List.getElem?_take_of_lt hk, Option.map_some, h5 k]
      have hkv : k < v.length := by omega
      rw [List.getElem?_eq_getElem hkv]
      simp [List.getD, hkv]
    · rw [List.getElem?_eq_none (by simp; omega), List.getElem?_eq_none (by simp; omega)]

/-- **C53** Any vector of fewer than `2^32` `bool`s is read back as it was stored, and no access is out of bounds. -/
theorem bools_roundtrip (v : List Bool) (h : v.length < 2 ^ 32) :
    ∃ c, convertFromBoolean v = some c ∧ convertToBoolean c = some v := by
  have h1 := bools_roundtrip_mod v
  rw [Nat.mod_eq_of_lt h, List.take_length] at h1
  exact Option.bind_eq_some_iff.1 h1

/-- **C53** Different vectors have different bytes. -/
theorem bools_injective (v w : List Bool) (hv : v.length < 2 ^ 32) (hw : w.length < 2 ^ 32)
    (h : convertFromBoolean v = convertFromBoolean w) : v = w := by
  obtain ⟨c, h1, h2⟩ := bools_roundtrip v hv
  obtain ⟨d, h3, h4⟩ := bools_roundtrip w hw
  rw [h1, h3] at h
  cases h
  rw [h2] at h4
  exact Option.some.inj h4

/-- A longer vector is not read back: only the length modulo `2^32` is stored. -/
theorem bools_long_fails (v : List Bool) (h : v.length = 2 ^ 32) :
    (convertFromBoolean v).bind convertToBoolean = some [] := by
  rw [bools_roundtrip_mod, h]; simp

example : convertFromBoolean [true, false, true, true, false, false, false, false, true, true] =
    some [10, 0, 0, 0, 13, 3] := by decide +kernel
example : convertToBoolean [10, 0, 0, 0, 13, 3] =
    some [true, false, true, true, false, false, false, false, true, true] := by decide +kernel

end Verif.IoNg
