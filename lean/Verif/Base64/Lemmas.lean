import Verif.Base64.Model

namespace Verif.Base64

/-! Single-byte facts, each over the whole table of 256 values. -/

theorem and_fc : ∀ a : Fin 256, (a.val &&& 0xfc) >>> 2 = a.val / 4 := by decide +kernel
theorem and_03 : ∀ a : Fin 256, (a.val &&& 0x03) <<< 4 = a.val % 4 * 16 := by decide +kernel
theorem and_f0 : ∀ a : Fin 256, (a.val &&& 0xf0) >>> 4 = a.val / 16 := by decide +kernel
theorem and_0f : ∀ a : Fin 256, (a.val &&& 0x0f) <<< 2 = a.val % 16 * 4 := by decide +kernel
theorem and_c0 : ∀ a : Fin 256, (a.val &&& 0xc0) >>> 6 = a.val / 64 := by decide +kernel
theorem and_3f : ∀ a : Fin 256, (a.val &&& 0x3f) = a.val % 64 := by decide +kernel
theorem and_30 : ∀ a : Fin 256, (a.val &&& 0x30) >>> 4 = a.val / 16 % 4 := by decide +kernel
theorem and_f : ∀ a : Fin 256, (a.val &&& 0xf) <<< 4 = a.val % 16 * 16 := by decide +kernel
theorem and_3c : ∀ a : Fin 256, (a.val &&& 0x3c) >>> 2 = a.val / 4 % 16 := by decide +kernel
theorem and_3 : ∀ a : Fin 256, (a.val &&& 0x3) <<< 6 = a.val % 4 * 64 := by decide +kernel
theorem shl2 : ∀ a : Fin 256, a.val <<< 2 = a.val * 4 := by decide +kernel

theorem split3_eq (a b c : UInt8) :
    split3 a b c =
      [ UInt8.ofNat (a.toNat / 4), UInt8.ofNat (a.toNat % 4 * 16 + b.toNat / 16),
        UInt8.ofNat (b.toNat % 16 * 4 + c.toNat / 64), UInt8.ofNat (c.toNat % 64) ] := by
  have ha := a.toNat_lt
  have hb := b.toNat_lt
  have hc := c.toNat_lt
  have h1 := and_fc ⟨a.toNat, ha⟩
  have h2 := and_03 ⟨a.toNat, ha⟩
  have h3 := and_f0 ⟨b.toNat, hb⟩
  have h4 := and_0f ⟨b.toNat, hb⟩
  have h5 := and_c0 ⟨c.toNat, hc⟩
  have h6 := and_3f ⟨c.toNat, hc⟩
  simp only at h1 h2 h3 h4 h5 h6
  simp only [split3, h1, h2, h3, h4, h5, h6]

theorem join4_eq (a b c d : UInt8) :
    join4 a b c d =
      [ UInt8.ofNat (a.toNat * 4 + b.toNat / 16 % 4),
        UInt8.ofNat (b.toNat % 16 * 16 + c.toNat / 4 % 16),
        UInt8.ofNat (c.toNat % 4 * 64 + d.toNat) ] := by
  have h1 := shl2 ⟨a.toNat, a.toNat_lt⟩
  have h2 := and_30 ⟨b.toNat, b.toNat_lt⟩
  have h3 := and_f ⟨b.toNat, b.toNat_lt⟩
  have h4 := and_3c ⟨c.toNat, c.toNat_lt⟩
  have h5 := and_3 ⟨c.toNat, c.toNat_lt⟩
  simp only at h1 h2 h3 h4 h5
  simp only [join4, h1, h2, h3, h4, h5]

theorem alphabet_facts : ∀ k : Fin 64, ∃ c, alphabet[k.val]? = some c ∧ c ≠ '=' ∧
    isBase64 c = true ∧ find c = UInt8.ofNat k.val ∧ alphabet.idxOf c = k.val := by
  have : ∀ k : Fin 64, (alphabet[k.val]?).any
      (fun c => c != '=' && isBase64 c && find c == UInt8.ofNat k.val &&
        alphabet.idxOf c == k.val) = true := by
    decide +kernel
  intro k
  have h := this k
  rcases hk : alphabet[k.val]? with _ | c
  · simp [hk] at h
  · simp [hk] at h
    exact ⟨c, rfl, h.1.1.1, h.1.1.2, h.1.2, h.2⟩

/-- The letter for a 6-bit group. -/
theorem letter (n : Nat) (hn : n < 64) : ∃ c, alphabet[n]? = some c ∧ c ≠ '=' ∧
    isBase64 c = true ∧ find c = UInt8.ofNat n ∧ alphabet.idxOf c = n := alphabet_facts ⟨n, hn⟩

theorem toNat_ofNat_small (n : Nat) (hn : n < 256) : (UInt8.ofNat n).toNat = n := by
  simp [UInt8.toNat_ofNat', Nat.mod_eq_of_lt hn]

theorem u8_ext {n : Nat} {a : UInt8} (h : n % 256 = a.toNat) : UInt8.ofNat n = a := by
  apply UInt8.toNat.inj
  simpa [UInt8.toNat_ofNat'] using h

/-- One full block: emits four alphabet letters, whose values are known. -/
theorem block (a b c : UInt8) : ∃ w x y z : Char,
    emit (split3 a b c) = some [w, x, y, z] ∧
    (∀ k ≤ 4, emit ((split3 a b c).take k) = some ([w, x, y, z].take k)) ∧
    (∀ ch ∈ [w, x, y, z], ch ≠ '=' ∧ isBase64 ch = true ∧ ch ∈ alphabet) ∧
    find w = UInt8.ofNat (a.toNat / 4) ∧
    find x = UInt8.ofNat (a.toNat % 4 * 16 + b.toNat / 16) ∧
    find y = UInt8.ofNat (b.toNat % 16 * 4 + c.toNat / 64) ∧
    find z = UInt8.ofNat (c.toNat % 64) ∧
    [w, x, y, z].map alphabet.idxOf = [a.toNat / 4, a.toNat % 4 * 16 + b.toNat / 16,
      b.toNat % 16 * 4 + c.toNat / 64, c.toNat % 64] := by
  have ha := a.toNat_lt
  have hb := b.toNat_lt
  have hc := c.toNat_lt
  obtain ⟨w, hw1, hw2, hw3, hw4, hw5⟩ := letter (a.toNat / 4) (by omega)
  obtain ⟨x, hx1, hx2, hx3, hx4, hx5⟩ := letter (a.toNat % 4 * 16 + b.toNat / 16) (by omega)
  obtain ⟨y, hy1, hy2, hy3, hy4, hy5⟩ := letter (b.toNat % 16 * 4 + c.toNat / 64) (by omega)
  obtain ⟨z, hz1, hz2, hz3, hz4, hz5⟩ := letter (c.toNat % 64) (by omega)
  have e1 : (UInt8.ofNat (a.toNat / 4)).toNat = a.toNat / 4 :=
    toNat_ofNat_small _ (by omega)
  have e2 : (UInt8.ofNat (a.toNat % 4 * 16 + b.toNat / 16)).toNat =
    a.toNat % 4 * 16 + b.toNat / 16 := toNat_ofNat_small _ (by omega)
  have e3 : (UInt8.ofNat (b.toNat % 16 * 4 + c.toNat / 64)).toNat =
    b.toNat % 16 * 4 + c.toNat / 64 := toNat_ofNat_small _ (by omega)
  have e4 : (UInt8.ofNat (c.toNat % 64)).toNat = c.toNat % 64 :=
    toNat_ofNat_small _ (by omega)
  refine ⟨w, x, y, z, ?_, ?_, ?_, hw4, hx4, hy4, hz4, by simp [hw5, hx5, hy5, hz5]⟩
  · simp only [split3_eq, emit, e1, e2, e3, e4, hw1, hx1, hy1, hz1]
  · intro k hk
    match k, hk with
    | 0, _ => rfl
    | 1, _ => simp only [split3_eq, emit, e1, hw1, List.take_succ_cons, List.take_zero]
    | 2, _ => simp only [split3_eq, emit, e1, e2, hw1, hx1, List.take_succ_cons, List.take_zero]
    | 3, _ =>
      simp only [split3_eq, emit, e1, e2, e3, hw1, hx1, hy1, List.take_succ_cons, List.take_zero]
    | 4, _ =>
      simp only [split3_eq, emit, e1, e2, e3, e4, hw1, hx1, hy1, hz1, List.take_succ_cons,
        List.take_zero]
  · intro ch hch
    simp at hch
    rcases hch with rfl | rfl | rfl | rfl
    · exact ⟨hw2, hw3, List.mem_of_getElem? hw1⟩
    · exact ⟨hx2, hx3, List.mem_of_getElem? hx1⟩
    · exact ⟨hy2, hy3, List.mem_of_getElem? hy1⟩
    · exact ⟨hz2, hz3, List.mem_of_getElem? hz1⟩

theorem decodeTail_start (tl : List Char) (htl : tl = [] ∨ ∃ t, tl = '=' :: t)
    (pend : List Char) (d : List UInt8) : decodeLoop tl pend d = decodeTail pend d := by
  rcases htl with rfl | ⟨t, rfl⟩
  · rfl
  · simp [decodeLoop]

/-- What one run of the encoder does, with everything the properties need. -/
theorem enc_main : ∀ (s : List UInt8) (buf : List Char), ∃ (body : List Char),
    encodeLoop s [] buf = some (buf ++ body ++ List.replicate ((3 - s.length % 3) % 3) '=') ∧
    body.length + (3 - s.length % 3) % 3 = 4 * ((s.length + 2) / 3) ∧
    (∀ ch ∈ body, ch ∈ alphabet) ∧
    (∀ acc : Nat, (body.map alphabet.idxOf).foldl (fun n d => n * 64 + d)
        acc =
      (s.map UInt8.toNat).foldl (fun n d => n * 256 + d) acc * 4 ^ ((3 - s.length % 3) % 3)) ∧
    (∀ (tl : List Char) (d : List UInt8), (tl = [] ∨ ∃ t, tl = '=' :: t) →
      decodeLoop (body ++ tl) [] d = d ++ s)
  | [], buf => by
    refine ⟨[], by simp [encodeLoop, encodeTail], by simp, by simp, by simp, ?_⟩
    intro tl d htl
    simp [decodeTail_start tl htl, decodeTail]
  | [a], buf => by
    obtain ⟨w, x, y, z, h1, h2, h3, f1, f2, f3, f4, hv⟩ := block a 0 0
    have hw := h3 w (by simp)
    have hx := h3 x (by simp)
    simp only [List.map_cons, List.map_nil, List.cons.injEq] at hv
    refine ⟨[w, x], ?_, by simp, ?_, ?_, ?_⟩
    · have := h2 2 (by omega)
      simp only [encodeLoop, List.nil_append, encodeTail]
      simp [this]
    · simp [hw.2.2, hx.2.2]
    · intro acc
      simp [hv.1, hv.2.1]
      have := a.toNat_lt
      omega
    · intro tl d htl
      have ha := a.toNat_lt
      simp only [decodeLoop, List.cons_append, List.nil_append, hw.1, hw.2.1, hx.1, hx.2.1,
        bne_iff_ne, ne_eq, not_false_eq_true, Bool.and_self, if_true, Bool.and_true, decide_true,
        decodeTail_start tl htl]
      simp only [decodeTail, List.length_cons, List.length_nil, List.map_append, List.map_cons,
        List.map_nil, List.replicate, List.cons_append, List.nil_append, f1, f2, join4_eq]
      rw [toNat_ofNat_small _ (by omega), toNat_ofNat_small]
      · simp only [List.take_succ_cons, List.take_zero]
        rw [u8_ext]
        have : (0 : UInt8).toNat = 0 := rfl
        omega
      · have : (0 : UInt8).toNat = 0 := rfl
        omega
  | [a, b], buf => by
    obtain ⟨w, x, y, z, h1, h2, h3, f1, f2, f3, f4, hv⟩ := block a b 0
    have hw := h3 w (by simp)
    have hx := h3 x (by simp)
    have hy := h3 y (by simp)
    simp only [List.map_cons, List.map_nil, List.cons.injEq] at hv
    refine ⟨[w, x, y], ?_, by simp, ?_, ?_, ?_⟩
    · have := h2 3 (by omega)
      simp only [encodeLoop, List.nil_append, encodeTail]
      simp [this]
    · simp [hw.2.2, hx.2.2, hy.2.2]
    · intro acc
      simp [hv.1, hv.2.1, hv.2.2.1]
      have := a.toNat_lt
      have := b.toNat_lt
      omega
    · intro tl d htl
      have ha := a.toNat_lt
      have hb := b.toNat_lt
      have hz : (0 : UInt8).toNat = 0 := rfl
      simp only [decodeLoop, List.cons_append, List.nil_append, hw.1, hw.2.1, hx.1, hx.2.1,
        hy.1, hy.2.1,
        bne_iff_ne, ne_eq, not_false_eq_true, Bool.and_self, if_true, Bool.and_true, decide_true,
        decodeTail_start tl htl]
      simp only [decodeTail, List.length_cons, List.length_nil, List.map_append, List.map_cons,
        List.map_nil, List.replicate, List.cons_append, List.nil_append, f1, f2, f3, join4_eq]
      rw [toNat_ofNat_small _ (by omega), toNat_ofNat_small _ (by omega),
        toNat_ofNat_small _ (by omega)]
      simp only [List.take_succ_cons, List.take_zero]
      rw [u8_ext (a := a) (by omega), u8_ext (a := b) (by omega)]
  | a :: b :: c :: rest, buf => by
    obtain ⟨w, x, y, z, h1, h2, h3, f1, f2, f3, f4, hv⟩ := block a b c
    have hw := h3 w (by simp)
    have hx := h3 x (by simp)
    have hy := h3 y (by simp)
    have hz := h3 z (by simp)
    obtain ⟨body, e1, e2, e3, e4, e5⟩ := enc_main rest (buf ++ [w, x, y, z])
    have hlen : (a :: b :: c :: rest).length % 3 = rest.length % 3 := by
      simp only [List.length_cons]; omega
    refine ⟨[w, x, y, z] ++ body, ?_, ?_, ?_, ?_, ?_⟩
    · rw [hlen]
      simp only [encodeLoop, List.nil_append, List.cons_append, h1]
      rw [e1]
      simp
    · rw [hlen]
      simp only [List.length_append, List.length_cons, List.length_nil]
      omega
    · intro ch hch
      rcases List.mem_append.1 hch with h | h
      · exact (h3 ch h).2.2
      · exact e3 ch h
    · intro acc
      rw [hlen, List.map_append, hv]
      have := e4 (((acc * 256 + a.toNat) * 256 + b.toNat) * 256 + c.toNat)
      simp only [List.cons_append, List.nil_append, List.foldl_cons, List.map_cons]
      rw [← this]
      congr 1
      have := a.toNat_lt
      have := b.toNat_lt
      have := c.toNat_lt
      omega
    · intro tl d htl
      have ha := a.toNat_lt
      have hb := b.toNat_lt
      have hc := c.toNat_lt
      simp only [decodeLoop, List.cons_append, List.nil_append, hw.1, hw.2.1, hx.1, hx.2.1,
        hy.1, hy.2.1, hz.1, hz.2.1,
        bne_iff_ne, ne_eq, not_false_eq_true, Bool.and_self, if_true, Bool.and_true, decide_true,
        f1, f2, f3, f4, join4_eq]
      rw [toNat_ofNat_small _ (by omega), toNat_ofNat_small _ (by omega),
        toNat_ofNat_small _ (by omega), toNat_ofNat_small _ (by omega)]
      rw [u8_ext (a := a) (by omega), u8_ext (a := b) (by omega), u8_ext (a := c) (by omega)]
      rw [e5 tl _ htl]
      simp

end Verif.Base64
