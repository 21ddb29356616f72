import Verif.SparseVec.ModelChunk
import Verif.SparseVec.Props

/-!
# C102: chunks and partitions of sparse vectors
-/

namespace Verif.SparseVec

open Verif.Loop

variable {α : Type}

theorem firstLast_mem (s : SVec α) {a b : Nat} (h : findFirstLast s = some (a, b)) :
    a ∈ s.indices ∧ b ∈ s.indices ∧ ∀ k ∈ s.indices, a ≤ k ∧ k ≤ b := by
  unfold findFirstLast at h
  cases h1 : s.indices.min? with
  | none => simp [h1] at h
  | some x =>
    cases h2 : s.indices.max? with
    | none => simp [h1, h2] at h
    | some y =>
      rw [h1, h2] at h
      cases h
      obtain ⟨m1, m2⟩ := List.min?_eq_some_iff.1 h1
      obtain ⟨n1, n2⟩ := List.max?_eq_some_iff.1 h2
      exact ⟨m1, n1, fun k hk => ⟨m2 k hk, n2 k hk⟩⟩

theorem firstLast_some (s : SVec α) (h : s.indices ≠ []) : ∃ a b, findFirstLast s = some (a, b) := by
  unfold findFirstLast
  obtain ⟨a, ha⟩ := Option.ne_none_iff_exists'.1 (fun e => h (List.min?_eq_none_iff.1 e) : s.indices.min? ≠ none)
  obtain ⟨b, hb⟩ := Option.ne_none_iff_exists'.1 (fun e => h (List.max?_eq_none_iff.1 e) : s.indices.max? ≠ none)
  exact ⟨a, b, by rw [ha, hb]⟩

/-- A chunk is made only of elements that are in it. -/
theorem toChunk_range [Zero α] (s : SVec α) (dest d : List α) (i0 total : Nat) (h : toChunk s dest i0 total = some d) :
    ∀ k ∈ s.indices, i0 ≤ k ∧ k < i0 + total := by
  unfold toChunk at h
  have key : ∀ n d, loopN n (fun i (d : List α) => do
      let k ← s.indices[i]?
      let x ← s.values[i]?
      if k < i0 then none else setAt d (k - i0) x) (resizeL dest total 0) = some d →
      d.length = total ∧ ∀ t k, t < n → s.indices[t]? = some k → i0 ≤ k ∧ k < i0 + total := by
    intro n
    induction n with
    | zero =>
      intro d hd
      cases hd
      exact ⟨resizeL_length _ _ _, fun t k ht => by omega⟩
    | succ n ih =>
      intro d hd
      rw [loopN] at hd
      obtain ⟨d0, e1, e2⟩ := Option.bind_eq_some_iff.1 hd
      obtain ⟨l0, r0⟩ := ih d0 e1
      simp only [Option.bind_eq_bind, Option.bind_eq_some_iff] at e2
      obtain ⟨k, hk, x, hx, e3⟩ := e2
      split at e3
      · cases e3
      · unfold setAt at e3
        split at e3
        · cases e3
          refine ⟨by simpa using l0, ?_⟩
          intro t k' ht hk'
          by_cases htn : t = n
          · subst htn
            rw [hk] at hk'
            cases hk'
            omega
          · exact r0 t k' (by omega) hk'
        · cases e3
  obtain ⟨-, hr⟩ := key _ d h
  intro k hk
  obtain ⟨t, ht, rfl⟩ := List.getElem_of_mem hk
  exact hr t _ ht (List.getElem?_eq_getElem ht)

theorem toChunk_none [Zero α] (s : SVec α) (dest : List α) (i0 total k : Nat) (hk : k ∈ s.indices) (h : ¬ (i0 ≤ k ∧ k < i0 + total)) :
    toChunk s dest i0 total = none := by
  cases e : toChunk s dest i0 total with
  | none => rfl
  | some d => exact absurd (toChunk_range s dest d i0 total e k hk) h

theorem scan_eq (c : Nat → Bool) (P : List Nat) (i ret : Nat) :
    scan c P i ret = if (P.takeWhile c).length = 0 then ret else i + (P.takeWhile c).length - 1 := by
  induction P generalizing i ret with
  | nil => simp [scan]
  | cons p ps ih =>
    rw [scan]
    by_cases h : c p = true
    · rw [if_pos h, ih, List.takeWhile_cons_of_pos h]
      simp only [List.length_cons, Nat.add_eq_zero_iff, one_ne_zero, and_false, if_false]
      split <;> omega
    · rw [if_neg h, List.takeWhile_cons_of_neg h]
      simp

theorem takeWhile_prefix (c : Nat → Bool) (P : List Nat) : (∀ i p, i < (P.takeWhile c).length → P[i]? = some p → c p = true) ∧
    ∀ p, P[(P.takeWhile c).length]? = some p → c p = false := by
  induction P with
  | nil => simp
  | cons p ps ih =>
    by_cases h : c p = true
    · rw [List.takeWhile_cons_of_pos h]
      refine ⟨?_, ?_⟩
      · intro i q hi hq
        cases i with
        | zero => simp at hq; rw [← hq]; exact h
        | succ i => exact ih.1 i q (by simpa using hi) (by simpa using hq)
      · intro q hq
        exact ih.2 q (by simpa using hq)
    · rw [List.takeWhile_cons_of_neg h]
      refine ⟨by simp, ?_⟩
      intro q hq
      simp at hq
      rw [← hq]
      simpa using h

/-- The length of what is taken is `n` if the first `n` have the property and the next has not. -/
theorem takeWhile_length (c : Nat → Bool) (P : List Nat) (n : Nat) (hn : n ≤ P.length) (h1 : ∀ i p, i < n → P[i]? = some p → c p = true)
    (h2 : ∀ p, P[n]? = some p → c p = false) : (P.takeWhile c).length = n := by
  obtain ⟨a1, a2⟩ := takeWhile_prefix c P
  have hle : (P.takeWhile c).length ≤ P.length := (List.takeWhile_sublist c).length_le
  rcases Nat.lt_trichotomy (P.takeWhile c).length n with h | h | h
  · have hl : (P.takeWhile c).length < P.length := by omega
    have e := List.getElem?_eq_getElem hl
    exact absurd (h1 _ _ h e) (by rw [a2 _ e]; simp)
  · exact h
  · have hl : n < P.length := by omega
    have e := List.getElem?_eq_getElem hl
    exact absurd (a1 n _ h e) (by rw [h2 _ e]; simp)

/-! ## Partitions -/

/-- Boundaries of a partition of the indices: they begin with zero and increase. -/
def IsPartition (P : List Nat) : Prop := P[0]? = some 0 ∧ P.Pairwise (· < ·)

theorem IsPartition.mono {P : List Nat} (h : IsPartition P) {i j : Nat} {p q : Nat} (hij : i < j) (hi : P[i]? = some p) (hj : P[j]? = some q) :
    p < q := by
  obtain ⟨a, rfl⟩ := List.getElem?_eq_some_iff.1 hi
  obtain ⟨b, rfl⟩ := List.getElem?_eq_some_iff.1 hj
  exact List.pairwise_iff_getElem.1 h.2 i j a b hij

/-- **C102** Exactly when `findPartition` returns `k`: the first index is in part `k`, and the last one is after its beginning and
not after its end. -/
theorem findPartition_iff (s : SVec α) (P : List Nat) (hP : IsPartition P) {first last : Nat} (hs : findFirstLast s = some (first, last)) (k : Nat) :
    findPartition s P = .ok k ↔ ∃ p, P[k]? = some p ∧ p ≤ first ∧ p < last ∧ ∀ q, P[k + 1]? = some q → first < q ∧ last ≤ q := by
  have hfl : first ≤ last := ((firstLast_mem s hs).2.2 _ (firstLast_mem s hs).1).2
  unfold findPartition
  simp only [hs, scan_eq, Nat.zero_add]
  obtain ⟨a1, a2⟩ := takeWhile_prefix (fun p => decide (first ≥ p)) P
  obtain ⟨b1, b2⟩ := takeWhile_prefix (fun p => decide (last > p)) P
  have la : (P.takeWhile fun p => decide (first ≥ p)).length ≤ P.length := (List.takeWhile_sublist _).length_le
  have lb : (P.takeWhile fun p => decide (last > p)).length ≤ P.length := (List.takeWhile_sublist _).length_le
  generalize hna : (P.takeWhile fun p => decide (first ≥ p)).length = na at *
  generalize hnb : (P.takeWhile fun p => decide (last > p)).length = nb at *
  have ha : na ≠ 0 := by
    intro e
    subst e
    have := a2 0 hP.1
    simp at this
  rw [if_neg ha]
  constructor
  · intro h
    by_cases hne : na - 1 ≠ (if nb = 0 then 1 else nb - 1)
    · rw [if_pos hne] at h
      cases h
    · rw [if_neg hne] at h
      have hk : na - 1 = k := Except.ok.inj h
      rw [not_not] at hne
      have hb : nb ≠ 0 := by
        intro e
        rw [if_pos e] at hne
        have hna2 : na = 2 := by omega
        subst e
        have z := b2 0 hP.1
        have hl1 : 1 < P.length := by omega
        have e1 := List.getElem?_eq_getElem hl1
        have := a1 1 _ (by omega) e1
        have m := hP.mono (by omega : 0 < 1) hP.1 e1
        simp at z this
        omega
      rw [if_neg hb] at hne
      have hkl : k < P.length := by omega
      have ek := List.getElem?_eq_getElem hkl
      have x1 := a1 k _ (by omega) ek
      have x2 := b1 k _ (by omega) ek
      simp at x1 x2
      refine ⟨P[k], ek, x1, x2, ?_⟩
      intro q hq
      rw [show k + 1 = na by omega] at hq
      have y1 := a2 q hq
      have y2 := b2 q (by rw [show nb = na by omega]; exact hq)
      simp at y1 y2
      exact ⟨y1, y2⟩
  · rintro ⟨p, hp, h1, h2, h3⟩
    obtain ⟨hkl, rfl⟩ := List.getElem?_eq_some_iff.1 hp
    have na' : na = k + 1 := by
      rw [← hna]
      refine takeWhile_length _ P (k + 1) (by omega) ?_ ?_
      · intro i q hi hq
        by_cases e : i = k
        · subst e
          rw [hp] at hq
          cases hq
          simpa using h1
        · have := hP.mono (by omega : i < k) hq hp
          simp; omega
      · intro q hq
        have := (h3 q hq).1
        simp; omega
    have nb' : nb = k + 1 := by
      rw [← hnb]
      refine takeWhile_length _ P (k + 1) (by omega) ?_ ?_
      · intro i q hi hq
        by_cases e : i = k
        · subst e
          rw [hp] at hq
          cases hq
          simpa using h2
        · have := hP.mono (by omega : i < k) hq hp
          simp; omega
      · intro q hq
        have := (h3 q hq).2
        simp; omega
    rw [if_neg (by rw [nb', na', if_neg (by omega)]; simp), na']
    rfl

/-- **C102** A vector whose indices are in part `k`, not all at its beginning: the part is found and the chunk has all components. -/
theorem chunk_parts_partial [AddCommMonoid α] (s : SVec α) (P : List Nat) (hP : IsPartition P) (hl : s.indices.length = s.values.length)
    (hnd : s.indices.Nodup) (k p q : Nat) (hp : P[k]? = some p) (hq : P[k + 1]? = some q) (hin : ∀ i ∈ s.indices, p ≤ i ∧ i < q)
    (hne : ∃ i ∈ s.indices, p < i) :
    ∃ d, toChunkParts s P = .ok (k, d) ∧ d.length = q - p ∧ ∀ j, j < q - p → d[j]? = some (coeff s (p + j)) := by
  obtain ⟨i, hi, hpi⟩ := hne
  obtain ⟨a, b, hs⟩ := firstLast_some s (List.ne_nil_of_mem hi)
  obtain ⟨m1, m2, m3⟩ := firstLast_mem s hs
  have hf := (findPartition_iff s P hP hs k).2 ⟨p, hp, (hin a m1).1, lt_of_lt_of_le hpi (m3 i hi).2, by
    intro q' hq'
    rw [hq] at hq'
    cases hq'
    exact ⟨(hin a m1).2, le_of_lt (hin b m2).2⟩⟩
  have hpq := hP.mono (by omega : k < k + 1) hp hq
  obtain ⟨d, d1, d2, d3⟩ := toChunk_spec s hl hnd p (q - p) (fun i hi => ⟨(hin i hi).1, by have := (hin i hi).2; omega⟩)
  refine ⟨d, ?_, d2, d3⟩
  unfold toChunkParts
  rw [hf]
  simp only [bind, Except.bind, hp, hq, ofLoop, d1]
  rfl

/-- **C102** Whatever is returned is right: the indices are in the part, and the chunk has all components. -/
theorem chunk_sound [AddCommMonoid α] (s : SVec α) (P : List Nat) (hl : s.indices.length = s.values.length)
    (hnd : s.indices.Nodup) (k : Nat) (d : List α) (h : toChunkParts s P = .ok (k, d)) :
    ∃ p q, P[k]? = some p ∧ P[k + 1]? = some q ∧ (∀ i ∈ s.indices, p ≤ i ∧ i < p + (q - p)) ∧ d.length = q - p ∧
      ∀ j, j < q - p → d[j]? = some (coeff s (p + j)) := by
  unfold toChunkParts at h
  cases h1 : findPartition s P with
  | error e => rw [h1] at h; cases h
  | ok k' =>
    rw [h1] at h
    simp only [bind, Except.bind] at h
    cases h2 : P[k']? with
    | none => rw [h2] at h; cases h
    | some p =>
      cases h3 : P[k' + 1]? with
      | none => rw [h2, h3] at h; cases h
      | some q =>
        rw [h2, h3] at h
        simp only [ofLoop] at h
        cases h4 : toChunk s [] p (q - p) with
        | none => rw [h4] at h; cases h
        | some d' =>
          rw [h4] at h
          cases h
          have hr := toChunk_range s [] _ p (q - p) h4
          obtain ⟨d, d1, d2, d3⟩ := toChunk_spec s hl hnd p (q - p) hr
          rw [h4] at d1
          cases d1
          exact ⟨p, q, h2, h3, hr, d2, d3⟩

/-- **C102** A vector all of whose elements are at the beginning of a part: an exception, for every partition. -/
theorem chunk_begin_fails (s : SVec α) (P : List Nat) (hP : IsPartition P) (h0 : s.indices ≠ []) (k p : Nat) (hp : P[k]? = some p)
    (h : ∀ i ∈ s.indices, i = p) : findPartition s P = throwOut := by
  obtain ⟨a, b, hs⟩ := firstLast_some s h0
  obtain ⟨m1, m2, -⟩ := firstLast_mem s hs
  have ha := h a m1
  have hb := h b m2
  have : ∀ k', findPartition s P ≠ .ok k' := by
    intro k' e
    obtain ⟨p', hp', h1, h2, h3⟩ := (findPartition_iff s P hP hs k').1 e
    rcases Nat.lt_trichotomy k k' with hk | hk | hk
    · have := hP.mono hk hp hp'; omega
    · subst hk
      rw [hp] at hp'
      cases hp'
      omega
    · obtain ⟨hl, -⟩ := List.getElem?_eq_some_iff.1 hp
      have e1 := List.getElem?_eq_getElem (show k' + 1 < P.length by omega)
      have h4 := h3 _ e1
      rcases Nat.lt_or_ge (k' + 1) k with hk' | hk'
      · have := hP.mono hk' e1 hp; omega
      · have : k = k' + 1 := by omega
        subst this
        rw [hp] at e1
        have := Option.some.inj e1
        omega
  unfold findPartition at this ⊢
  simp only [hs] at this ⊢
  split
  · rfl
  · rename_i hne
    simp only [if_neg hne] at this
    exact absurd rfl (this _)

/-- **C102** A vector with its last element at the beginning of the next part is taken for one of this part, and the element is
written out of range. -/
theorem chunk_end_fails [Zero α] (s : SVec α) (P : List Nat) (hP : IsPartition P) (k p q : Nat) (hp : P[k]? = some p) (hq : P[k + 1]? = some q)
    (hin : ∀ i ∈ s.indices, p ≤ i ∧ i ≤ q) (h1 : ∃ i ∈ s.indices, i < q) (h2 : q ∈ s.indices) :
    findPartition s P = .ok k ∧ toChunkParts s P = ubOut := by
  obtain ⟨a, b, hs⟩ := firstLast_some s (List.ne_nil_of_mem h2)
  obtain ⟨m1, m2, m3⟩ := firstLast_mem s hs
  obtain ⟨i, hi, hiq⟩ := h1
  have hpq := hP.mono (by omega : k < k + 1) hp hq
  have hb := (m3 q h2).2
  have ha := (m3 i hi).1
  have hf := (findPartition_iff s P hP hs k).2 ⟨p, hp, (hin a m1).1, by omega, by
    intro q' hq'
    rw [hq] at hq'
    cases hq'
    exact ⟨by omega, (hin b m2).2⟩⟩
  refine ⟨hf, ?_⟩
  unfold toChunkParts
  rw [hf]
  simp only [bind, Except.bind, hp, hq, ofLoop, toChunk_none s [] p (q - p) q h2 (by omega)]
  rfl

/-! ## The test of `toChunk` -/

/-- **C102** `toChunk` with the test: an exception exactly if an index is before the chunk or after the position that follows it; the
chunk if all are in it. -/
theorem toChunk_test [AddCommMonoid α] (s : SVec α) (hl : s.indices.length = s.values.length) (hnd : s.indices.Nodup) (h0 : s.indices ≠ [])
    (i0 total : Nat) :
    (toChunkTest s [] i0 total = throwOut ↔ ∃ i ∈ s.indices, i < i0 ∨ i0 + total < i) ∧
    ((∀ i ∈ s.indices, i0 ≤ i ∧ i < i0 + total) → ∃ d, toChunkTest s [] i0 total = .ok d ∧ d.length = total ∧
      ∀ j, j < total → d[j]? = some (coeff s (i0 + j))) := by
  obtain ⟨a, b, hs⟩ := firstLast_some s h0
  obtain ⟨m1, m2, m3⟩ := firstLast_mem s hs
  unfold toChunkTest
  simp only [hs]
  constructor
  · constructor
    · intro h
      split at h
      · rename_i hc
        rcases hc with hc | hc
        · exact ⟨a, m1, .inl hc⟩
        · exact ⟨b, m2, .inr hc⟩
      · cases e : toChunk s [] i0 total <;> rw [e] at h <;> cases h
    · rintro ⟨i, hi, h⟩
      have := m3 i hi
      rw [if_pos (by omega)]
  · intro h
    have h1 := h a m1
    have h2 := h b m2
    rw [if_neg (by omega)]
    obtain ⟨d, d1, d2, d3⟩ := toChunk_spec s hl hnd i0 total h
    exact ⟨d, by rw [d1]; rfl, d2, d3⟩

/-- **C102** The test lets the position after the chunk pass, and the element is written out of range; so is one of no elements. -/
theorem toChunk_test_fails [Zero α] (s : SVec α) (i0 total : Nat) (dest : List α) :
    ((∀ i ∈ s.indices, i0 ≤ i ∧ i ≤ i0 + total) → i0 + total ∈ s.indices → toChunkTest s dest i0 total = ubOut) ∧
    (s.indices = [] → toChunkTest s dest i0 total = ubOut) := by
  constructor
  · intro h hm
    obtain ⟨a, b, hs⟩ := firstLast_some s (List.ne_nil_of_mem hm)
    obtain ⟨m1, m2, m3⟩ := firstLast_mem s hs
    have h1 := h a m1
    have h2 := h b m2
    unfold toChunkTest
    simp only [hs]
    rw [if_neg (by omega), toChunk_none s dest i0 total _ hm (by omega)]
    rfl
  · intro h
    simp [toChunkTest, findFirstLast, h]

/-! ## Printing -/

theorem digits_comma (n : Nat) : ',' ∉ Nat.toDigits 10 n := by
  intro h
  have := Nat.isDigit_of_mem_toDigits (by norm_num) (by norm_num) h
  revert this
  decide

theorem flat_split (fs : List Str) (h : ∀ f ∈ fs, ',' ∉ f) (rest : Str) :
    (fs.flatMap (fun f => f ++ [',']) ++ rest).splitOn ',' = fs ++ rest.splitOn ',' := by
  induction fs with
  | nil => rfl
  | cons f fs ih =>
    rw [List.flatMap_cons, List.append_assoc, List.append_assoc, List.singleton_append]
    unfold List.splitOn at ih ⊢
    rw [List.splitOnP_append_cons_of_forall_mem (p := (· == ',')) (by
      intro c hc
      have := h f List.mem_cons_self
      simp only [beq_eq_false_iff_ne, ne_eq]
      rintro rfl
      exact this hc) ',' (by decide), ih fun g hg => h g (List.mem_cons_of_mem _ hg)]
    rfl

/-- The text of an element. -/
def elemText (txt : α → Str) (p : Nat × α) : Str := Nat.toDigits 10 p.1 ++ ' ' :: txt p.2

/-- **C102** What is printed, between commas: the label, the size, the number of elements, and the elements. -/
theorem print_fields (txt : α → Str) (s : SVec α) (hc : ∀ v ∈ s.values, ',' ∉ txt v) (label : Str) (hlab : ',' ∉ label) :
    (print txt s label).splitOn ',' = [label, ' ' :: Nat.toDigits 10 s.size, ' ' :: Nat.toDigits 10 s.indices.length] ++
      match (s.indices.zip s.values).map (elemText txt) with
      | [] => [" \n".toList]
      | t :: ts => (' ' :: t) :: ts ++ ["\n".toList] := by
  have hz : ∀ p ∈ s.indices.zip s.values, ',' ∉ elemText txt p := by
    intro p hp hm
    unfold elemText at hm
    rcases List.mem_append.1 hm with hm | hm
    · exact digits_comma _ hm
    · rcases List.mem_cons.1 hm with hm | hm
      · cases hm
      · exact hc p.2 (List.of_mem_zip hp).2 hm
  have e : print txt s label = ([label, ' ' :: Nat.toDigits 10 s.size, ' ' :: Nat.toDigits 10 s.indices.length].flatMap (fun f => f ++ [','])) ++
      (' ' :: ((s.indices.zip s.values).map (elemText txt)).flatMap (fun f => f ++ [',']) ++ ['\n']) := by
    have h2 : (", ".toList : Str) = [',', ' '] := by decide
    unfold print
    rw [h2, List.flatMap_map]
    simp [elemText]
  rw [e, flat_split _ (by
    intro f hf
    simp only [List.mem_cons, List.not_mem_nil, or_false] at hf
    rcases hf with rfl | rfl | rfl
    · exact hlab
    · intro h
      rcases List.mem_cons.1 h with h | h
      · cases h
      · exact digits_comma _ h
    · intro h
      rcases List.mem_cons.1 h with h | h
      · cases h
      · exact digits_comma _ h)]
  congr 1
  cases hl : (s.indices.zip s.values) with
  | nil =>
    show [' ', '\n'].splitOn ',' = [" \n".toList]
    decide
  | cons p ps =>
    rw [hl] at hz
    have := flat_split ((' ' :: elemText txt p) :: ps.map (elemText txt)) (by
      intro f hf
      rcases List.mem_cons.1 hf with rfl | hf
      · intro h
        rcases List.mem_cons.1 h with h | h
        · cases h
        · exact hz p List.mem_cons_self h
      · obtain ⟨q, hq, rfl⟩ := List.mem_map.1 hf
        exact hz q (List.mem_cons_of_mem _ hq)) ['\n']
    rw [List.flatMap_cons] at this
    rw [List.map_cons, List.flatMap_cons]
    exact this

/-! ## Examples -/

example : IsPartition [0, 3, 7, 9] := ⟨rfl, by decide⟩

example : toChunkParts (⟨[5, 6], [6, 4], 9, false⟩ : SVec Int) [0, 3, 7, 9] = .ok (1, [0, 6, 0, 5]) := by decide +kernel

example : toChunkParts (⟨[5], [3], 9, false⟩ : SVec Int) [0, 3, 7, 9] = throwOut := by decide +kernel

example : toChunkParts (⟨[5, 6], [4, 7], 9, false⟩ : SVec Int) [0, 3, 7, 9] = ubOut := by decide +kernel

example : print (fun n : Nat => Nat.toDigits 10 n) ⟨[5, 6], [4, 7], 9, false⟩ "v".toList = "v, 9, 2, 4 5,7 6,\n".toList := by decide +kernel

theorem four_parts : IsPartition [0, 3, 7, 9] := ⟨rfl, by decide⟩

example : findPartition (⟨[5], [3], 9, false⟩ : SVec Int) [0, 3, 7, 9] = throwOut := chunk_begin_fails _ _ four_parts (by decide) 1 3 rfl (by decide)
example := chunk_end_fails (⟨[5, 6], [4, 7], 9, false⟩ : SVec Int) [0, 3, 7, 9] four_parts 1 3 7 rfl rfl (by decide) (by decide) (by decide)
example := chunk_parts_partial (⟨[5, 6], [6, 4], 9, false⟩ : SVec Int) [0, 3, 7, 9] four_parts rfl (by decide) 1 3 7 rfl rfl (by decide) (by decide)
example := chunk_sound (⟨[5, 6], [6, 4], 9, false⟩ : SVec Int) [0, 3, 7, 9] rfl (by decide) 1 [0, 6, 0, 5] (by decide +kernel)
example := (findPartition_iff (⟨[5, 6], [6, 4], 9, false⟩ : SVec Int) [0, 3, 7, 9] four_parts (first := 4) (last := 6) (by decide +kernel) 1)
example := toChunk_test (⟨[5, 6], [6, 4], 9, false⟩ : SVec Int) rfl (by decide) (by decide) 3 4
example := print_fields (fun n : Nat => Nat.toDigits 10 n) ⟨[5, 6], [4, 7], 9, false⟩ (by decide +kernel) "v".toList (by decide)

end Verif.SparseVec
