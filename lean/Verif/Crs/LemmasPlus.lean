import Verif.Crs.LemmasScatter

namespace Verif.Crs

open Verif.Loop

variable {α σ : Type}

theorem Wf.rowLoop? {m : Crs α} (h : Wf m) (i : Nat) (f : Nat → α → σ → Option σ) (s : σ) :
    rowLoop? m i f s = (row m i).foldlM (fun s p => f p.1 p.2 s) s := by
  unfold Crs.rowLoop?
  by_cases hi : i < m.nrow
  · rw [if_pos hi, h.rowLoop i hi]
  · rw [if_neg hi, row_out h i (by omega)]; rfl

theorem row_length {m : Crs α} (h : Wf m) (i : Nat) (hi : i < m.nrow) :
    (row m i).length = ptr m (i + 1) - ptr m i := by
  unfold row
  rw [List.length_take, List.length_drop, List.length_zip, h.values_length]
  have := h.ptr_le (i + 1) (by omega)
  omega

theorem Wf.rowCount? {m : Crs α} (h : Wf m) (i : Nat) : rowCount? m i = some (row m i).length := by
  unfold Crs.rowCount?
  by_cases hi : i < m.nrow
  · rw [if_pos hi, ptr_eq m i (by rw [h.rowptr_length]; omega),
      ptr_eq m (i + 1) (by rw [h.rowptr_length]; omega), row_length h i hi]
    rfl
  · rw [if_neg hi, row_out h i (by omega)]; rfl

theorem list_eq_replicate {β : Type} (l : List β) (c : Nat) (x : β) (hl : l.length = c)
    (h : ∀ k, k < c → l[k]? = some x) : l = List.replicate c x := by
  apply List.ext_getElem?
  intro k
  by_cases hk : k < c
  · rw [h k hk]; simp [hk]
  · rw [List.getElem?_eq_none (by omega), List.getElem?_eq_none (by simp; omega)]

/-- The accumulating loop of `operatorPlus`. -/
theorem plus_acc [CommRing α] (W : List (Nat × α)) (c : Nat) (hW : ∀ p ∈ W, p.1 < c) (x : α)
    (s : PlusState α) (f : Nat → α) (hl : s.valueTmp.length = c)
    (hf : ∀ j, j < c → s.valueTmp[j]? = some (f j)) :
    ∃ vt, W.foldlM (fun (s : PlusState α) p => (updAt s.valueTmp p.1 (· + p.2 * x)).map
      fun t => { s with valueTmp := t }) s = some { s with valueTmp := vt } ∧ vt.length = c ∧
      ∀ j, j < c → vt[j]? = some (f j + sumAt W j * x) := by
  obtain ⟨s', h1, vt, rfl, h3, h4⟩ := foldlM_inv
    (fun d (s' : PlusState α) => ∃ vt : List α, s' = { s with valueTmp := vt } ∧ vt.length = c ∧
      ∀ j, j < c → vt[j]? = some (f j + sumAt d j * x)) W
    (fun (s : PlusState α) p => (updAt s.valueTmp p.1 (· + p.2 * x)).map
      fun t => { s with valueTmp := t }) s ⟨s.valueTmp, rfl, hl, by simpa using hf⟩ (by
      rintro d a r s' hd ⟨vt, rfl, hvl, hv⟩
      have ha : a.1 < c := hW a (by rw [hd]; simp)
      refine ⟨_, ?_, vt.set a.1 (f a.1 + sumAt d a.1 * x + a.2 * x), rfl, by simp [hvl], ?_⟩
      · simp only [updAt, hv a.1 ha, Option.map_some]
      · intro j hj
        rw [sumAt_snoc]
        by_cases e : a.1 = j
        · subst e; rw [List.getElem?_set_self (by omega), if_pos rfl]
          congr 1; ring
        · rw [List.getElem?_set_ne e, hv j hj, if_neg e, add_zero])
  exact ⟨vt, h1, h3, h4⟩

/-- The resetting loop of `operatorPlus`. -/
theorem plus_reset [Zero α] (W : List (Nat × α)) (c : Nat) (hW : ∀ p ∈ W, p.1 < c)
    (s : PlusState α) (h1 : s.valueTmp.length = c) (h2 : s.examined.length = c)
    (h3 : ∀ j, j < c → j ∉ (W.map fun p => p.1) → s.valueTmp[j]? = some 0 ∧ s.examined[j]? = some false) :
    W.foldlM (fun (s : PlusState α) p => plusReset p.1 s) s =
      some { s with valueTmp := List.replicate c 0, examined := List.replicate c false } := by
  obtain ⟨s', e1, vt, ex, rfl, e2, e3, e4⟩ := foldlM_inv
    (fun d (s' : PlusState α) => ∃ (vt : List α) (ex : List Bool),
      s' = { s with valueTmp := vt, examined := ex } ∧
      vt.length = c ∧ ex.length = c ∧
      ∀ j, j < c → (j ∉ (W.map fun p => p.1) ∨ j ∈ (d.map fun p => p.1)) →
        vt[j]? = some 0 ∧ ex[j]? = some false) W
    (fun (s : PlusState α) p => plusReset p.1 s) s
    ⟨s.valueTmp, s.examined, rfl, h1, h2, by simpa using h3⟩ (by
      rintro d a r s' hd ⟨vt, ex, rfl, g1, g2, g3⟩
      have ha : a.1 < c := hW a (by rw [hd]; simp)
      refine ⟨_, ?_, vt.set a.1 0, ex.set a.1 false, rfl, by simp [g1], by simp [g2], ?_⟩
      · unfold plusReset
        simp only [setAt_some (show a.1 < vt.length by omega), setAt_some (show a.1 < ex.length by omega),
          bind, Option.bind_some]
      · intro j hj hm
        by_cases e : a.1 = j
        · subst e
          rw [List.getElem?_set_self (by omega), List.getElem?_set_self (by omega)]
          exact ⟨rfl, rfl⟩
        · rw [List.getElem?_set_ne e, List.getElem?_set_ne e]
          refine g3 j hj ?_
          rcases hm with hm | hm
          · exact Or.inl hm
          · simp only [List.map_append, List.map_cons, List.map_nil, List.mem_append,
              List.mem_singleton] at hm
            exact Or.inr (hm.resolve_right fun h => e h.symm))
  rw [e1]
  have hr : ∀ j, j < c → vt[j]? = some 0 ∧ ex[j]? = some false := by
    intro j hj
    refine e4 j hj ?_
    by_cases h : j ∈ W.map fun p => p.1
    · exact Or.inr h
    · exact Or.inl h
  rw [list_eq_replicate vt c 0 e2 (fun k hk => (hr k hk).1),
    list_eq_replicate ex c false e3 (fun k hk => (hr k hk).2)]

/-- The copying loop of `operatorPlus`. -/
theorem plus_copy [CommRing α] [DecidableEq α] (W : List (Nat × α)) (n c : Nat)
    (hW : ∀ p ∈ W, p.1 < c) (done : List (List (Nat × α))) (s : PlusState α) (f : Nat → α)
    (hf : ∀ j, j < c → s.valueTmp[j]? = some (f j))
    (hf0 : ∀ j, j < c → j ∉ (W.map fun p => p.1) → f j = 0)
    (hb : Built s.a n c (done ++ [[]])) (hex : s.examined = List.replicate c false)
    (hcnt : s.counter = done.flatten.length) :
    ∃ (s' : PlusState α) (l : List (Nat × α)),
      W.foldlM (fun (s : PlusState α) p => plusCopy p.1 s) s = some s' ∧
      Built s'.a n c (done ++ [l]) ∧ s'.counter = done.flatten.length + l.length ∧
      s'.valueTmp = s.valueTmp ∧ s'.examined.length = c ∧
      (∀ j, j < c → s'.examined[j]? = some (decide (j ∈ W.map fun p => p.1))) ∧
      (l.map fun p => p.1).Nodup ∧ (∀ p ∈ l, p.1 < c ∧ p.2 ≠ 0) ∧ ∀ j, j < c → sumAt l j = f j := by
  obtain ⟨s', e1, l, e2, e3, e4, e5, e6, e7, e8, e9⟩ := foldlM_inv
    (fun d (s' : PlusState α) => ∃ l : List (Nat × α), Built s'.a n c (done ++ [l]) ∧
      s'.counter = done.flatten.length + l.length ∧
      s'.valueTmp = s.valueTmp ∧ s'.examined.length = c ∧
      (∀ j, j < c → s'.examined[j]? = some (decide (j ∈ d.map fun p => p.1))) ∧
      (l.map fun p => p.1).Nodup ∧
      (∀ p ∈ l, p.1 ∈ (d.map fun p => p.1) ∧ p.2 ≠ 0 ∧ p.1 < c ∧ f p.1 = p.2) ∧
      ∀ j, j ∈ (d.map fun p => p.1) → f j ≠ 0 → (j, f j) ∈ l) W
    (fun (s : PlusState α) p => plusCopy p.1 s) s
    ⟨[], hb, by simp [hcnt], rfl, by simp [hex], by intro j hj; simp [hex, hj], by simp, by simp, by simp⟩ (by
      rintro d a r s' hd ⟨l, g1, g2, g3, g4, g5, g6, g7, g8⟩
      have ha : a.1 < c := hW a (by rw [hd]; simp)
      have hv : s'.valueTmp[a.1]? = some (f a.1) := by rw [g3]; exact hf a.1 ha
      by_cases hm : a.1 ∈ d.map fun p => p.1
      · have hmem : ∀ j, j ∈ ((d ++ [a]).map fun p => p.1) ↔ j ∈ d.map fun p => p.1 := by
          intro j
          simp only [List.map_append, List.map_cons, List.map_nil, List.mem_append, List.mem_singleton]
          constructor
          · rintro (h | h)
            · exact h
            · rw [h]; exact hm
          · exact Or.inl
        refine ⟨s', ?_, l, g1, g2, g3, g4, ?_, g6, ?_, ?_⟩
        · unfold plusCopy
          rw [g5 a.1 ha]
          simp [hm]
        · intro j hj; rw [g5 j hj]; simp only [hmem]
        · intro p hp; rw [hmem]; exact g7 p hp
        · intro j hj; rw [hmem] at hj; exact g8 j hj
      · have hex' : ∀ j, j < c → (s'.examined.set a.1 true)[j]? =
            some (decide (j ∈ (d ++ [a]).map fun p => p.1)) := by
          intro j hj
          by_cases e : a.1 = j
          · subst e; rw [List.getElem?_set_self (by omega)]; simp
          · rw [List.getElem?_set_ne e, g5 j hj]
            simp only [List.map_append, List.map_cons, List.map_nil, List.mem_append,
              List.mem_singleton, Option.some.injEq, decide_eq_decide]
            exact ⟨Or.inl, fun h => h.resolve_right fun h => e h.symm⟩
        have hset : setAt s'.examined a.1 true = some (s'.examined.set a.1 true) :=
          setAt_some (by omega)
        by_cases hz : f a.1 = 0
        · refine ⟨{ s' with examined := s'.examined.set a.1 true }, ?_, l, g1, g2, g3, by simp [g4],
            hex', g6, ?_, ?_⟩
          · unfold plusCopy
            rw [g5 a.1 ha]
            simp only [hm, decide_false, bind, Option.bind_some, hset, hv, hz]
            rfl
          · intro p hp
            obtain ⟨q1, q2⟩ := g7 p hp
            exact ⟨by simp only [List.map_append, List.mem_append]; exact Or.inl q1, q2⟩
          · intro j hj hne
            simp only [List.map_append, List.map_cons, List.map_nil, List.mem_append,
              List.mem_singleton] at hj
            rcases hj with hj | rfl
            · exact g8 j hj hne
            · exact absurd hz hne
        · refine ⟨⟨push s'.a a.1 (f a.1), s'.counter + 1, s'.valueTmp, s'.examined.set a.1 true⟩, ?_, l ++ [(a.1, f a.1)], g1.push _ _, ?_, g3, by simp [g4],
            hex', ?_, ?_, ?_⟩
          · unfold plusCopy
            rw [g5 a.1 ha]
            simp only [hm, decide_false, bind, Option.bind_some, hset, hv, hz]
            rfl
          · simp [g2]; omega
          · rw [List.map_append, List.map_cons, List.map_nil, List.nodup_append]
            refine ⟨g6, by simp, ?_⟩
            intro x hx y hy
            rw [List.mem_singleton] at hy
            rintro rfl
            obtain ⟨p, hp, rfl⟩ := List.mem_map.1 hx
            simp only at hy
            exact hm (hy ▸ (g7 p hp).1)
          · intro p hp
            rw [List.mem_append, List.mem_singleton] at hp
            rcases hp with hp | rfl
            · obtain ⟨q1, q2⟩ := g7 p hp
              exact ⟨by simp only [List.map_append, List.mem_append]; exact Or.inl q1, q2⟩
            · exact ⟨by simp, hz, ha, rfl⟩
          · intro j hj hne
            simp only [List.map_append, List.map_cons, List.map_nil, List.mem_append,
              List.mem_singleton] at hj
            rw [List.mem_append, List.mem_singleton]
            rcases hj with hj | rfl
            · exact Or.inl (g8 j hj hne)
            · exact Or.inr rfl)
  refine ⟨s', l, e1, e2, e3, e4, e5, e6, e7, fun p hp => ⟨(e8 p hp).2.2.1, (e8 p hp).2.1⟩, ?_⟩
  intro j hj
  by_cases hz : f j = 0
  · rw [hz, sumAt_of_not_mem]
    intro hm
    obtain ⟨p, hp, rfl⟩ := List.mem_map.1 hm
    obtain ⟨-, q2, -, q4⟩ := e8 p hp
    exact q2 (q4 ▸ hz)
  · have hm : j ∈ W.map fun p => p.1 := by
      by_contra h
      exact hz (hf0 j hj h)
    exact sumAt_eq_of_mem e7 (e9 j hm hz)

theorem plusRow_spec [CommRing α] [DecidableEq α] {B C : Crs α} (hB : Wf B) (hC : Wf C) (b1 c1 : α)
    (n c : Nat) (hBc : B.ncol ≤ c) (hCc : C.ncol ≤ c) (i : Nat) (hi : i < n)
    (done : List (List (Nat × α))) (hd : done.length = i) (s : PlusState α) (hb : Built s.a n c done)
    (hcnt : s.counter = done.flatten.length) (hv : s.valueTmp = List.replicate c 0)
    (hex : s.examined = List.replicate c false) :
    ∃ (s' : PlusState α) (l : List (Nat × α)), plusRow B b1 C c1 i s = some s' ∧
      Built s'.a n c (done ++ [l]) ∧ s'.counter = (done ++ [l]).flatten.length ∧
      s'.valueTmp = List.replicate c 0 ∧ s'.examined = List.replicate c false ∧
      (l.map fun p => p.1).Nodup ∧ (∀ p ∈ l, p.1 < c ∧ p.2 ≠ 0) ∧
      ∀ j, j < c → sumAt l j = entry B i j * b1 + entry C i j * c1 := by
  obtain ⟨a, ha, hb1⟩ := hb.newRow i hd.symm hi s.counter hcnt
  unfold plusRow
  simp only [ha, bind, Option.bind_some, hB.rowCount?, hC.rowCount?, hB.rowLoop?, hC.rowLoop?]
  by_cases h0 : (row B i).length + (row C i).length ≥ 1
  · rw [if_pos h0]
    have hWB : ∀ p ∈ row B i, p.1 < c := fun p hp => lt_of_lt_of_le (hB.col_lt hp) hBc
    have hWC : ∀ p ∈ row C i, p.1 < c := fun p hp => lt_of_lt_of_le (hC.col_lt hp) hCc
    obtain ⟨v1, e1, l1, f1⟩ := plus_acc (row B i) c hWB b1 { s with a := a } (fun _ => 0)
      (by simp [hv]) (by intro j hj; simp [hv, hj])
    obtain ⟨v2, e2, l2, f2⟩ := plus_acc (row C i) c hWC c1 { s with a := a, valueTmp := v1 } _ l1 f1
    have hW : ∀ p ∈ row B i ++ row C i, p.1 < c := by
      intro p hp
      rcases List.mem_append.1 hp with h | h
      · exact hWB p h
      · exact hWC p h
    obtain ⟨s3, l, e3, g1, g2, g3, g4, g5, g6, g7, g8⟩ := plus_copy (row B i ++ row C i) n c hW done
      { s with a := a, valueTmp := v2 } _ f2 (by
        intro j hj hm
        rw [List.map_append, List.mem_append, not_or] at hm
        rw [sumAt_of_not_mem hm.1, sumAt_of_not_mem hm.2]; ring) hb1 hex hcnt
    have e4 := plus_reset (row B i ++ row C i) c hW s3 (by rw [g3]; exact l2) g4 (by
        intro j hj hm
        rw [g5 j hj, g3]
        refine ⟨?_, by simp only [hm, decide_false]⟩
        rw [f2 j hj]
        rw [List.map_append, List.mem_append, not_or] at hm
        rw [sumAt_of_not_mem hm.1, sumAt_of_not_mem hm.2]; congr 1; ring)
    rw [List.foldlM_append] at e3 e4
    simp only [bind] at e3 e4
    rw [e1]; simp only [Option.bind_some]
    rw [e2]; simp only [Option.bind_some]
    obtain ⟨s2, e5, e6⟩ := Option.bind_eq_some_iff.1 e3
    rw [e5]; simp only [Option.bind_some]
    rw [e6]; simp only [Option.bind_some]
    rw [e4]
    refine ⟨_, l, rfl, g1, ?_, rfl, rfl, g6, g7, ?_⟩
    · rw [g2, List.flatten_append, List.length_append]; simp
    · intro j hj; rw [g8 j hj]; simp [entry]
  · rw [if_neg h0]
    have hB0 : row B i = [] := List.eq_nil_of_length_eq_zero (by omega)
    have hC0 : row C i = [] := List.eq_nil_of_length_eq_zero (by omega)
    refine ⟨_, [], rfl, hb1, ?_, hv, hex, by simp, by simp, ?_⟩
    · simp [hcnt]
    · intro j hj; simp [entry, hB0, hC0]

theorem plus_rows [CommRing α] [DecidableEq α] {B C : Crs α} (hB : Wf B) (hC : Wf C) (b1 c1 : α) :
    ∃ (m : Crs α) (rows : List (List (Nat × α))),
      IsRows m (max B.nrow C.nrow) (max B.ncol C.ncol) rows ∧
      (∀ l ∈ rows, ∀ p ∈ l, p.1 < max B.ncol C.ncol) ∧ (∀ l ∈ rows, (l.map fun p => p.1).Nodup) ∧
      (∀ l ∈ rows, ∀ p ∈ l, p.2 ≠ 0) ∧
      (∀ i (h : i < rows.length), ∀ j, j < max B.ncol C.ncol →
        sumAt rows[i] j = entry B i j * b1 + entry C i j * c1) ∧
      (operatorPlus B b1 C c1 = (checkValidity m).bind fun _ => some m) := by
  have hn : (if B.nrow ≥ C.nrow then B.nrow else C.nrow) = max B.nrow C.nrow := by
    split_ifs <;> omega
  have hc : (if B.ncol ≥ C.ncol then B.ncol else C.ncol) = max B.ncol C.ncol := by
    split_ifs <;> omega
  unfold operatorPlus
  simp only [hn, hc, hB.nonZeros, hC.nonZeros, bind, Option.bind_some]
  set n := max B.nrow C.nrow
  set c := max B.ncol C.ncol
  obtain ⟨s, h1, rows, h2, h3, h4, -, -, h7, h8, h9⟩ := loopN_inv
    (fun i (s : PlusState α) => ∃ rows : List (List (Nat × α)), rows.length = i ∧
      Built s.a n c rows ∧ s.counter = rows.flatten.length ∧ s.valueTmp = List.replicate c 0 ∧
      s.examined = List.replicate c false ∧ (∀ l ∈ rows, (l.map fun p => p.1).Nodup) ∧
      (∀ l ∈ rows, ∀ p ∈ l, p.1 < c ∧ p.2 ≠ 0) ∧
      (∀ i (h : i < rows.length), ∀ j, j < c → sumAt rows[i] j = entry B i j * b1 + entry C i j * c1)) n
    (fun irow s => plusRow B b1 C c1 irow s)
    ⟨resize2 n c, 0, List.replicate c 0, List.replicate c false⟩
    ⟨[], rfl, built_resize2 n c, rfl, rfl, rfl, by simp, by simp, by simp⟩ (by
      rintro i s hi ⟨rows, g1, g2, g3, g4, g5, g6, g7, g8⟩
      obtain ⟨s', l, q1, q2, q3, q4, q5, q6, q7, q8⟩ := plusRow_spec hB hC b1 c1 n c (le_max_left _ _)
        (le_max_right _ _) i hi rows g1 s g2 g3 g4 g5
      refine ⟨s', q1, rows ++ [l], by simp [g1], q2, q3, q4, q5, ?_, ?_, ?_⟩
      · intro l' hl'
        rcases List.mem_append.1 hl' with h | h
        · exact g6 l' h
        · rw [List.mem_singleton] at h; subst h; exact q6
      · intro l' hl'
        rcases List.mem_append.1 hl' with h | h
        · exact g7 l' h
        · rw [List.mem_singleton] at h; subst h; exact q7
      · intro k hk j hj
        rw [List.length_append, List.length_singleton] at hk
        by_cases e : k = rows.length
        · subst e
          rw [List.getElem_concat_length rfl, q8 j hj, g1]
        · rw [List.getElem_append_left (by omega)]
          exact g8 k (by omega) j hj)
  obtain ⟨m, e1, e2⟩ := h3.finish h2 s.counter h4
  refine ⟨m, rows, e2, fun l hl p hp => (h8 l hl p hp).1, h7, fun l hl p hp => (h8 l hl p hp).2, h9, ?_⟩
  rw [h1]; simp only [Option.bind_some]
  rw [e1]; simp only [Option.bind_some]
  rw [resize3_self e2 s.counter h4]

end Verif.Crs
