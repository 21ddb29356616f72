import Verif.Crs.LemmasDense

namespace Verif.Crs

open Verif.Loop

variable {α σ : Type}

theorem sumAt_set [AddCommMonoid α] (L : List (Nat × α)) (q j : Nat) (v x : α)
    (h : L[q]? = some (j, v)) (k : Nat) :
    sumAt (L.set q (j, v + x)) k = sumAt L k + if j = k then x else 0 := by
  induction L generalizing q with
  | nil => simp at h
  | cons p L ih =>
    cases q with
    | zero =>
      simp only [List.getElem?_cons_zero, Option.some.injEq] at h
      subst h
      rw [List.set_cons_zero, sumAt_cons, sumAt_cons]
      by_cases e : j = k <;> simp [e, add_assoc, add_comm, add_left_comm]
    | succ q =>
      rw [List.getElem?_cons_succ] at h
      rw [List.set_cons_succ, sumAt_cons, sumAt_cons, ih q h, add_assoc]

theorem map_fst_set (L : List (Nat × α)) (q j : Nat) (v x : α) (h : L[q]? = some (j, v)) :
    (L.set q (j, x)).map (fun p => p.1) = L.map fun p => p.1 := by
  rw [List.map_set]
  apply List.ext_getElem?
  intro t
  by_cases e : q = t
  · subst e
    have hq : q < L.length := (List.getElem?_eq_some_iff.1 h).1
    rw [List.getElem?_set_self (by simpa using hq), List.getElem?_map, h]; rfl
  · rw [List.getElem?_set_ne e]

/-- The accumulators hold the association list `L`. -/
structure AccInv (s : Acc α) (c : Nat) (L : List (Nat × α)) : Prop where
  plen : s.ptr.length = c
  ilen : s.index.length = c
  tlen : s.temp.length = c
  itemp : s.itemp = L.length
  nodup : (L.map fun p => p.1).Nodup
  lt : ∀ p ∈ L, p.1 < c
  vals : ∀ t, t < L.length → s.index[t]? = (L[t]?).map (fun p => p.1) ∧
    s.temp[t]? = (L[t]?).map (fun p => p.2)
  ptr : ∀ j, j < c → (j ∉ (L.map fun p => p.1) ∧ s.ptr[j]? = some none) ∨
    ∃ q v, L[q]? = some (j, v) ∧ s.ptr[j]? = some (some q)

theorem length_le_of_nodup_lt (l : List Nat) (c : Nat) (hn : l.Nodup) (h : ∀ x ∈ l, x < c) :
    l.length ≤ c := by
  have h1 : l ⊆ List.range c := fun x hx => List.mem_range.2 (h x hx)
  have := (hn.subperm h1).length_le
  simpa using this

theorem accStep_inv [AddCommMonoid α] {s : Acc α} {c : Nat} {L : List (Nat × α)} (h : AccInv s c L)
    (j : Nat) (x : α) (hj : j < c) :
    ∃ s' L', accStep j x s = some s' ∧ AccInv s' c L' ∧
      ∀ k, sumAt L' k = sumAt L k + if j = k then x else 0 := by
  rcases h.ptr j hj with ⟨hnm, hp⟩ | ⟨q, v, hq, hp⟩
  · have hnd' : ((L ++ [(j, x)]).map fun p => p.1).Nodup := by
      rw [List.map_append, List.nodup_append]
      refine ⟨h.nodup, by simp, ?_⟩
      rintro a ha b hb rfl
      simp only [List.map_cons, List.map_nil, List.mem_singleton] at hb
      exact hnm (hb ▸ ha)
    have hlt' : ∀ p ∈ L ++ [(j, x)], p.1 < c := by
      intro p hp
      rcases List.mem_append.1 hp with hp | hp
      · exact h.lt p hp
      · rw [List.mem_singleton.1 hp]; exact hj
    have hlen : L.length < c := by
      have := length_le_of_nodup_lt _ c hnd' (by
        intro y hy
        obtain ⟨p, hp, rfl⟩ := List.mem_map.1 hy
        exact hlt' p hp)
      simp at this; omega
    refine ⟨⟨s.ptr.set j (some s.itemp), s.index.set s.itemp j, s.temp.set s.itemp x, s.itemp + 1⟩,
      L ++ [(j, x)], ?_, ?_, fun k => by rw [sumAt_snoc]⟩
    · unfold accStep
      rw [hp]
      simp only [bind, Option.bind_some]
      rw [setAt_some (by rw [h.plen]; exact hj), setAt_some (by rw [h.tlen, h.itemp]; exact hlen),
        setAt_some (by rw [h.ilen, h.itemp]; exact hlen)]
      rfl
    · refine ⟨by simp [h.plen], by simp [h.ilen], by simp [h.tlen], by simp [h.itemp], hnd', hlt', ?_, ?_⟩
      · intro t ht
        rw [List.length_append, List.length_singleton] at ht
        by_cases e : s.itemp = t
        · subst e
          have := h.itemp; have := h.ilen; have := h.tlen
          simp only
          rw [List.getElem?_set_self (by omega), List.getElem?_set_self (by omega), h.itemp,
            List.getElem?_append_right le_rfl]
          simp
        · have := h.itemp
          simp only
          rw [List.getElem?_set_ne e, List.getElem?_set_ne e, List.getElem?_append_left (by omega)]
          exact h.vals t (by omega)
      · intro k hk
        by_cases e : j = k
        · subst e
          right
          refine ⟨L.length, x, by simp, ?_⟩
          simp only
          rw [List.getElem?_set_self (by rw [h.plen]; exact hj), h.itemp]
        · rcases h.ptr k hk with ⟨h1, h2⟩ | ⟨q, v, h1, h2⟩
          · left
            refine ⟨?_, by simp only; rw [List.getElem?_set_ne e]; exact h2⟩
            rw [List.map_append, List.mem_append]
            rintro (h3 | h3)
            · exact h1 h3
            · simp at h3; exact e h3.symm
          · right
            refine ⟨q, v, ?_, by simp only; rw [List.getElem?_set_ne e]; exact h2⟩
            rw [List.getElem?_append_left (List.getElem?_eq_some_iff.1 h1).1]
            exact h1
  · have hql : q < L.length := (List.getElem?_eq_some_iff.1 hq).1
    have hlc : L.length ≤ c := by
      have := length_le_of_nodup_lt _ c h.nodup (by
        intro y hy
        obtain ⟨p, hp, rfl⟩ := List.mem_map.1 hy
        exact h.lt p hp)
      simpa using this
    have hqt : q < s.temp.length := by rw [h.tlen]; omega
    have htq : s.temp[q] = v := by
      have := (h.vals q hql).2
      rw [hq, List.getElem?_eq_getElem hqt] at this
      simpa using this
    refine ⟨⟨s.ptr, s.index, s.temp.set q (v + x), s.itemp⟩, L.set q (j, v + x), ?_, ?_,
      fun k => sumAt_set L q j v x hq k⟩
    · unfold accStep
      rw [hp]
      simp only [bind, Option.bind_some]
      rw [updAt_some _ hqt, htq]
      rfl
    · refine ⟨h.plen, h.ilen, by simp [h.tlen], by simp [h.itemp], by
        rw [map_fst_set L q j v _ hq]; exact h.nodup, ?_, ?_, ?_⟩
      · intro p hp
        have : p.1 ∈ (L.set q (j, v + x)).map fun p => p.1 := List.mem_map_of_mem hp
        rw [map_fst_set L q j v _ hq] at this
        obtain ⟨p', hp', he⟩ := List.mem_map.1 this
        rw [← he]; exact h.lt p' hp'
      · intro t ht
        rw [List.length_set] at ht
        by_cases e : q = t
        · subst e
          simp only
          rw [List.getElem?_set_self hqt, List.getElem?_set_self hql]
          refine ⟨?_, rfl⟩
          rw [(h.vals q hql).1, hq]; rfl
        · simp only
          rw [List.getElem?_set_ne e, List.getElem?_set_ne e]
          exact h.vals t ht
      · intro k hk
        rw [map_fst_set L q j v _ hq]
        rcases h.ptr k hk with h1 | ⟨q', v', h1, h2⟩
        · exact Or.inl h1
        · right
          by_cases e : q = q'
          · subst e
            rw [hq] at h1
            simp only [Option.some.injEq, Prod.mk.injEq] at h1
            refine ⟨q, v + x, ?_, h2⟩
            rw [List.getElem?_set_self hql, h1.1]
          · refine ⟨q', v', ?_, h2⟩
            rw [List.getElem?_set_ne e]; exact h1

/-- The products contributing to row `i` of `A*B`. -/
def prodTerms [Mul α] (A B : Crs α) (i : Nat) : List (Nat × α) :=
  (row A i).flatMap fun p => (row B p.1).map fun q => (q.1, p.2 * q.2)

theorem prodTerms_lt [Mul α] {A B : Crs α} (hB : Wf B) (i : Nat) :
    ∀ p ∈ prodTerms A B i, p.1 < B.ncol := by
  intro p hp
  obtain ⟨a, -, hp'⟩ := List.mem_flatMap.1 hp
  obtain ⟨b, hb, rfl⟩ := List.mem_map.1 hp'
  exact hB.col_lt (p := b) hb

theorem acc_terms [AddCommMonoid α] (T : List (Nat × α)) (c : Nat) (hT : ∀ p ∈ T, p.1 < c)
    {s : Acc α} (h : AccInv s c []) :
    ∃ s' L, T.foldlM (fun s p => accStep p.1 p.2 s) s = some s' ∧ AccInv s' c L ∧
      ∀ k, sumAt L k = sumAt T k := by
  obtain ⟨s', h1, L, h2, h3⟩ := foldlM_inv
    (fun d (s : Acc α) => ∃ L, AccInv s c L ∧ ∀ k, sumAt L k = sumAt d k) T
    (fun s p => accStep p.1 p.2 s) s ⟨[], h, fun k => rfl⟩ (by
      rintro d p r s hd ⟨L, hL, hk⟩
      obtain ⟨s', L', e1, e2, e3⟩ := accStep_inv hL p.1 p.2 (hT p (by rw [hd]; simp))
      exact ⟨s', e1, L', e2, fun k => by rw [e3, hk, sumAt_snoc]⟩)
  exact ⟨s', L, h1, h2, h3⟩

theorem AccInv.restart {s : Acc α} {c : Nat} (h1 : s.ptr = List.replicate c none)
    (h2 : s.index.length = c) (h3 : s.temp.length = c) : AccInv { s with itemp := 0 } c [] where
  plen := by simp [h1]
  ilen := h2
  tlen := h3
  itemp := rfl
  nodup := by simp
  lt := by simp
  vals := by simp
  ptr := by intro j hj; left; simp [h1, hj]

theorem out_loop {acc : Acc α} {c n nc : Nat} {L : List (Nat × α)} (h : AccInv acc c L)
    {m : Crs α} {done : List (List (Nat × α))} (hm : Built m n nc (done ++ [[]])) :
    ∃ m', loopN acc.itemp (fun t (o : Crs α × List (Option Nat)) => do
      let v ← acc.temp[t]?
      let j ← acc.index[t]?
      let ptr ← setAt o.2 j none
      some (push o.1 j v, ptr)) (m, acc.ptr) = some (m', List.replicate c none) ∧
      Built m' n nc (done ++ [L]) := by
  rw [h.itemp]
  obtain ⟨⟨m', p⟩, h1, h2, h3, h4⟩ := loopN_inv
    (fun t (o : Crs α × List (Option Nat)) => Built o.1 n nc (done ++ [L.take t]) ∧ o.2.length = c ∧
      ∀ k, k < c → k ∉ ((L.drop t).map fun p => p.1) → o.2[k]? = some none) L.length
    (fun t (o : Crs α × List (Option Nat)) => do
      let v ← acc.temp[t]?
      let j ← acc.index[t]?
      let ptr ← setAt o.2 j none
      some (push o.1 j v, ptr)) (m, acc.ptr) ⟨by simpa using hm, h.plen, by
        intro k hk hn
        rcases h.ptr k hk with ⟨-, h2⟩ | ⟨q, v, h1, -⟩
        · exact h2
        · exfalso
          apply hn
          rw [List.drop_zero]
          exact List.mem_map.2 ⟨(k, v), List.mem_of_getElem? h1, rfl⟩⟩ (by
      rintro t ⟨m, p⟩ ht ⟨hb, hl, hp⟩
      simp only at hb hl hp
      have hv := h.vals t ht
      rw [List.getElem?_eq_getElem ht] at hv
      have hlt := h.lt L[t] (List.getElem_mem ht)
      refine ⟨(push m L[t].1 L[t].2, p.set L[t].1 none), ?_, ?_, by simp [hl], ?_⟩
      · simp only [hv.1, hv.2, Option.map_some, bind, Option.bind_some]
        rw [setAt_some (by omega)]; rfl
      · rw [List.take_succ_eq_append_getElem ht]
        exact hb.push _ _
      · intro k hk hn
        by_cases e : L[t].1 = k
        · subst e; simp only; rw [List.getElem?_set_self (by omega)]
        · simp only
          rw [List.getElem?_set_ne e]
          refine hp k hk ?_
          rw [List.drop_eq_getElem_cons ht, List.map_cons, List.mem_cons]
          rintro (h | h)
          · exact e h.symm
          · exact hn h)
  refine ⟨m', ?_, ?_⟩
  · rw [h1]
    congr 2
    apply List.ext_getElem?
    intro k
    by_cases hk : k < c
    · rw [h4 k hk (by simp)]; simp [hk]
    · simp only at h3
      rw [List.getElem?_eq_none (by omega), List.getElem?_eq_none (by simp; omega)]
  · rw [List.take_length] at h2
    exact h2

theorem multiply_rows [CommRing α] {A B : Crs α} (hA : Wf A) (hB : Wf B) (hd : A.ncol = B.nrow) :
    ∃ (m : Crs α) (rows : List (List (Nat × α))), IsRows m A.nrow B.ncol rows ∧
      (∀ l ∈ rows, ∀ p ∈ l, p.1 < B.ncol) ∧ (∀ l ∈ rows, (l.map fun p => p.1).Nodup) ∧
      (∀ i (h : i < rows.length), ∀ k, sumAt rows[i] k = sumAt (prodTerms A B i) k) ∧
      (multiply A B = (checkValidity m).bind fun _ => some m) := by
  unfold multiply
  obtain ⟨⟨m, acc, k⟩, h1, rows, h2, h3, h4, h5, h6, h7, h8, h9, h10⟩ := loopN_inv
    (fun i (s : Crs α × Acc α × Nat) => ∃ rows : List (List (Nat × α)), rows.length = i ∧
      Built s.1 A.nrow B.ncol rows ∧ s.2.2 = rows.flatten.length ∧
      s.2.1.ptr = List.replicate B.ncol none ∧ s.2.1.index.length = B.ncol ∧
      s.2.1.temp.length = B.ncol ∧ (∀ l ∈ rows, ∀ p ∈ l, p.1 < B.ncol) ∧
      (∀ l ∈ rows, (l.map fun p => p.1).Nodup) ∧
      (∀ i (h : i < rows.length), ∀ k, sumAt rows[i] k = sumAt (prodTerms A B i) k)) A.nrow
    (fun i (s : Crs α × Acc α × Nat) => do
      let c ← setRow s.1 i s.2.2
      let acc ← rowLoop A i (fun ja va acc =>
        rowLoop B ja (fun jb vb acc => accStep jb (va * vb) acc) acc) { s.2.1 with itemp := 0 }
      let out ← loopN acc.itemp (fun t (o : Crs α × List (Option Nat)) => do
        let v ← acc.temp[t]?
        let j ← acc.index[t]?
        let ptr ← setAt o.2 j none
        some (push o.1 j v, ptr)) (c, acc.ptr)
      some (out.1, { acc with ptr := out.2 }, s.2.2 + acc.itemp))
    (resize2 A.nrow B.ncol,
      ⟨List.replicate B.ncol none, List.replicate B.ncol 0, List.replicate B.ncol 0, 0⟩, 0)
    ⟨[], rfl, built_resize2 _ _, rfl, rfl, by simp, by simp, by simp, by simp, by simp⟩ (by
      rintro i ⟨m, acc, k⟩ hi ⟨rows, hl, hb, hk, hp, hix, htm, hc, hn, hs⟩
      simp only at hb hk hp hix htm
      obtain ⟨m1, e1, hb1⟩ := hb.newRow i hl.symm hi k hk
      obtain ⟨acc', L, e2, hacc, hsum⟩ := acc_terms (prodTerms A B i) B.ncol (prodTerms_lt hB i)
        (AccInv.restart hp hix htm)
      obtain ⟨m2, e3, hb2⟩ := out_loop hacc hb1
      have e2' : rowLoop A i (fun ja va acc =>
          rowLoop B ja (fun jb vb acc => accStep jb (va * vb) acc) acc) { acc with itemp := 0 }
          = some acc' := by
        rw [← e2, hA.rowLoop i hi, prodTerms, foldlM_flatMap]
        refine foldlM_congr _ _ _ _ (fun s p hp => ?_)
        rw [hB.rowLoop p.1 (by rw [← hd]; exact hA.col_lt hp), foldlM_map']
      refine ⟨(m2, { acc' with ptr := List.replicate B.ncol none }, k + acc'.itemp), ?_,
        rows ++ [L], by simp [hl], hb2, ?_, rfl, hacc.ilen, hacc.tlen, ?_, ?_, ?_⟩
      · simp only [e1, bind, Option.bind_some] at e3 ⊢
        rw [e2', Option.bind_some, e3]; rfl
      · simp only
        rw [hk, hacc.itemp]; simp
      · intro l hl'
        rcases List.mem_append.1 hl' with h | h
        · exact hc l h
        · rw [List.mem_singleton.1 h]; exact hacc.lt
      · intro l hl'
        rcases List.mem_append.1 hl' with h | h
        · exact hn l h
        · rw [List.mem_singleton.1 h]; exact hacc.nodup
      · intro i' hi' k
        by_cases e : i' < rows.length
        · rw [List.getElem_append_left e]; exact hs i' e k
        · have : i' = i := by simp at hi'; omega
          subst this
          rw [List.getElem_append_right (by omega)]
          simpa [hl] using hsum k)
  simp only [bind] at h1 ⊢
  rw [h1, Option.bind_some]
  simp only at h3 h4
  obtain ⟨m', e1, e2⟩ := h3.finish h2 k h4
  refine ⟨m', rows, e2, h8, h9, h10, ?_⟩
  simp only [e1, Option.bind_some]

theorem sumAt_flatMap_scale [CommRing α] (l : List (Nat × α)) (g : Nat → List (Nat × α)) (n : Nat)
    (hl : ∀ p ∈ l, p.1 < n) (k : Nat) :
    sumAt (l.flatMap fun p => (g p.1).map fun q => (q.1, p.2 * q.2)) k =
      ∑ j : Fin n, sumAt l j * sumAt (g j) k := by
  have hmap : ∀ (x : α) (l : List (Nat × α)), sumAt (l.map fun q => (q.1, x * q.2)) k = x * sumAt l k := by
    intro x l
    induction l with
    | nil => simp
    | cons q l ih =>
      rw [List.map_cons, sumAt_cons, sumAt_cons, ih, mul_add]
      by_cases e : q.1 = k <;> simp [e]
  induction l with
  | nil => simp
  | cons p l ih =>
    have hp : p.1 < n := hl p (by simp)
    rw [List.flatMap_cons, sumAt_append, ih (fun q hq => hl q (by simp [hq])), hmap]
    simp only [sumAt_cons, add_mul, Finset.sum_add_distrib]
    congr 1
    rw [Finset.sum_eq_single (⟨p.1, hp⟩ : Fin n)]
    · simp
    · intro j _ hj
      rw [if_neg (fun h => hj (Fin.ext h.symm)), zero_mul]
    · simp

end Verif.Crs
