import Verif.Crs.ModelVerySparse
import Verif.Crs.Props2

/-! # C85: matrices from sorted lists of elements -/

namespace Verif.Crs

open Verif.Loop

variable {α : Type}

/-- Number of elements before row `i`. -/
def before (es : List (Nat × Nat × α)) (i : Nat) : Nat := (es.takeWhile fun e => decide (e.1 < i)).length

theorem before_le (es : List (Nat × Nat × α)) (i : Nat) : before es i ≤ es.length := (List.takeWhile_sublist _).length_le

theorem before_iff {es : List (Nat × Nat × α)} (hs : es.Pairwise fun x y => x.1 ≤ y.1) (i k : Nat) {e : Nat × Nat × α}
    (he : es[k]? = some e) : e.1 < i ↔ k < before es i := by
  induction es generalizing k with
  | nil => simp at he
  | cons x es ih =>
    rw [List.pairwise_cons] at hs
    unfold before
    rw [List.takeWhile_cons]
    by_cases hx : x.1 < i
    · simp only [hx, decide_true, if_true, List.length_cons]
      cases k with
      | zero =>
        simp only [List.getElem?_cons_zero, Option.some.injEq] at he
        subst he
        simp [hx]
      | succ k =>
        rw [List.getElem?_cons_succ] at he
        have := ih hs.2 k he
        unfold before at this
        omega
    · simp only [hx, decide_false, Bool.false_eq_true, if_false, List.length_nil, not_lt_zero', iff_false, not_lt]
      cases k with
      | zero =>
        simp only [List.getElem?_cons_zero, Option.some.injEq] at he
        subst he
        omega
      | succ k =>
        rw [List.getElem?_cons_succ] at he
        have := hs.1 e (List.mem_of_getElem? he)
        omega

theorem before_mono {es : List (Nat × Nat × α)} {i j : Nat} (h : i ≤ j) : before es i ≤ before es j := by
  unfold before
  induction es with
  | nil => simp
  | cons x es ih =>
    rw [List.takeWhile_cons, List.takeWhile_cons]
    by_cases hx : x.1 < i
    · simp only [hx, show x.1 < j by omega, decide_true, if_true, List.length_cons]
      omega
    · simp [hx]

theorem before_zero (es : List (Nat × Nat × α)) : before es 0 = 0 := by
  unfold before
  cases es <;> simp

theorem before_all {es : List (Nat × Nat × α)} {n : Nat} (h : ∀ e ∈ es, e.1 < n) : before es n = es.length := by
  unfold before
  induction es with
  | nil => rfl
  | cons x es ih =>
    rw [List.takeWhile_cons, if_pos (by simpa using h x List.mem_cons_self), List.length_cons, List.length_cons,
      ih fun e he => h e (List.mem_cons_of_mem _ he)]

/-- The elements of one row are the ones between its two counts. -/
theorem row_slice {es : List (Nat × Nat × α)} (hs : es.Pairwise fun x y => x.1 ≤ y.1) (i : Nat) :
    (es.drop (before es i)).take (before es (i + 1) - before es i) = es.filter fun e => e.1 = i := by
  have hm : before es i ≤ before es (i + 1) := before_mono (by omega)
  have e : es = es.take (before es i) ++ ((es.drop (before es i)).take (before es (i + 1) - before es i) ++ es.drop (before es (i + 1))) := by
    conv_lhs => rw [← List.take_append_drop (before es i) es]
    congr 1
    conv_lhs => rw [← List.take_append_drop (before es (i + 1) - before es i) (es.drop (before es i))]
    rw [List.drop_drop, show before es i + (before es (i + 1) - before es i) = before es (i + 1) by omega]
  conv_rhs => rw [e]
  rw [List.filter_append, List.filter_append]
  have h1 : (es.take (before es i)).filter (fun e => e.1 = i) = [] := by
    rw [List.filter_eq_nil_iff]
    intro x hx
    obtain ⟨k, hk, rfl⟩ := List.mem_iff_getElem.1 hx
    rw [List.length_take] at hk
    rw [List.getElem_take]
    have := (before_iff hs i k (List.getElem?_eq_getElem (by omega))).2 (by omega)
    simp only [decide_eq_true_eq]
    omega
  have h2 : ((es.drop (before es i)).take (before es (i + 1) - before es i)).filter (fun e => e.1 = i) =
      (es.drop (before es i)).take (before es (i + 1) - before es i) := by
    rw [List.filter_eq_self]
    intro x hx
    obtain ⟨k, hk, rfl⟩ := List.mem_iff_getElem.1 hx
    rw [List.length_take, List.length_drop] at hk
    rw [List.getElem_take, List.getElem_drop]
    have a := before_iff hs i (before es i + k) (List.getElem?_eq_getElem (by omega))
    have b := (before_iff hs (i + 1) (before es i + k) (List.getElem?_eq_getElem (by omega))).2 (by omega)
    simp only [decide_eq_true_eq]
    omega
  have h3 : (es.drop (before es (i + 1))).filter (fun e => e.1 = i) = [] := by
    rw [List.filter_eq_nil_iff]
    intro x hx
    obtain ⟨k, hk, rfl⟩ := List.mem_iff_getElem.1 hx
    rw [List.length_drop] at hk
    rw [List.getElem_drop]
    have := before_iff hs (i + 1) (before es (i + 1) + k) (List.getElem?_eq_getElem (by omega))
    simp only [decide_eq_true_eq]
    omega
  rw [h1, h2, h3, List.nil_append, List.append_nil]

/-- The arrays after some elements were stored. -/
structure Stored (es : List (Nat × Nat × α)) (nrow ncol i : Nat) (c : Crs α) (k : Nat) : Prop where
  rows : c.nrow = nrow
  cols : c.ncol = ncol
  ptrs : c.rowptr.length = nrow + 1
  ptr : ∀ j, j < i → c.rowptr[j]? = some (before es j)
  colLen : c.colind.length = es.length
  valLen : c.values.length = es.length
  col : ∀ j, j < k → c.colind[j]? = es[j]?.map fun e => e.2.1
  val : ∀ j, j < k → c.values[j]? = es[j]?.map fun e => e.2.2
  le : k ≤ es.length

theorem Stored.setRow {es : List (Nat × Nat × α)} {nrow ncol i k : Nat} {c : Crs α} (h : Stored es nrow ncol i c k) (hi : i ≤ nrow)
    (hk : k = before es i) : ∃ c', Crs.setRow c i k = some c' ∧ Stored es nrow ncol (i + 1) c' k := by
  unfold Crs.setRow
  rw [setAt_some (by rw [h.ptrs]; omega)]
  refine ⟨_, rfl, ⟨h.rows, h.cols, by simpa using h.ptrs, ?_, h.colLen, h.valLen, h.col, h.val, h.le⟩⟩
  intro j hj
  simp only
  by_cases hji : j = i
  · subst hji
    rw [List.getElem?_set_self (by rw [h.ptrs]; omega), hk]
  · rw [List.getElem?_set_ne (by omega)]
    exact h.ptr j (by omega)

/-- The arrays of the result. -/
theorem verySparse_arrays [Zero α] {es : List (Nat × Nat × α)} (hs : es.Pairwise fun x y => x.1 ≤ y.1) {nrow ncol : Nat}
    (hr : ∀ e ∈ es, e.1 < nrow) :
    ∃ m, Stored es nrow ncol (nrow + 1) m es.length ∧ ofVerySparse true nrow ncol es = (checkValidity m).bind fun _ => some m := by
  have step : ∀ i (s : Crs α × Nat), i < nrow → Stored es nrow ncol i s.1 s.2 ∧ s.2 = before es i →
      ∃ s', (do
        let c ← Crs.setRow s.1 i s.2
        whileN es.length (fun s => decide (s.2 < es.length) && (es[s.2]?.map fun e => e.1) == some i) (fun (s : Crs α × Nat) => do
          let e ← es[s.2]?
          let c ← setCol s.1 s.2 e.2.1
          let c ← setValues c s.2 e.2.2
          some (c, s.2 + 1)) (c, s.2) : Option (Crs α × Nat)) = some s' ∧
        Stored es nrow ncol (i + 1) s'.1 s'.2 ∧ s'.2 = before es (i + 1) := by
    rintro i ⟨c, k⟩ hi ⟨h, hk⟩
    simp only at h hk
    obtain ⟨c1, h1, h2⟩ := h.setRow (by omega) hk
    have hm : before es i ≤ before es (i + 1) := before_mono (by omega)
    obtain ⟨s', w1, ⟨w2, w3, w4⟩, w5⟩ := while_inv
      (fun s : Crs α × Nat => Stored es nrow ncol (i + 1) s.1 s.2 ∧ before es i ≤ s.2 ∧ s.2 ≤ before es (i + 1))
      (fun s => es.length - s.2)
      (fun s => decide (s.2 < es.length) && (es[s.2]?.map fun e => e.1) == some i) (fun (s : Crs α × Nat) => do
          let e ← es[s.2]?
          let c ← setCol s.1 s.2 e.2.1
          let c ← setValues c s.2 e.2.2
          some (c, s.2 + 1)) es.length (c1, k) ⟨h2, by omega, by omega⟩ (by simp) (by
        rintro ⟨d, q⟩ ⟨g, g1, g2⟩ hc
        simp only [Bool.and_eq_true, decide_eq_true_eq, beq_iff_eq] at hc
        obtain ⟨hq, hrow⟩ := hc
        rw [List.getElem?_eq_getElem hq] at hrow
        simp only [Option.map_some, Option.some.injEq] at hrow
        simp only at g g1 g2
        have e1 : es[q]? = some es[q] := List.getElem?_eq_getElem hq
        simp only [e1, setCol, setValues, setAt_some (show q < d.colind.length by rw [g.colLen]; exact hq),
          setAt_some (show q < d.values.length by rw [g.valLen]; exact hq), bind, Option.bind, Option.map_some]
        refine ⟨_, rfl, ⟨⟨g.rows, g.cols, g.ptrs, g.ptr, by simpa using g.colLen, by simpa using g.valLen, ?_, ?_, by simp only; omega⟩,
          by simp only; omega, ?_⟩, by simp only; omega⟩
        · intro j hj
          simp only at hj ⊢
          by_cases hjq : j = q
          · subst hjq
            rw [List.getElem?_set_self (by rw [g.colLen]; exact hq), e1, Option.map_some]
          · rw [List.getElem?_set_ne (by omega)]
            exact g.col j (by omega)
        · intro j hj
          simp only at hj ⊢
          by_cases hjq : j = q
          · subst hjq
            rw [List.getElem?_set_self (by rw [g.valLen]; exact hq), e1, Option.map_some]
          · rw [List.getElem?_set_ne (by omega)]
            exact g.val j (by omega)
        · simp only
          have := (before_iff hs (i + 1) q e1).1 (by omega)
          omega)
    refine ⟨s', ?_, w2, ?_⟩
    · simp only [h1, bind, Option.bind] at w1 ⊢
      exact w1
    · by_contra hne
      have hlt : s'.2 < before es (i + 1) := by omega
      have hq : s'.2 < es.length := lt_of_lt_of_le hlt (before_le _ _)
      have e1 : es[s'.2]? = some es[s'.2] := List.getElem?_eq_getElem hq
      have a := before_iff hs i _ e1
      have b := before_iff hs (i + 1) _ e1
      have : es[s'.2].1 = i := by omega
      rw [e1] at w5
      simp [hq, this] at w5
  have h0 : Stored es nrow ncol 0 (resize3 (⟨[], [], [], 0, 0⟩ : Crs α) nrow ncol es.length) 0 := by
    refine ⟨rfl, rfl, ?_, fun j hj => by omega, ?_, ?_, fun j hj => by omega, fun j hj => by omega, by omega⟩
    · exact resizeL_length _ _ _
    · exact resizeL_length _ _ _
    · exact resizeL_length _ _ _
  obtain ⟨s, q1, q2, q3⟩ := loopN_inv (fun i (s : Crs α × Nat) => Stored es nrow ncol i s.1 s.2 ∧ s.2 = before es i) nrow _
    (resize3 (⟨[], [], [], 0, 0⟩ : Crs α) nrow ncol es.length, 0) ⟨h0, (before_zero es).symm⟩ step
  obtain ⟨m, r1, r2⟩ := q2.setRow (by omega) q3
  have hall := before_all hr
  refine ⟨m, by rw [q3, hall] at r2; exact r2, ?_⟩
  unfold ofVerySparse
  simp only [Bool.not_true, Bool.false_eq_true, if_false]
  rw [q1]
  simp only [bind, Option.bind]
  rw [r1]

/-- **C85** A sorted list of elements in range, in which no place is given twice, gives a valid matrix with exactly these elements:
those of row `i` are those of the list, in their order. -/
theorem verySparse_spec [AddCommMonoid α] {es : List (Nat × Nat × α)} (hs : es.Pairwise fun x y => x.1 ≤ y.1) {nrow ncol : Nat}
    (hr : ∀ e ∈ es, e.1 < nrow) (hc : ∀ e ∈ es, e.2.1 < ncol) (hd : (es.map fun e => (e.1, e.2.1)).Nodup) (h0 : 0 < nrow) (h1 : 0 < ncol) :
    ∃ m, ofVerySparse true nrow ncol es = some m ∧ Valid m ∧ m.nrow = nrow ∧ m.ncol = ncol ∧
      (∀ i < nrow, row m i = (es.filter fun e => e.1 = i).map fun e => e.2) ∧
      (∀ i j v, (i, j, v) ∈ es → entry m i j = v) ∧
      ∀ i j, i < nrow → (∀ v, (i, j, v) ∉ es) → entry m i j = 0 := by
  obtain ⟨m, hm, he⟩ := verySparse_arrays (ncol := ncol) hs hr
  have hcol : m.colind = es.map fun e => e.2.1 := by
    apply List.ext_getElem?
    intro j
    by_cases hj : j < es.length
    · rw [hm.col j hj, List.getElem?_map]
    · rw [List.getElem?_eq_none (by rw [hm.colLen]; omega), List.getElem?_eq_none (by rw [List.length_map]; omega)]
  have hval : m.values = es.map fun e => e.2.2 := by
    apply List.ext_getElem?
    intro j
    by_cases hj : j < es.length
    · rw [hm.val j hj, List.getElem?_map]
    · rw [List.getElem?_eq_none (by rw [hm.valLen]; omega), List.getElem?_eq_none (by rw [List.length_map]; omega)]
  have hptr : ∀ j, j ≤ nrow → ptr m j = before es j := by
    intro j hj
    unfold ptr
    rw [List.getD_eq_getElem?_getD, hm.ptr j (by omega), Option.getD_some]
  have hzip : m.colind.zip m.values = es.map fun e => e.2 := by
    rw [hcol, hval, List.zip_map']
  have hrow : ∀ i < nrow, row m i = (es.filter fun e => e.1 = i).map fun e => e.2 := by
    intro i hi
    unfold row
    rw [hzip, hptr i (by omega), hptr (i + 1) (by omega), ← List.map_drop, ← List.map_take, row_slice hs]
  have hv : Valid m := by
    refine ⟨⟨by rw [hm.ptrs, hm.rows], by rw [hptr 0 (by omega), before_zero], ?_, by rw [hm.valLen, hm.colLen], ?_, ?_⟩, ?_⟩
    · rw [hm.rows, hptr nrow le_rfl, before_all hr, hm.colLen]
    · intro i hi
      rw [hm.rows] at hi
      rw [hptr i (by omega), hptr (i + 1) (by omega)]
      exact before_mono (by omega)
    · intro c hcm
      rw [hcol] at hcm
      obtain ⟨e, h2, rfl⟩ := List.mem_map.1 hcm
      rw [hm.cols]
      exact hc e h2
    · intro i hi
      rw [hm.rows] at hi
      rw [hrow i hi, List.map_map]
      have hsub : ((es.filter fun e => e.1 = i).map fun e => (e.1, e.2.1)).Nodup := hd.sublist (List.filter_sublist.map _)
      rw [List.nodup_iff_pairwise_ne, List.pairwise_map] at hsub ⊢
      refine hsub.imp_of_mem ?_
      intro a b ha hb hne he
      rw [List.mem_filter] at ha hb
      simp only [decide_eq_true_eq] at ha hb
      exact hne (Prod.ext (ha.2.trans hb.2.symm) he)
  have hrows := hm.rows
  refine ⟨m, ?_, hv, hm.rows, hm.cols, hrow, ?_, ?_⟩
  · rw [he, (checkValidity_iff hv.start).2 ⟨hv, by rw [hrows]; exact h0, by rw [hm.cols]; exact h1⟩]
    rfl
  · intro i j v hmem
    have hi := hr _ hmem
    unfold entry
    rw [hrow i hi]
    unfold sumAt
    have : (((es.filter fun e => e.1 = i).map fun e => e.2).filter fun p => p.1 = j) = [(j, v)] := by
      have hl : ∀ l : List (Nat × Nat × α), (l.map fun e => (e.1, e.2.1)).Nodup → (i, j, v) ∈ l →
          (((l.filter fun e => e.1 = i).map fun e => e.2).filter fun p => p.1 = j) = [(j, v)] := by
        intro l
        induction l with
        | nil => simp
        | cons x l ih =>
          intro hn hx
          rw [List.map_cons, List.nodup_cons] at hn
          rcases List.mem_cons.1 hx with rfl | hx
          · simp only [List.filter_cons, decide_true, if_true, List.map_cons]
            congr 1
            rw [List.filter_eq_nil_iff]
            intro p hp
            obtain ⟨e, h2, rfl⟩ := List.mem_map.1 hp
            rw [List.mem_filter] at h2
            simp only [decide_eq_true_eq] at h2 ⊢
            intro h3
            exact hn.1 (List.mem_map.2 ⟨e, h2.1, Prod.ext h2.2 h3⟩)
          · have hne : ¬ (x.1 = i ∧ x.2.1 = j) := by
              rintro ⟨h2, h3⟩
              exact hn.1 (List.mem_map.2 ⟨_, hx, by rw [← h2, ← h3]⟩)
            have := ih hn.2 hx
            by_cases h2 : x.1 = i
            · have h3 : ¬ x.2.1 = j := fun h => hne ⟨h2, h⟩
              simp only [List.filter_cons, h2, decide_true, if_true, List.map_cons, h3, decide_false, Bool.false_eq_true, if_false]
              exact this
            · simp only [List.filter_cons, h2, decide_false, Bool.false_eq_true, if_false]
              exact this
      exact hl es hd hmem
    rw [this]
    simp
  · intro i j hi hn
    unfold entry
    rw [hrow i hi]
    unfold sumAt
    rw [List.filter_eq_nil_iff.2]
    · rfl
    · intro p hp
      obtain ⟨e, h2, rfl⟩ := List.mem_map.1 hp
      rw [List.mem_filter] at h2
      simp only [decide_eq_true_eq] at h2 ⊢
      rintro rfl
      obtain ⟨h2, rfl⟩ := h2
      exact hn e.2.2 h2

/-- **C85** A list that is not marked as sorted is refused. -/
theorem verySparse_unsorted [Zero α] (nrow ncol : Nat) (es : List (Nat × Nat × α)) : ofVerySparse false nrow ncol es = none := rfl

theorem nodup_rows (es : List (Nat × Nat × α)) (h : ∀ i, ((es.filter fun e => e.1 = i).map fun e => e.2.1).Nodup) :
    (es.map fun e => (e.1, e.2.1)).Nodup := by
  induction es with
  | nil => exact List.nodup_nil
  | cons x es ih =>
    rw [List.map_cons, List.nodup_cons]
    constructor
    · intro hx
      obtain ⟨e, he, heq⟩ := List.mem_map.1 hx
      rw [Prod.mk.injEq] at heq
      have := h x.1
      simp only [List.filter_cons, decide_true, if_true, List.map_cons, List.nodup_cons] at this
      exact this.1 (List.mem_map.2 ⟨e, List.mem_filter.2 ⟨he, by simpa using heq.1⟩, heq.2⟩)
    · apply ih
      intro i
      have := h i
      rw [List.filter_cons] at this
      split_ifs at this
      · rw [List.map_cons, List.nodup_cons] at this
        exact this.2
      · exact this

/-- **C85** A list in which a place is given twice is refused. -/
theorem verySparse_twice [Zero α] {es : List (Nat × Nat × α)} (hs : es.Pairwise fun x y => x.1 ≤ y.1) {nrow ncol : Nat}
    (hr : ∀ e ∈ es, e.1 < nrow) (hd : ¬ (es.map fun e => (e.1, e.2.1)).Nodup) : ofVerySparse true nrow ncol es = none := by
  obtain ⟨m, hm, he⟩ := verySparse_arrays (ncol := ncol) hs hr
  have hcol : m.colind = es.map fun e => e.2.1 := by
    apply List.ext_getElem?
    intro j
    by_cases hj : j < es.length
    · rw [hm.col j hj, List.getElem?_map]
    · rw [List.getElem?_eq_none (by rw [hm.colLen]; omega), List.getElem?_eq_none (by rw [List.length_map]; omega)]
  have hval : m.values = es.map fun e => e.2.2 := by
    apply List.ext_getElem?
    intro j
    by_cases hj : j < es.length
    · rw [hm.val j hj, List.getElem?_map]
    · rw [List.getElem?_eq_none (by rw [hm.valLen]; omega), List.getElem?_eq_none (by rw [List.length_map]; omega)]
  have hptr : ∀ j, j ≤ nrow → ptr m j = before es j := by
    intro j hj
    unfold ptr
    rw [List.getD_eq_getElem?_getD, hm.ptr j (by omega), Option.getD_some]
  rw [he]
  cases hc : checkValidity m with
  | none => rfl
  | some u =>
    exfalso
    obtain ⟨hv, -, -⟩ := (checkValidity_iff (by rw [hptr 0 (by omega), before_zero])).1 hc
    apply hd
    apply nodup_rows
    intro i
    by_cases hi : i < nrow
    · have hn := hv.nodup i (by rw [hm.rows]; exact hi)
      have hrow : row m i = (es.filter fun e => e.1 = i).map fun e => e.2 := by
        unfold row
        rw [hcol, hval, List.zip_map', hptr i (by omega), hptr (i + 1) (by omega), ← List.map_drop, ← List.map_take, row_slice hs]
      rw [hrow, List.map_map] at hn
      exact hn
    · rw [List.filter_eq_nil_iff.2]
      · exact List.nodup_nil
      · intro e he
        have := hr e he
        simp only [decide_eq_true_eq]
        omega

example : ofVerySparse true 3 4 [(0, 1, 5), (0, 3, 6), (2, 0, (7 : Int))] = some ⟨[0, 2, 2, 3], [1, 3, 0], [5, 6, 7], 3, 4⟩ := by decide

/-! ## Cases -/

example := verySparse_spec (es := [(0, 1, (5 : Int)), (0, 0, 6), (2, 1, 7)]) (nrow := 3) (ncol := 2) (by decide) (by decide) (by decide) (by decide) (by decide) (by decide)
example : ofVerySparse true 3 2 [(0, 1, (5 : Int)), (0, 1, 6)] = none := verySparse_twice (by decide) (by decide) (by decide)

end Verif.Crs
