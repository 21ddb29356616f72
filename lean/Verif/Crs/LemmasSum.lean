import Verif.Crs.LemmasExtId

namespace Verif.Crs

open Verif.Loop

variable {α σ : Type}

/-! ### `sum` -/

/-- State of one row of `sum` after the terms `d`. -/
structure SumInv [AddCommMonoid α] (t : SumState α) (c : Nat) (d : List (Nat × α)) : Prop where
  vlen : t.valueTmp.length = c
  elen : t.examined.length = c
  nodup : t.columns.Nodup
  lt : ∀ j ∈ t.columns, j < c
  mem : ∀ j, j ∈ t.columns ↔ j ∈ d.map fun p => p.1
  ex : ∀ j, j < c → t.examined[j]? = some (decide (j ∈ t.columns))
  val : ∀ j ∈ t.columns, t.valueTmp[j]? = some (sumAt d j)

theorem sumStep_inv [AddCommMonoid α] {t : SumState α} {c : Nat} {d : List (Nat × α)} (h : SumInv t c d)
    (a : Nat × α) (ha : a.1 < c) :
    ∃ t', sumStep a.1 a.2 t = some t' ∧ SumInv t' c (d ++ [a]) := by
  unfold sumStep
  rw [h.ex a.1 ha]
  by_cases hm : a.1 ∈ t.columns
  · have hv := h.val a.1 hm
    refine ⟨⟨t.valueTmp.set a.1 (sumAt d a.1 + a.2), t.examined, t.columns⟩, ?_, by simp [h.vlen],
      h.elen, h.nodup, h.lt, ?_, h.ex, ?_⟩
    · simp only [bind, Option.bind_some, hm, decide_true, if_true, updAt, hv, Option.map_some]
    · intro j
      simp only [h.mem, List.map_append, List.map_cons, List.map_nil, List.mem_append, List.mem_singleton]
      constructor
      · exact Or.inl
      · rintro (h' | h')
        · exact h'
        · rw [h']; exact (h.mem _).1 hm
    · intro j hj
      simp only at hj ⊢
      rw [sumAt_snoc]
      by_cases e : a.1 = j
      · subst e; rw [List.getElem?_set_self (by rw [h.vlen]; exact ha), if_pos rfl]
      · rw [List.getElem?_set_ne e, h.val j hj, if_neg e, add_zero]
  · have h0 : sumAt d a.1 = 0 := sumAt_of_not_mem fun hh => hm ((h.mem _).2 hh)
    refine ⟨⟨t.valueTmp.set a.1 a.2, t.examined.set a.1 true, t.columns ++ [a.1]⟩, ?_, by simp [h.vlen],
      by simp [h.elen], ?_, ?_, ?_, ?_, ?_⟩
    · simp only [bind, Option.bind_some, hm, decide_false,
        setAt_some (show a.1 < t.examined.length by rw [h.elen]; exact ha),
        setAt_some (show a.1 < t.valueTmp.length by rw [h.vlen]; exact ha)]
      rfl
    · simp only
      rw [List.nodup_append]
      refine ⟨h.nodup, by simp, ?_⟩
      rintro x hx y hy rfl
      rw [List.mem_singleton] at hy
      exact hm (hy ▸ hx)
    · intro j hj
      rw [List.mem_append, List.mem_singleton] at hj
      rcases hj with hj | rfl
      · exact h.lt j hj
      · exact ha
    · intro j
      simp only [List.mem_append, h.mem, List.map_append, List.map_cons, List.map_nil]
    · intro j hj
      simp only
      by_cases e : a.1 = j
      · subst e; rw [List.getElem?_set_self (by rw [h.elen]; exact ha)]; simp
      · rw [List.getElem?_set_ne e, h.ex j hj]
        simp only [List.mem_append, List.mem_singleton, Option.some.injEq, decide_eq_decide]
        exact ⟨Or.inl, fun h => h.resolve_right fun h => e h.symm⟩
    · intro j hj
      simp only at hj ⊢
      rw [sumAt_snoc]
      by_cases e : a.1 = j
      · subst e; rw [List.getElem?_set_self (by rw [h.vlen]; exact ha), if_pos rfl, h0, zero_add]
      · rw [List.getElem?_set_ne e, if_neg e, add_zero]
        rw [List.mem_append, List.mem_singleton] at hj
        exact h.val j (hj.resolve_right fun h => e h.symm)

/-- Terms of row `i` of the linear combination. -/
def sumTerms [Mul α] (Bs : List (Crs α × α)) (i : Nat) : List (Nat × α) :=
  Bs.flatMap fun q => (row q.1 i).map fun p => (p.1, p.2 * q.2)

theorem sumAt_sumTerms [CommRing α] (Bs : List (Crs α × α)) (i j : Nat) :
    sumAt (sumTerms Bs i) j = (Bs.map fun q => entry q.1 i j * q.2).sum := by
  induction Bs with
  | nil => rfl
  | cons q Bs ih =>
    rw [sumTerms, List.flatMap_cons, sumAt_append, List.map_cons, List.sum_cons]
    rw [show sumAt (Bs.flatMap fun q => (row q.1 i).map fun p => (p.1, p.2 * q.2)) j = _ from ih]
    congr 1
    have : ∀ l : List (Nat × α), sumAt (l.map fun p => (p.1, p.2 * q.2)) j = sumAt l j * q.2 := by
      intro l
      induction l with
      | nil => simp
      | cons p l ihl =>
        rw [List.map_cons, sumAt_cons, ihl, sumAt_cons]
        by_cases e : p.1 = j
        · simp only [e, if_true]; ring
        · simp only [e, if_false]; ring
    exact this _

/-- The output loop of `sum`. -/
theorem sum_out [AddCommMonoid α] {t : SumState α} {n c : Nat} {d : List (Nat × α)} (h : SumInv t c d)
    {m : Crs α} {done : List (List (Nat × α))} (hm : Built m n c (done ++ [[]])) :
    ∃ m', loopN t.columns.length (fun k (o : Crs α × List Bool) => do
      let j ← t.columns[k]?
      let v ← t.valueTmp[j]?
      let ex ← setAt o.2 j false
      some (push o.1 j v, ex)) (m, t.examined) = some (m', List.replicate c false) ∧
      Built m' n c (done ++ [t.columns.map fun j => (j, sumAt d j)]) := by
  obtain ⟨⟨m', ex⟩, h1, h2, h3, h4⟩ := loopN_inv
    (fun k (o : Crs α × List Bool) =>
      Built o.1 n c (done ++ [(t.columns.take k).map fun j => (j, sumAt d j)]) ∧ o.2.length = c ∧
      ∀ j, j < c → o.2[j]? = some (decide (j ∈ t.columns.drop k))) t.columns.length
    (fun k (o : Crs α × List Bool) => do
      let j ← t.columns[k]?
      let v ← t.valueTmp[j]?
      let ex ← setAt o.2 j false
      some (push o.1 j v, ex)) (m, t.examined)
    ⟨by simpa using hm, h.elen, by simpa using h.ex⟩ (by
      rintro k ⟨m, ex⟩ hk ⟨g1, g2, g3⟩
      simp only at g1 g2 g3
      have hkm : t.columns[k] ∈ t.columns := List.getElem_mem hk
      have hlt := h.lt _ hkm
      refine ⟨(push m t.columns[k] (sumAt d t.columns[k]), ex.set t.columns[k] false), ?_, ?_,
        by simp [g2], ?_⟩
      · rw [List.getElem?_eq_getElem hk]
        simp only [bind, Option.bind_some, h.val _ hkm, setAt_some (show t.columns[k] < ex.length by omega)]
      · rw [List.take_add_one, List.getElem?_eq_getElem hk]
        simp only [Option.toList_some, List.map_append, List.map_cons, List.map_nil]
        exact g1.push _ _
      · intro j hj
        simp only
        have hdrop : t.columns.drop k = t.columns[k] :: t.columns.drop (k + 1) := List.drop_eq_getElem_cons hk
        have hnd : (t.columns.drop k).Nodup := h.nodup.sublist (List.drop_sublist _ _)
        rw [hdrop, List.nodup_cons] at hnd
        by_cases e : t.columns[k] = j
        · subst e
          rw [List.getElem?_set_self (by omega)]
          simp [hnd.1]
        · rw [List.getElem?_set_ne e, g3 j hj, hdrop]
          simp only [List.mem_cons, Option.some.injEq, decide_eq_decide]
          exact ⟨fun h => h.resolve_left fun h => e h.symm, Or.inr⟩)
  rw [List.take_length] at h2
  have : ex = List.replicate c false := list_eq_replicate ex c false h3 (fun k hk => by
    have := h4 k hk
    simpa using this)
  subst this
  exact ⟨m', h1, h2⟩

theorem foldl_max_le (l : List Nat) (a : Nat) :
    a ≤ l.foldl (fun n x => if x > n then x else n) a ∧
      ∀ x ∈ l, x ≤ l.foldl (fun n x => if x > n then x else n) a := by
  induction l generalizing a with
  | nil => simp
  | cons y l ih =>
    rw [List.foldl_cons]
    obtain ⟨h1, h2⟩ := ih (if y > a then y else a)
    refine ⟨le_trans (by split_ifs <;> omega) h1, ?_⟩
    intro x hx
    rcases List.mem_cons.1 hx with rfl | hx
    · exact le_trans (by split_ifs <;> omega) h1
    · exact h2 x hx

/-- The row (column) count of the result of `sum`. -/
theorem foldl_dim (Bs : List (Crs α)) (f : Crs α → Nat) (a : Nat) :
    Bs.foldl (fun n B => if f B > n then f B else n) a =
      (Bs.map f).foldl (fun n x => if x > n then x else n) a := by
  rw [List.foldl_map]

theorem sum_rows [CommRing α] (Bs : List (Crs α × α)) (hB : ∀ q ∈ Bs, Wf q.1) (n c : Nat)
    (hn : n = ((Bs.map fun q => q.1).foldl (fun n B => if B.nrow > n then B.nrow else n) 0))
    (hc : c = ((Bs.map fun q => q.1).foldl (fun n B => if B.ncol > n then B.ncol else n) 0)) :
    ∃ (m : Crs α) (rows : List (List (Nat × α))), IsRows m n c rows ∧
      (∀ l ∈ rows, ∀ p ∈ l, p.1 < c) ∧ (∀ l ∈ rows, (l.map fun p => p.1).Nodup) ∧
      (∀ i (h : i < rows.length), ∀ k, sumAt rows[i] k = sumAt (sumTerms Bs i) k) ∧
      (Crs.sum (Bs.map fun q => q.1) (Bs.map fun q => q.2) = (checkValidity m).bind fun _ => some m) := by
  have hcol : ∀ q ∈ Bs, q.1.ncol ≤ c := by
    intro q hq
    rw [hc, foldl_dim]
    exact (foldl_max_le _ 0).2 _ (List.mem_map.2 ⟨q.1, List.mem_map.2 ⟨q, hq, rfl⟩, rfl⟩)
  unfold Crs.sum
  simp only [bind]
  rw [← hn, ← hc]
  have hnz : ∃ v, (Bs.map fun q => q.1).foldlM (fun (_ : Nat) B => nonZeros B) 0 = some v := by
    obtain ⟨v, h, -⟩ := foldlM_inv (fun _ _ => True) (Bs.map fun q => q.1)
      (fun (_ : Nat) B => nonZeros B) 0 trivial (by
        intro d a r s hd _
        have : a ∈ Bs.map fun q => q.1 := by rw [hd]; simp
        obtain ⟨q, hq, rfl⟩ := List.mem_map.1 this
        exact ⟨_, (hB q hq).nonZeros, trivial⟩)
    exact ⟨v, h⟩
  obtain ⟨v, hv⟩ := hnz
  rw [hv]
  simp only [Option.bind_some]
  obtain ⟨⟨m, cnt, vt, ex⟩, h1, rows, h2, h3, h4, h5, h6, h7, h8, h9⟩ := loopN_inv
    (fun i (s : Crs α × Nat × List α × List Bool) => ∃ rows : List (List (Nat × α)), rows.length = i ∧
      Built s.1 n c rows ∧ s.2.1 = rows.flatten.length ∧ s.2.2.1.length = c ∧
      s.2.2.2 = List.replicate c false ∧
      (∀ l ∈ rows, ∀ p ∈ l, p.1 < c) ∧ (∀ l ∈ rows, (l.map fun p => p.1).Nodup) ∧
      (∀ i (h : i < rows.length), ∀ k, sumAt rows[i] k = sumAt (sumTerms Bs i) k)) n
    (fun irow (s : Crs α × Nat × List α × List Bool) => do
      let a ← setRow s.1 irow s.2.1
      let t ← loopN (Bs.map fun q => q.1).length (fun imat (t : SumState α) => do
        let B ← (Bs.map fun q => q.1)[imat]?
        let n ← rowCount? B irow
        if n ≥ 1 then
          let b1 ← (Bs.map fun q => q.2)[imat]?
          rowLoop? B irow (fun j v t => sumStep j (v * b1) t) t
        else some t) ⟨s.2.2.1, s.2.2.2, []⟩
      let o ← loopN t.columns.length (fun k (o : Crs α × List Bool) => do
        let j ← t.columns[k]?
        let v ← t.valueTmp[j]?
        let ex ← setAt o.2 j false
        some (push o.1 j v, ex)) (a, t.examined)
      some (o.1, s.2.1 + t.columns.length, t.valueTmp, o.2))
    (resize2 n c, 0, List.replicate c 0, List.replicate c false)
    ⟨[], rfl, built_resize2 n c, rfl, by simp, rfl, by simp, by simp, by simp⟩ (by
      rintro i ⟨m, cnt, vt, ex⟩ hi ⟨rows, g1, g2, g3, g4, g5, g6, g7, g8⟩
      simp only at g2 g3 g4 g5
      obtain ⟨a, e1, e2⟩ := g2.newRow i g1.symm hi cnt g3
      obtain ⟨t, e3, e4⟩ := loopN_inv
        (fun k (t : SumState α) => SumInv t c (sumTerms (Bs.take k) i)) (Bs.map fun q => q.1).length
        (fun imat (t : SumState α) => do
          let B ← (Bs.map fun q => q.1)[imat]?
          let n ← rowCount? B i
          if n ≥ 1 then
            let b1 ← (Bs.map fun q => q.2)[imat]?
            rowLoop? B i (fun j v t => sumStep j (v * b1) t) t
          else some t) ⟨vt, ex, []⟩
        ⟨g4, by simp [g5], by simp, by simp, by simp [sumTerms], by
          intro j hj; simp [g5, hj], by simp⟩ (by
          intro k t hk ht
          rw [List.length_map] at hk
          have hq : Bs[k] ∈ Bs := List.getElem_mem hk
          simp only [List.getElem?_map, List.getElem?_eq_getElem hk, Option.map_some, bind,
            Option.bind_some, (hB _ hq).rowCount?, (hB _ hq).rowLoop?]
          have hsucc : sumTerms (Bs.take (k + 1)) i = sumTerms (Bs.take k) i ++
              (row Bs[k].1 i).map fun p => (p.1, p.2 * Bs[k].2) := by
            rw [List.take_add_one, List.getElem?_eq_getElem hk, Option.toList_some]
            simp only [sumTerms, List.flatMap_append, List.flatMap_singleton]
          obtain ⟨t', q1, q2⟩ := foldlM_inv
            (fun d (t : SumState α) => SumInv t c (sumTerms (Bs.take k) i ++
              d.map fun p => (p.1, p.2 * Bs[k].2))) (row Bs[k].1 i)
            (fun t p => sumStep p.1 (p.2 * Bs[k].2) t) t (by simpa using ht) (by
              intro d p r t hd ht
              have hp : p ∈ row Bs[k].1 i := by rw [hd]; simp
              obtain ⟨t', q1, q2⟩ := sumStep_inv ht (p.1, p.2 * Bs[k].2)
                (lt_of_lt_of_le ((hB _ hq).col_lt (p := p) hp) (hcol _ hq))
              refine ⟨t', q1, ?_⟩
              rw [List.map_append, ← List.append_assoc]
              exact q2)
          rw [hsucc]
          by_cases h0 : (row Bs[k].1 i).length ≥ 1
          · rw [if_pos h0]
            exact ⟨t', q1, q2⟩
          · rw [if_neg h0]
            have : row Bs[k].1 i = [] := List.eq_nil_of_length_eq_zero (by omega)
            rw [this]
            exact ⟨t, rfl, by simpa using ht⟩)
      rw [List.length_map, List.take_length] at e4
      obtain ⟨m', e5, e6⟩ := sum_out e4 e2
      refine ⟨(m', cnt + t.columns.length, t.valueTmp, List.replicate c false), ?_,
        rows ++ [t.columns.map fun j => (j, sumAt (sumTerms Bs i) j)], by simp [g1], e6, ?_, e4.vlen, rfl,
        ?_, ?_, ?_⟩
      · rw [e1]; simp only [bind, Option.bind_some]
        simp only [bind] at e3 e5
        rw [e3]; simp only [Option.bind_some]
        rw [e5]; simp only [Option.bind_some]
      · simp only [List.flatten_append, List.length_append, g3]; simp
      · intro l hl p hp
        rcases List.mem_append.1 hl with h | h
        · exact g6 l h p hp
        · rw [List.mem_singleton] at h; subst h
          obtain ⟨j, hj, rfl⟩ := List.mem_map.1 hp
          exact e4.lt j hj
      · intro l hl
        rcases List.mem_append.1 hl with h | h
        · exact g7 l h
        · rw [List.mem_singleton] at h; subst h
          rw [List.map_map]
          simpa [Function.comp_def] using e4.nodup
      · intro k hk j
        rw [List.length_append, List.length_singleton] at hk
        by_cases e : k = rows.length
        · subst e
          rw [List.getElem_concat_length rfl, g1]
          by_cases hm : j ∈ t.columns
          · exact sumAt_eq_of_mem (p := (j, sumAt (sumTerms Bs i) j))
              (by rw [List.map_map]; simpa [Function.comp_def] using e4.nodup)
              (List.mem_map.2 ⟨j, hm, rfl⟩)
          · rw [sumAt_of_not_mem, sumAt_of_not_mem]
            · exact fun h => hm ((e4.mem j).2 h)
            · intro h
              rw [List.map_map] at h
              exact hm (by simpa [Function.comp_def] using h)
        · rw [List.getElem_append_left (by omega)]
          exact g8 k (by omega) j)
  simp only at h3 h4
  obtain ⟨m', e1, e2⟩ := h3.finish h2 cnt h4
  refine ⟨m', rows, e2, h7, h8, h9, ?_⟩
  simp only [bind] at h1
  rw [h1]; simp only [Option.bind_some]
  rw [e1]; simp only [Option.bind_some]
  rw [resize3_self e2 cnt h4]

/-! ### `fromBlockToFull` -/

theorem block_rows {B : Crs α} (h : Wf B) (nrows ncols offset : Nat) (hr : B.nrow + offset ≤ nrows) :
    ∃ (m : Crs α), IsRows m nrows ncols (List.replicate offset [] ++
      (List.range B.nrow).map (fun i => (row B i).map fun p => (p.1 + offset, p.2)) ++
      List.replicate (nrows - (B.nrow + offset)) []) ∧
      (fromBlockToFull nrows ncols B offset = (checkValidity m).bind fun _ => some m) := by
  let R : List (List (Nat × α)) := (List.range B.nrow).map fun i => (row B i).map fun p => (p.1 + offset, p.2)
  have hflat0 : ∀ k, (List.replicate k ([] : List (Nat × α))).flatten.length = 0 := by
    intro k; rw [List.flatten_replicate_nil]; rfl
  unfold fromBlockToFull
  simp only [h.nonZeros, bind, Option.bind_some]
  obtain ⟨f1, e1, g1⟩ := loopN_inv
    (fun i (f : Crs α) => Built f nrows ncols (List.replicate i [])) offset
    (fun i (f : Crs α) => setRow f i 0) (resize2 nrows ncols) (built_resize2 _ _) (by
      intro i f hi hf
      obtain ⟨m, q1, q2⟩ := hf.newRow i (by simp) (by omega) 0 (hflat0 i).symm
      refine ⟨m, q1, ?_⟩
      rw [List.replicate_succ']; exact q2)
  rw [e1]; simp only [Option.bind_some]
  obtain ⟨⟨f2, cnt⟩, e2, g2, g3⟩ := loopN_inv
    (fun ii (s : Crs α × Nat) => Built s.1 nrows ncols (List.replicate offset [] ++ R.take ii) ∧
      s.2 = (List.replicate offset [] ++ R.take ii).flatten.length) B.nrow
    (fun ii (s : Crs α × Nat) => do
      let f ← setRow s.1 (ii + offset) s.2
      rowLoop B ii (fun j v (s : Crs α × Nat) => some (push s.1 (j + offset) v, s.2 + 1)) (f, s.2)) (f1, 0)
    ⟨by simpa using g1, by rw [List.take_zero, List.append_nil, hflat0]⟩ (by
      rintro ii ⟨f, cnt⟩ hii ⟨k1, k2⟩
      simp only at k1 k2
      obtain ⟨m, q1, q2⟩ := k1.newRow (ii + offset) (by simp [R]; omega) (by omega) cnt k2
      obtain ⟨m', q3, q4⟩ := push_loop ((row B ii).map fun p => (p.1 + offset, p.2)) cnt q2
      have htake : R.take (ii + 1) = R.take ii ++ [(row B ii).map fun p => (p.1 + offset, p.2)] := by
        rw [List.take_add_one]
        simp [R, hii]
      refine ⟨(m', cnt + ((row B ii).map fun p => (p.1 + offset, p.2)).length), ?_, ?_, ?_⟩
      · rw [q1]
        simp only [bind, Option.bind_some]
        rw [h.rowLoop ii hii]
        rw [foldlM_map'] at q3
        exact q3
      · rw [htake, ← List.append_assoc]; exact q4
      · rw [htake, ← List.append_assoc, List.flatten_append, List.length_append, ← k2]; simp)
  simp only [bind] at e2
  rw [e2]; simp only [Option.bind_some]
  simp only at g2 g3
  have hRl : R.length = B.nrow := by simp [R]
  rw [List.take_of_length_le (by omega)] at g2 g3
  obtain ⟨f3, e3, g4⟩ := loopN_inv
    (fun k (f : Crs α) => Built f nrows ncols (List.replicate offset [] ++ R ++ List.replicate k []))
    (nrows - (B.nrow + offset)) (fun k f => setRow f (B.nrow + offset + k) cnt) f2 (by simpa using g2) (by
      intro k f hk hf
      obtain ⟨m, q1, q2⟩ := hf.newRow (B.nrow + offset + k) (by simp [hRl]; omega) (by omega) cnt (by
        rw [List.flatten_append, List.length_append, hflat0]; exact g3)
      refine ⟨m, q1, ?_⟩
      rw [List.replicate_succ', ← List.append_assoc]; exact q2)
  have e3' : loopFrom (B.nrow + offset) nrows (fun i f => setRow f i cnt) f2 = some f3 := by
    unfold loopFrom; exact e3
  rw [e3']; simp only [Option.bind_some]
  obtain ⟨m, q1, q2⟩ := g4.finish (by simp [hRl]; omega) cnt (by
    rw [List.flatten_append, List.length_append, hflat0]; exact g3)
  rw [q1]
  exact ⟨m, q2, rfl⟩

/-! ### `makeDiagonal` -/

theorem diag_rows [Zero α] (old : Crs α) (n : Nat) (v : α) :
    ∃ m, makeDiagonal old n v = some m ∧ IsRows m n n ((List.range n).map fun i => [(i, v)]) := by
  unfold makeDiagonal
  obtain ⟨m, h1, h2, h3, h4, h5, h6, h7⟩ := loopN_inv
    (fun k (m : Crs α) => m.rowptr.length = n + 1 ∧ m.colind.length = n ∧ m.values.length = n ∧
      m.nrow = n ∧ m.ncol = n ∧
      ∀ j, j < k → m.rowptr[j]? = some j ∧ m.colind[j]? = some j ∧ m.values[j]? = some v) n
    (fun i m => do
      let m ← setValues m i v
      let m ← setCol m i i
      setRow m i i)
    (⟨resizeL old.rowptr (n + 1) 0, resizeL old.colind n 0, resizeL old.values n 0, n, n⟩ : Crs α)
    ⟨resizeL_length _ _ _, resizeL_length _ _ _, resizeL_length _ _ _, rfl, rfl, by simp⟩ (by
      rintro i m hi ⟨g1, g2, g3, g4, g5, g6⟩
      refine ⟨⟨m.rowptr.set i i, m.colind.set i i, m.values.set i v, m.nrow, m.ncol⟩, ?_, by simp [g1],
        by simp [g2], by simp [g3], g4, g5, ?_⟩
      · simp only [setValues, setCol, setRow, setAt_some (show i < m.values.length by omega),
          setAt_some (show i < m.colind.length by omega), setAt_some (show i < m.rowptr.length by omega),
          Option.map_some, bind, Option.bind_some]
      · intro j hj
        simp only
        by_cases e : i = j
        · subst e
          rw [List.getElem?_set_self (by omega), List.getElem?_set_self (by omega),
            List.getElem?_set_self (by omega)]
          exact ⟨rfl, rfl, rfl⟩
        · rw [List.getElem?_set_ne e, List.getElem?_set_ne e, List.getElem?_set_ne e]
          exact g6 j (by omega))
  simp only [bind] at h1 ⊢
  rw [h1]
  simp only [Option.bind_some]
  have hfl : ((List.range n).map fun i => [(i, v)]).flatten = (List.range n).map fun i => (i, v) := by
    rw [← List.flatMap_def, List.map_eq_flatMap]
  refine ⟨{ m with rowptr := m.rowptr.set n n }, by simp [setRow, setAt_some (show n < m.rowptr.length by omega)],
    h5, h6, by simp, by simp [h2], ?_, ?_, ?_⟩
  · intro j hj
    have hpos : pos ((List.range n).map fun i => [(i, v)]) j = j := by
      unfold pos
      rw [← List.map_take, List.take_range, ← List.flatMap_def]
      simp; omega
    rw [hpos]
    simp only
    by_cases e : n = j
    · subst e; rw [List.getElem?_set_self (by omega)]
    · rw [List.getElem?_set_ne e]; exact (h7 j (by omega)).1
  · rw [hfl, List.map_map]
    apply List.ext_getElem?
    intro j
    simp only
    by_cases hj : j < n
    · rw [(h7 j hj).2.1]; simp [hj]
    · rw [List.getElem?_eq_none (by omega), List.getElem?_eq_none (by simp; omega)]
  · rw [hfl, List.map_map]
    apply List.ext_getElem?
    intro j
    simp only
    by_cases hj : j < n
    · rw [(h7 j hj).2.2]; simp [hj]
    · rw [List.getElem?_eq_none (by omega), List.getElem?_eq_none (by simp; omega)]

end Verif.Crs
