import Verif.Crs.LemmasMul

namespace Verif.Crs

open Verif.Loop

variable {α σ : Type}

/-! ### The counting-and-scattering pattern -/

/-- What triples `(row, column, value)` put into row `i`. -/
def pick (T : List (Nat × Nat × α)) (i : Nat) : List (Nat × α) :=
  (T.filter fun t => t.1 = i).map fun t => t.2

/-- The rows made of triples. -/
def rowsOf (n : Nat) (T : List (Nat × Nat × α)) : List (List (Nat × α)) := (List.range n).map (pick T)

theorem pick_snoc (T : List (Nat × Nat × α)) (a : Nat × Nat × α) (i : Nat) :
    pick (T ++ [a]) i = pick T i ++ if a.1 = i then [a.2] else [] := by
  unfold pick
  by_cases h : a.1 = i <;> simp [h]

theorem pick_append (T T' : List (Nat × Nat × α)) (i : Nat) :
    pick (T ++ T') i = pick T i ++ pick T' i := by simp [pick]

theorem pos_mono (rows : List (List (Nat × α))) {i j : Nat} (h : i ≤ j) : pos rows i ≤ pos rows j := by
  unfold pos
  rw [← Nat.add_sub_cancel' h, List.take_add, List.flatten_append, List.length_append]
  omega

theorem pos_bound (rows : List (List (Nat × α))) {i t : Nat} (hi : i < rows.length)
    (ht : t < rows[i].length) : pos rows i + t < rows.flatten.length := by
  rw [← pos_length]
  have := pos_mono rows (i := i + 1) (j := rows.length) hi
  rw [pos_succ _ _ hi] at this
  omega

theorem pos_inj (rows : List (List (Nat × α))) {i j t u : Nat} (hi : i < rows.length)
    (hj : j < rows.length) (ht : t < rows[i].length) (hu : u < rows[j].length)
    (h : pos rows i + t = pos rows j + u) : i = j ∧ t = u := by
  have hij : i = j := by
    rcases Nat.lt_trichotomy i j with hlt | he | hgt
    · have := pos_mono rows (i := i + 1) (j := j) hlt
      rw [pos_succ _ _ hi] at this; omega
    · exact he
    · have := pos_mono rows (i := j + 1) (j := i) hgt
      rw [pos_succ _ _ hj] at this; omega
  subst hij
  exact ⟨rfl, by omega⟩

theorem flatten_get (rows : List (List (Nat × α))) {i t : Nat} (hi : i < rows.length)
    (ht : t < rows[i].length) : rows.flatten[pos rows i + t]? = some rows[i][t] := by
  have e := flatten_drop_take rows i hi
  have : ((rows.flatten.drop (pos rows i)).take rows[i].length)[t]? = some rows[i][t] := by
    rw [e]; exact List.getElem?_eq_getElem ht
  rw [List.getElem?_take_of_lt ht, List.getElem?_drop] at this
  exact this

theorem pos_cover (rows : List (List (Nat × α))) (k : Nat) (hk : k < rows.flatten.length) :
    ∃ i t, ∃ hi : i < rows.length, t < rows[i].length ∧ k = pos rows i + t := by
  induction rows using List.reverseRecOn with
  | nil => simp at hk
  | append_singleton rows l ih =>
    by_cases h : k < rows.flatten.length
    · obtain ⟨i, t, hi, ht, rfl⟩ := ih h
      refine ⟨i, t, by simp; omega, ?_, ?_⟩
      · rw [List.getElem_append_left hi]; exact ht
      · rw [pos_append _ _ _ (by omega)]
    · refine ⟨rows.length, k - rows.flatten.length, by simp, ?_, ?_⟩
      · rw [List.flatten_append, List.length_append] at hk
        simp at hk ⊢
        simp at h
        omega
      · rw [pos_append _ _ _ le_rfl, pos_length]; omega

theorem eq_flatten_map {β : Type} (rows : List (List (Nat × α))) (f : Nat × α → β) (X : List β)
    (hl : X.length = rows.flatten.length)
    (h : ∀ i t (hi : i < rows.length) (ht : t < rows[i].length),
      X[pos rows i + t]? = some (f rows[i][t])) : X = rows.flatten.map f := by
  apply List.ext_getElem?
  intro k
  by_cases hk : k < rows.flatten.length
  · obtain ⟨i, t, hi, ht, rfl⟩ := pos_cover rows k hk
    rw [h i t hi ht, List.getElem?_map, flatten_get rows hi ht]; rfl
  · rw [List.getElem?_eq_none (by omega), List.getElem?_eq_none (by rw [List.length_map]; omega)]

theorem setPtrs_spec (n : Nat) (counts : List Nat) (b : Crs α) (rows : List (List (Nat × α)))
    (hr : rows.length = n) (hc : ∀ i (h : i < rows.length), counts[i]? = some rows[i].length)
    (hb : b.rowptr.length = n + 1) :
    ∃ b', setPtrs n counts b = some (b', rows.flatten.length) ∧ b'.rowptr.length = n + 1 ∧
      (∀ j, j < n → b'.rowptr[j]? = some (pos rows j)) ∧ b'.colind = b.colind ∧
      b'.values = b.values ∧ b'.nrow = b.nrow ∧ b'.ncol = b.ncol := by
  unfold setPtrs
  obtain ⟨⟨b', p⟩, h1, h2, h3, h4, h5, h6, h7, h8⟩ := loopN_inv
    (fun i (s : Crs α × Nat) => s.2 = pos rows i ∧ s.1.rowptr.length = n + 1 ∧
      (∀ j, j < i → s.1.rowptr[j]? = some (pos rows j)) ∧ s.1.colind = b.colind ∧
      s.1.values = b.values ∧ s.1.nrow = b.nrow ∧ s.1.ncol = b.ncol) n
    (fun ib (s : Crs α × Nat) => do
      let b ← setRow s.1 ib s.2
      let c ← counts[ib]?
      some (b, s.2 + c)) (b, 0) ⟨by simp [pos], hb, by simp, rfl, rfl, rfl, rfl⟩ (by
      rintro i ⟨m, p⟩ hi ⟨hp, hl, hj, h4, h5, h6, h7⟩
      simp only at hp hl hj h4 h5 h6 h7
      have hi' : i < rows.length := by omega
      refine ⟨({ m with rowptr := m.rowptr.set i p }, p + rows[i].length), ?_, ?_, by simp [hl], ?_,
        h4, h5, h6, h7⟩
      · simp only [setRow, setAt_some (show i < m.rowptr.length by omega), Option.map_some, hc i hi',
          bind, Option.bind_some]
      · rw [pos_succ _ _ hi', hp]
      · intro j hj'
        simp only
        by_cases e : i = j
        · subst e; rw [List.getElem?_set_self (by omega), hp]
        · rw [List.getElem?_set_ne e]; exact hj j (by omega))
  rw [← hr, pos_length] at h2
  simp only at h2
  subst h2
  exact ⟨b', h1, h3, h4, h5, h6, h7, h8⟩

theorem scatter_spec (n c : Nat) (T : List (Nat × Nat × α)) (hT : ∀ t ∈ T, t.1 < n) (b : Crs α)
    (start : List Nat)
    (hb1 : b.rowptr.length = n + 1) (hb2 : ∀ j, j ≤ n → b.rowptr[j]? = some (pos (rowsOf n T) j))
    (hb3 : b.colind.length = (rowsOf n T).flatten.length)
    (hb4 : b.values.length = (rowsOf n T).flatten.length) (hb5 : b.nrow = n) (hb6 : b.ncol = c)
    (hs : start = b.rowptr.take n) :
    ∃ b' s', T.foldlM (fun s t => scatterStep t.1 t.2.1 t.2.2 s) (b, start) = some (b', s') ∧
      IsRows b' n c (rowsOf n T) := by
  set rows := rowsOf n T with hrows
  have hrl : rows.length = n := by simp [hrows, rowsOf]
  have hri : ∀ i (h : i < rows.length), rows[i] = pick T i := by
    intro i h; simp [hrows, rowsOf]
  obtain ⟨⟨b', s'⟩, h1, h2, h3, h4, h5, h6, h7, h8⟩ := foldlM_inv
    (fun d (s : Crs α × List Nat) => s.1.rowptr = b.rowptr ∧ s.1.nrow = b.nrow ∧ s.1.ncol = b.ncol ∧
      s.1.colind.length = rows.flatten.length ∧ s.1.values.length = rows.flatten.length ∧
      (s.2.length = n ∧ ∀ i, i < n → s.2[i]? = some (pos rows i + (pick d i).length)) ∧
      ∀ i t, i < n → ∀ ht : t < (pick d i).length,
        s.1.colind[pos rows i + t]? = some (pick d i)[t].1 ∧
        s.1.values[pos rows i + t]? = some (pick d i)[t].2) T
    (fun s t => scatterStep t.1 t.2.1 t.2.2 s) (b, start)
    ⟨rfl, rfl, rfl, hb3, hb4, ⟨by simp [hs, hb1], by
      intro i hi
      simp only [hs]
      rw [List.getElem?_take_of_lt hi, hb2 i (by omega)]; simp [pick]⟩, by simp [pick]⟩ (by
      rintro d a r ⟨m, s⟩ hd ⟨g1, g2, g3, g4, g5, ⟨g6, g7⟩, g8⟩
      simp only at g1 g2 g3 g4 g5 g6 g7 g8
      obtain ⟨ib, jb, v⟩ := a
      have hib : ib < n := hT (ib, jb, v) (by rw [hd]; simp)
      have hib' : ib < rows.length := by omega
      have hpick : pick T ib = pick d ib ++ (jb, v) :: pick r ib := by
        rw [hd, show d ++ (ib, jb, v) :: r = d ++ [(ib, jb, v)] ++ r by simp, pick_append, pick_snoc]
        simp
      have hlt : (pick d ib).length < rows[ib].length := by
        rw [hri ib hib', hpick]; simp
      have hip := pos_bound rows hib' hlt
      refine ⟨({ m with colind := m.colind.set (pos rows ib + (pick d ib).length) jb,
                        values := m.values.set (pos rows ib + (pick d ib).length) v },
          s.set ib (pos rows ib + (pick d ib).length + 1)), ?_, g1, g2, g3, by simp [g4], by simp [g5],
          ⟨by simp [g6], ?_⟩, ?_⟩
      · unfold scatterStep
        simp only [g7 ib hib, bind, Option.bind_some, setCol, setValues]
        rw [setAt_some (by omega)]
        simp only [Option.map_some, Option.bind_some]
        rw [setAt_some (by omega)]
        simp only [Option.map_some, Option.bind_some]
        rw [updAt, g7 ib hib]
        simp only [Option.map_some, Option.bind_some]
      · intro i hi
        simp only
        rw [pick_snoc]
        by_cases e : ib = i
        · subst e
          rw [List.getElem?_set_self (by omega)]; simp; omega
        · rw [List.getElem?_set_ne e, g7 i hi]; simp [e]
      · intro i t hi ht
        simp only
        by_cases e : ib = i ∧ t = (pick d ib).length
        · obtain ⟨rfl, rfl⟩ := e
          rw [List.getElem?_set_self (by omega), List.getElem?_set_self (by omega)]
          have e : (pick (d ++ [(ib, jb, v)]) ib)[(pick d ib).length]'ht = (jb, v) := by
            simp [pick_snoc]
          rw [e]
          exact ⟨rfl, rfl⟩
        · have ht' : t < (pick d i).length := by
            rw [pick_snoc] at ht
            by_cases e' : ib = i
            · subst e'
              simp at ht e
              omega
            · simpa [e'] using ht
          have hne : pos rows ib + (pick d ib).length ≠ pos rows i + t := by
            intro h
            have hi' : i < rows.length := by omega
            have hti : t < rows[i].length := by
              rw [hri i hi', hd, pick_append]; simp; omega
            obtain ⟨rfl, rfl⟩ := pos_inj rows hib' hi' hlt hti h
            exact e ⟨rfl, rfl⟩
          rw [List.getElem?_set_ne hne, List.getElem?_set_ne hne]
          have e2 : (pick (d ++ [(ib, jb, v)]) i)[t]'ht = (pick d i)[t] := by
            simp only [pick_snoc]
            rw [List.getElem_append_left ht']
          rw [e2]
          exact g8 i t hi ht')
  refine ⟨b', s', h1, h3.trans hb5, h4.trans hb6, hrl, by rw [h2, hb1], ?_, ?_, ?_⟩
  · intro j hj
    simp only at h2
    rw [h2]; exact hb2 j hj
  · refine eq_flatten_map rows (fun p => p.1) b'.colind h5 ?_
    intro i t hi ht
    have hi' : i < n := by omega
    have ht' : t < (pick T i).length := by rw [← hri i hi]; exact ht
    have := (h8 i t hi' ht').1
    simp only at this
    rw [this]
    simp only [hri i hi]
  · refine eq_flatten_map rows (fun p => p.2) b'.values h6 ?_
    intro i t hi ht
    have hi' : i < n := by omega
    have ht' : t < (pick T i).length := by rw [← hri i hi]; exact ht
    have := (h8 i t hi' ht').2
    simp only at this
    rw [this]
    simp only [hri i hi]

theorem rowsOf_flatten_length (n : Nat) (T : List (Nat × Nat × α)) (hT : ∀ t ∈ T, t.1 < n) :
    (rowsOf n T).flatten.length = T.length := by
  induction T using List.reverseRecOn with
  | nil =>
    have e : ∀ n, rowsOf n ([] : List (Nat × Nat × α)) = List.replicate n [] := by
      intro n; rw [rowsOf, List.eq_replicate_iff]; simp [pick]
    rw [e, List.flatten_replicate_nil]; rfl
  | append_singleton T a ih =>
    have ha : a.1 < n := hT a (by simp)
    have ih' := ih (fun t ht => hT t (by simp [ht]))
    rw [rowsOf, List.length_flatten, List.map_map] at ih' ⊢
    have e : (List.map (List.length ∘ pick (T ++ [a])) (List.range n)).sum =
        (List.map (fun i => (pick T i).length + if a.1 = i then 1 else 0) (List.range n)).sum := by
      congr 1
      apply List.map_congr_left
      intro i _
      simp only [Function.comp, pick_snoc, List.length_append]
      by_cases h : a.1 = i <;> simp [h]
    rw [e, List.sum_map_add]
    simp only [Function.comp_def] at ih'
    rw [ih', List.length_append, List.length_singleton]
    congr 1
    have : ∀ m, m ≤ n → (List.map (fun i => if a.1 = i then 1 else 0) (List.range m)).sum =
        if a.1 < m then 1 else 0 := by
      intro m
      induction m with
      | zero => simp
      | succ m ihm =>
        intro hm
        rw [List.range_succ, List.map_append, List.sum_append, ihm (by omega)]
        simp only [List.map_cons, List.map_nil, List.sum_cons, List.sum_nil]
        split_ifs <;> omega
    rw [this n le_rfl, if_pos ha]

/-! ### Conjugate transpose -/

/-- All elements of `A` as (row, column, value). -/
def triples (A : Crs α) : List (Nat × Nat × α) :=
  (List.range A.nrow).flatMap fun ia => (row A ia).map fun p => (ia, p.1, p.2)

theorem triples_length {A : Crs α} (h : Wf A) : (triples A).length = A.colind.length := by
  have h1 := h.isRows.cols
  have h2 : (triples A).length = ((List.range A.nrow).map (row A)).flatten.length := by
    simp [triples, List.length_flatMap, List.length_flatten, Function.comp_def]
  rw [h2]
  conv_rhs => rw [h1, List.length_map]

theorem nested_foldlM {A : Crs α} (h : Wf A) (f : Nat → Nat → α → σ → Option σ) (s : σ) :
    loopN A.nrow (fun ia s => rowLoop A ia (fun ja v s => f ia ja v s) s) s =
      (triples A).foldlM (fun s t => f t.1 t.2.1 t.2.2 s) s := by
  rw [triples, foldlM_flatMap, loopN_foldlM]
  refine foldlM_congr _ _ _ _ (fun s ia hia => ?_)
  rw [h.rowLoop ia (List.mem_range.1 hia), foldlM_map']

theorem triples_lt {A : Crs α} (h : Wf A) : ∀ t ∈ triples A, t.1 < A.nrow ∧ t.2.1 < A.ncol := by
  intro t ht
  obtain ⟨ia, hia, ht'⟩ := List.mem_flatMap.1 ht
  obtain ⟨p, hp, rfl⟩ := List.mem_map.1 ht'
  exact ⟨List.mem_range.1 hia, h.col_lt hp⟩

theorem Wf.nonZeros {A : Crs α} (h : Wf A) : nonZeros A = some A.colind.length := by
  unfold Crs.nonZeros
  have hp : A.rowptr[A.nrow]? = some A.colind.length := by
    rw [ptr_eq A _ (by rw [h.rowptr_length]; omega), h.finish]
  by_cases hn : A.nrow ≥ 1
  · rw [if_pos hn, if_pos]
    refine ⟨by rw [h.rowptr_length]; omega, hp, by rw [hp, h.values_length]⟩
  · rw [if_neg hn]
    have h0 : A.nrow = 0 := by omega
    have := h.finish
    rw [h0, h.start] at this
    rw [← this]

theorem count_loop {n : Nat} (T : List (Nat × Nat × α)) (hT : ∀ t ∈ T, t.1 < n) :
    ∃ cnt, T.foldlM (fun (cnt : List Nat) t => updAt cnt t.1 (· + 1)) (List.replicate n 0) = some cnt ∧
      cnt.length = n ∧ ∀ i, i < n → cnt[i]? = some (pick T i).length := by
  obtain ⟨cnt, h1, h2, h3⟩ := foldlM_inv
    (fun d (cnt : List Nat) => cnt.length = n ∧ ∀ i, i < n → cnt[i]? = some (pick d i).length) T
    (fun (cnt : List Nat) t => updAt cnt t.1 (· + 1)) (List.replicate n 0)
    ⟨by simp, fun i hi => by simp [hi, pick]⟩ (by
      rintro d a r cnt hd ⟨hl, hk⟩
      have ha : a.1 < n := hT a (by rw [hd]; simp)
      refine ⟨cnt.set a.1 ((pick d a.1).length + 1), ?_, by simp [hl], ?_⟩
      · rw [updAt, hk a.1 ha]; rfl
      · intro i hi
        rw [pick_snoc]
        by_cases e : a.1 = i
        · subst e; rw [List.getElem?_set_self (by omega)]; simp
        · rw [List.getElem?_set_ne e, hk i hi]; simp [e])
  exact ⟨cnt, h1, h2, h3⟩

/-- The triples of the conjugate transpose. -/
def tcTriples [Star α] (A : Crs α) : List (Nat × Nat × α) :=
  (triples A).map fun t => (t.2.1, t.1, star t.2.2)

theorem tc_rows [Star α] [Zero α] {A : Crs α} (h : Wf A) (old : Crs α) :
    ∃ m, transposeConjugate old A = some m ∧ IsRows m A.ncol A.nrow (rowsOf A.ncol (tcTriples A)) := by
  have hT : ∀ t ∈ tcTriples A, t.1 < A.ncol := by
    intro t ht
    obtain ⟨u, hu, rfl⟩ := List.mem_map.1 ht
    exact (triples_lt h u hu).2
  have hlen : (rowsOf A.ncol (tcTriples A)).flatten.length = A.colind.length := by
    rw [rowsOf_flatten_length _ _ hT, tcTriples, List.length_map, triples_length h]
  obtain ⟨cnt, c1, c2, c3⟩ := count_loop (tcTriples A) hT
  have c1' : loopN A.nrow (fun ia cnt => rowLoop A ia (fun ja _ cnt => updAt cnt ja (· + 1)) cnt)
      (List.replicate A.ncol 0) = some cnt := by
    rw [← c1, nested_foldlM h (fun _ ja _ cnt => updAt cnt ja (· + 1)), tcTriples, foldlM_map']
  obtain ⟨b', e1, e2, e3, e4, e5, e6, e7⟩ := setPtrs_spec A.ncol cnt (resize3 old A.ncol A.nrow A.colind.length)
    (rowsOf A.ncol (tcTriples A)) (by simp [rowsOf]) (by
      intro i hi
      rw [c3 i (by simpa [rowsOf] using hi)]
      simp [rowsOf]) (by simp only [resize3]; rw [resizeL_length])
  let b2 : Crs α := { b' with rowptr := b'.rowptr.set A.ncol A.colind.length }
  have hset : setRow b' A.ncol A.colind.length = some b2 := by
    simp [setRow, setAt_some (show A.ncol < b'.rowptr.length by omega), b2]
  obtain ⟨m, s', e8, e9⟩ := scatter_spec A.ncol A.nrow (tcTriples A) hT b2 (b2.rowptr.take A.ncol)
    (by simp [b2, e2]) (by
      intro j hj
      simp only [b2]
      by_cases e : A.ncol = j
      · subst e
        rw [List.getElem?_set_self (by omega)]
        have := pos_length (rowsOf A.ncol (tcTriples A))
        rw [show (rowsOf A.ncol (tcTriples A)).length = A.ncol by simp [rowsOf]] at this
        rw [this, hlen]
      · rw [List.getElem?_set_ne e]; exact e3 j (by omega))
    (by simp only [b2, e4, resize3]; rw [resizeL_length, hlen])
    (by simp only [b2, e5, resize3]; rw [resizeL_length, hlen])
    (by simp only [b2, e6, resize3]) (by simp only [b2, e7, resize3]) rfl
  refine ⟨m, ?_, e9⟩
  unfold transposeConjugate
  simp only [h.nonZeros, bind, Option.bind_some, c1', e1]
  rw [if_neg (by rw [hlen]; simp), hset]
  simp only [Option.bind_some]
  rw [nested_foldlM h (fun ia ja v s => scatterStep ja ia (star v) s)]
  rw [tcTriples, foldlM_map'] at e8
  rw [e8]; rfl

theorem sumAt_pick_tc [AddCommMonoid α] [StarAddMonoid α] {A : Crs α} (i j : Nat)
    (hj : j < A.nrow) : sumAt (pick (tcTriples A) i) j = star (entry A j i) := by
  have key : ∀ n, n ≤ A.nrow → sumAt (pick (((List.range n).flatMap fun ia =>
      (row A ia).map fun p => (ia, p.1, p.2)).map fun t => (t.2.1, t.1, star t.2.2)) i) j =
      if j < n then star (entry A j i) else 0 := by
    intro n
    induction n with
    | zero => simp [pick]
    | succ n ih =>
      intro hn
      rw [List.range_succ, List.flatMap_append, List.map_append, pick_append, sumAt_append, ih (by omega)]
      have e : ∀ l : List (Nat × α), sumAt (pick ((l.map fun p => (n, p.1, p.2)).map
          fun t => (t.2.1, t.1, star t.2.2)) i) j = if n = j then star (sumAt l i) else 0 := by
        intro l
        induction l with
        | nil => simp [pick]
        | cons p l ihl =>
          rw [List.map_cons, List.map_cons,
            show ∀ (a : Nat × Nat × α) (b : List _), a :: b = [a] ++ b from fun _ _ => rfl, pick_append,
            sumAt_append, ihl, sumAt_cons, star_add]
          by_cases h1 : p.1 = i <;> by_cases h2 : n = j <;> simp [pick, h1, h2, sumAt_cons]
      simp only [List.flatMap_cons, List.flatMap_nil, List.append_nil]
      rw [e]
      by_cases h1 : j < n
      · rw [if_pos h1, if_neg (by omega), if_pos (by omega), add_zero]
      · by_cases h2 : n = j
        · rw [if_neg h1, if_pos h2, if_pos (by omega), zero_add, h2]; rfl
        · rw [if_neg h1, if_neg h2, if_neg (by omega), add_zero]
  have := key A.nrow le_rfl
  rw [if_pos hj] at this
  exact this

theorem pick_cols_lt {n : Nat} {T : List (Nat × Nat × α)} {c : Nat} (hT : ∀ t ∈ T, t.2.1 < c) :
    ∀ l ∈ rowsOf n T, ∀ p ∈ l, p.1 < c := by
  intro l hl p hp
  obtain ⟨i, -, rfl⟩ := List.mem_map.1 hl
  obtain ⟨t, ht, rfl⟩ := List.mem_map.1 hp
  exact hT t (List.mem_of_mem_filter ht)

theorem pick_nodup {T : List (Nat × Nat × α)} (h : (T.map fun t => (t.1, t.2.1)).Nodup) (i : Nat) :
    ((pick T i).map fun p => p.1).Nodup := by
  induction T with
  | nil => simp [pick]
  | cons t T ih =>
    rw [List.map_cons, List.nodup_cons] at h
    rw [show t :: T = [t] ++ T from rfl, pick_append]
    by_cases e : t.1 = i
    · have : pick [t] i = [t.2] := by simp [pick, e]
      rw [this, List.singleton_append, List.map_cons, List.nodup_cons]
      refine ⟨?_, ih h.2⟩
      intro hm
      obtain ⟨p, hp, he⟩ := List.mem_map.1 hm
      obtain ⟨u, hu, rfl⟩ := List.mem_map.1 hp
      apply h.1
      rw [List.mem_map]
      refine ⟨u, List.mem_of_mem_filter hu, ?_⟩
      have := (List.mem_filter.1 hu).2
      simp only [decide_eq_true_eq] at this
      rw [this, he, e]
    · have : pick [t] i = [] := by simp [pick, e]
      rw [this, List.nil_append]
      exact ih h.2

theorem triples_nodup {A : Crs α} (h : Valid A) : ((triples A).map fun t => (t.1, t.2.1)).Nodup := by
  unfold triples
  rw [List.map_flatMap, List.nodup_flatMap]
  refine ⟨?_, ?_⟩
  · intro ia hia
    rw [List.map_map]
    have := h.nodup ia (List.mem_range.1 hia)
    have e : List.map ((fun t : Nat × Nat × α => (t.1, t.2.1)) ∘ fun p : Nat × α => (ia, p.1, p.2)) (row A ia)
        = ((row A ia).map fun p => p.1).map fun j => (ia, j) := by
      rw [List.map_map]; rfl
    rw [e]
    exact this.map (fun a b h => (Prod.mk.inj h).2)
  · refine List.Pairwise.imp_of_mem ?_ List.nodup_range
    intro a b _ _ hab x hx hy
    obtain ⟨t, ht, rfl⟩ := List.mem_map.1 hx
    obtain ⟨p, -, rfl⟩ := List.mem_map.1 ht
    obtain ⟨t', ht', he⟩ := List.mem_map.1 hy
    obtain ⟨p', -, rfl⟩ := List.mem_map.1 ht'
    simp only [Prod.mk.injEq] at he
    exact hab he.1.symm

end Verif.Crs
