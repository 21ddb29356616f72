import Verif.Crs.Spec
import Verif.Dense.Lemmas
import Mathlib.Algebra.BigOperators.Group.List.Basic
import Mathlib.Tactic.Ring

namespace Verif.Crs

open Verif.Loop

variable {α σ β : Type}

/-! ### Loops as folds over lists -/

theorem loopN_foldlM (n : Nat) (f : Nat → σ → Option σ) (s : σ) :
    loopN n f s = (List.range n).foldlM (fun s i => f i s) s := by
  induction n with
  | zero => rfl
  | succ n ih =>
    rw [loopN, ih, List.range_succ, List.foldlM_append]
    simp [bind]

theorem foldlM_flatMap (l : List β) (g : β → List α) (f : σ → α → Option σ) (s : σ) :
    (l.flatMap g).foldlM f s = l.foldlM (fun s a => (g a).foldlM f s) s := by
  induction l generalizing s with
  | nil => rfl
  | cons a l ih =>
    rw [List.flatMap_cons, List.foldlM_append, List.foldlM_cons]
    congr 1; funext s'; exact ih s'

theorem foldlM_map' (l : List β) (g : β → α) (f : σ → α → Option σ) (s : σ) :
    (l.map g).foldlM f s = l.foldlM (fun s a => f s (g a)) s := by
  induction l generalizing s with
  | nil => rfl
  | cons a l ih =>
    rw [List.map_cons, List.foldlM_cons, List.foldlM_cons]
    congr 1; funext s'; exact ih s'

/-- Invariant rule for folds: the invariant speaks about the list processed so far. -/
theorem foldlM_inv (P : List β → σ → Prop) (l : List β) (f : σ → β → Option σ) (s : σ)
    (h0 : P [] s)
    (hs : ∀ (d : List β) (a : β) (r : List β) (s : σ), l = d ++ a :: r → P d s →
      ∃ s', f s a = some s' ∧ P (d ++ [a]) s') :
    ∃ s', l.foldlM f s = some s' ∧ P l s' := by
  suffices H : ∀ (r d : List β) (s : σ), l = d ++ r → P d s → ∃ s', r.foldlM f s = some s' ∧ P l s' from
    H l [] s rfl h0
  intro r
  induction r with
  | nil => intro d s hl hp; exact ⟨s, rfl, by rw [hl, List.append_nil]; exact hp⟩
  | cons a r ih =>
    intro d s hl hp
    obtain ⟨s1, h1, h2⟩ := hs d a r s hl hp
    obtain ⟨s2, h3, h4⟩ := ih (d ++ [a]) s1 (by simp [hl]) h2
    exact ⟨s2, by rw [List.foldlM_cons, h1]; exact h3, h4⟩

theorem foldlM_congr (l : List β) (f g : σ → β → Option σ) (s : σ)
    (h : ∀ s a, a ∈ l → f s a = g s a) : l.foldlM f s = l.foldlM g s := by
  induction l generalizing s with
  | nil => rfl
  | cons a l ih =>
    rw [List.foldlM_cons, List.foldlM_cons, h s a (by simp)]
    congr 1; funext s'
    exact ih s' (fun s a ha => h s a (by simp [ha]))

/-! ### Rows -/

theorem loop_zip (cs : List Nat) (vs : List α) (h : vs.length = cs.length) (lo n : Nat)
    (hn : lo + n ≤ cs.length) (f : Nat → α → σ → Option σ) (s : σ) :
    loopN n (fun k s => do
      let c ← cs[lo + k]?
      let v ← vs[lo + k]?
      f c v s) s = (((cs.zip vs).drop lo).take n).foldlM (fun s p => f p.1 p.2 s) s := by
  induction n with
  | zero => simp [loopN]
  | succ n ih =>
    have hlt : n < ((cs.zip vs).drop lo).length := by simp [h]; omega
    rw [loopN, ih (by omega), List.take_succ_eq_append_getElem hlt, List.foldlM_append]
    simp only [bind]
    congr 1; funext s'
    have h1 : lo + n < cs.length := by omega
    have h2 : lo + n < vs.length := by omega
    simp [List.getElem?_eq_getElem h1, List.getElem?_eq_getElem h2, bind]

theorem ptr_eq (m : Crs α) (i : Nat) (h : i < m.rowptr.length) : m.rowptr[i]? = some (ptr m i) := by
  simp [ptr, List.getElem?_eq_getElem h]

theorem Wf.ptr_le {m : Crs α} (h : Wf m) (i : Nat) (hi : i ≤ m.nrow) : ptr m i ≤ m.colind.length := by
  rw [← h.finish]
  suffices H : ∀ d, i + d ≤ m.nrow → ptr m i ≤ ptr m (i + d) by
    have := H (m.nrow - i) (by omega)
    rwa [Nat.add_sub_cancel' hi] at this
  intro d
  induction d with
  | zero => simp
  | succ d ih =>
    intro hd
    exact le_trans (ih (by omega)) (h.mono (i + d) (by omega))

theorem Wf.rowLoop {m : Crs α} (h : Wf m) (i : Nat) (hi : i < m.nrow) (f : Nat → α → σ → Option σ)
    (s : σ) : rowLoop m i f s = (row m i).foldlM (fun s p => f p.1 p.2 s) s := by
  unfold Crs.rowLoop
  rw [ptr_eq m i (by rw [h.rowptr_length]; omega), ptr_eq m (i + 1) (by rw [h.rowptr_length]; omega)]
  simp only [bind, Option.bind_some]
  unfold loopFrom row
  have := h.mono i hi
  have h2 := h.ptr_le (i + 1) (by omega)
  exact loop_zip m.colind m.values h.values_length _ _ (by omega) f s

theorem row_col_mem {m : Crs α} {i : Nat} {p : Nat × α} (hp : p ∈ row m i) : p.1 ∈ m.colind := by
  have h1 := List.mem_of_mem_drop (List.mem_of_mem_take hp)
  exact (List.of_mem_zip h1).1

theorem Wf.col_lt {m : Crs α} (h : Wf m) {i : Nat} {p : Nat × α} (hp : p ∈ row m i) : p.1 < m.ncol :=
  h.cols _ (row_col_mem hp)

theorem row_out {m : Crs α} (h : Wf m) (i : Nat) (hi : m.nrow ≤ i) : row m i = [] := by
  unfold row
  have : ptr m (i + 1) = 0 := by
    have hl : m.rowptr.length ≤ i + 1 := by rw [h.rowptr_length]; omega
    simp [ptr, List.getElem?_eq_none hl]
  simp [this]

/-! ### Sums -/

section
variable [AddCommMonoid α]

@[simp] theorem sumAt_nil (j : Nat) : sumAt ([] : List (Nat × α)) j = 0 := rfl

theorem sumAt_cons (p : Nat × α) (l : List (Nat × α)) (j : Nat) :
    sumAt (p :: l) j = (if p.1 = j then p.2 else 0) + sumAt l j := by
  unfold sumAt
  by_cases h : p.1 = j <;> simp [h]

theorem sumAt_append (l l' : List (Nat × α)) (j : Nat) :
    sumAt (l ++ l') j = sumAt l j + sumAt l' j := by
  simp [sumAt]

theorem sumAt_snoc (l : List (Nat × α)) (p : Nat × α) (j : Nat) :
    sumAt (l ++ [p]) j = sumAt l j + (if p.1 = j then p.2 else 0) := by
  rw [sumAt_append, sumAt_cons]; simp

theorem sumAt_of_not_mem {l : List (Nat × α)} {j : Nat} (h : j ∉ l.map fun p => p.1) :
    sumAt l j = 0 := by
  unfold sumAt
  rw [List.filter_eq_nil_iff.2]
  · rfl
  · intro p hp
    simp only [decide_eq_true_eq]
    rintro rfl
    exact h (List.mem_map_of_mem hp)

theorem sumAt_eq_of_mem {l : List (Nat × α)} (hn : (l.map fun p => p.1).Nodup) {p : Nat × α}
    (hp : p ∈ l) : sumAt l p.1 = p.2 := by
  induction l with
  | nil => cases hp
  | cons q l ih =>
    rw [List.map_cons, List.nodup_cons] at hn
    rw [sumAt_cons]
    rcases List.mem_cons.1 hp with rfl | hp'
    · rw [if_pos rfl, sumAt_of_not_mem hn.1, add_zero]
    · rw [if_neg, zero_add]
      · exact ih hn.2 hp'
      · intro he
        exact hn.1 (he ▸ List.mem_map_of_mem (f := fun p => p.1) hp')

theorem entry_out_row {m : Crs α} (h : Wf m) (i j : Nat) (hi : m.nrow ≤ i) : entry m i j = 0 := by
  rw [entry, row_out h i hi]; rfl

theorem entry_out_col {m : Crs α} (h : Wf m) (i j : Nat) (hj : m.ncol ≤ j) : entry m i j = 0 := by
  rw [entry, sumAt_of_not_mem]
  intro hm
  obtain ⟨p, hp, rfl⟩ := List.mem_map.1 hm
  have := h.col_lt hp
  omega
end

/-! ### Objects given by a list of rows -/

/-- Position of the first element of row `j` when the rows are laid out one after the other. -/
def pos (rows : List (List (Nat × α))) (j : Nat) : Nat := (rows.take j).flatten.length

/-- `m` consists of exactly these rows. -/
structure IsRows (m : Crs α) (n c : Nat) (rows : List (List (Nat × α))) : Prop where
  nrow : m.nrow = n
  ncol : m.ncol = c
  rlen : rows.length = n
  plen : m.rowptr.length = n + 1
  ptrs : ∀ j, j ≤ n → m.rowptr[j]? = some (pos rows j)
  cols : m.colind = rows.flatten.map fun p => p.1
  vals : m.values = rows.flatten.map fun p => p.2

theorem zip_map_fst_snd (l : List (Nat × α)) :
    (l.map fun p => p.1).zip (l.map fun p => p.2) = l := by
  induction l with
  | nil => rfl
  | cons a l ih => simp [ih]

theorem pos_succ (rows : List (List (Nat × α))) (j : Nat) (h : j < rows.length) :
    pos rows (j + 1) = pos rows j + rows[j].length := by
  unfold pos
  rw [List.take_succ_eq_append_getElem h]
  simp only [List.flatten_append, List.length_append, List.flatten_cons, List.flatten_nil,
    List.append_nil]

theorem flatten_drop_take (rows : List (List (Nat × α))) (j : Nat) (h : j < rows.length) :
    (rows.flatten.drop (pos rows j)).take rows[j].length = rows[j] := by
  have e : rows.flatten = (rows.take j).flatten ++ (rows[j] ++ (rows.drop (j + 1)).flatten) := by
    conv_lhs => rw [← List.take_append_drop j rows, List.drop_eq_getElem_cons h]
    simp only [List.flatten_append, List.flatten_cons]
  rw [e]
  unfold pos
  rw [List.drop_left]
  rw [List.take_left]

theorem IsRows.ptr {m : Crs α} {n c rows} (h : IsRows m n c rows) (j : Nat) (hj : j ≤ n) :
    ptr m j = pos rows j := by
  have := h.ptrs j hj
  simp [Crs.ptr, this]

theorem IsRows.row {m : Crs α} {n c rows} (h : IsRows m n c rows) (i : Nat) (hi : i < rows.length) :
    row m i = rows[i] := by
  have hn := h.rlen
  unfold Crs.row
  rw [h.ptr i (by omega), h.ptr (i + 1) (by omega), h.cols, h.vals, zip_map_fst_snd, pos_succ _ _ hi,
    Nat.add_sub_cancel_left]
  exact flatten_drop_take rows i hi

theorem IsRows.row_getD {m : Crs α} {n c rows} (h : IsRows m n c rows) (i : Nat) (hi : i < n) :
    Crs.row m i = rows.getD i [] := by
  have hl : i < rows.length := by rw [h.rlen]; exact hi
  rw [h.row i hl]
  simp [hl]

theorem IsRows.wf {m : Crs α} {n c rows} (h : IsRows m n c rows)
    (hc : ∀ l ∈ rows, ∀ p ∈ l, p.1 < c) : Wf m where
  rowptr_length := by rw [h.plen, h.nrow]
  start := by rw [h.ptr 0 (by omega)]; simp [pos]
  finish := by
    rw [h.nrow, h.ptr n le_rfl, h.cols, pos, ← h.rlen, List.take_length, List.length_map]
  values_length := by rw [h.vals, h.cols, List.length_map, List.length_map]
  mono := by
    intro i hi
    rw [h.nrow] at hi
    have hl : i < rows.length := by rw [h.rlen]; exact hi
    rw [h.ptr i (by omega), h.ptr (i + 1) (by omega), pos_succ _ _ hl]
    omega
  cols := by
    intro x hx
    rw [h.cols] at hx
    obtain ⟨p, hp, rfl⟩ := List.mem_map.1 hx
    obtain ⟨l, hl, hp'⟩ := List.mem_flatten.1 hp
    rw [h.ncol]
    exact hc l hl p hp'

theorem IsRows.valid {m : Crs α} {n c rows} (h : IsRows m n c rows)
    (hc : ∀ l ∈ rows, ∀ p ∈ l, p.1 < c) (hn : ∀ l ∈ rows, (l.map fun p => p.1).Nodup) : Valid m where
  toWf := h.wf hc
  nodup := by
    intro i hi
    have hl : i < rows.length := by rw [h.rlen, ← h.nrow]; exact hi
    rw [h.row i hl]
    exact hn _ (List.getElem_mem hl)

theorem flatten_rows (D : List (Nat × α)) (p : Nat → Nat) (n : Nat) (h0 : p 0 = 0)
    (hm : ∀ i, i < n → p i ≤ p (i + 1)) (hD : ∀ i, i ≤ n → p i ≤ D.length) :
    ((List.range n).map fun i => (D.drop (p i)).take (p (i + 1) - p i)).flatten = D.take (p n) := by
  induction n with
  | zero => simp [h0]
  | succ n ih =>
    rw [List.range_succ, List.map_append, List.flatten_append,
      ih (fun i hi => hm i (by omega)) (fun i hi => hD i (by omega))]
    have h1 := hm n (by omega)
    have h2 := hD (n + 1) le_rfl
    simp only [List.map_cons, List.map_nil, List.flatten_cons, List.flatten_nil, List.append_nil]
    have : p (n + 1) = p n + (p (n + 1) - p n) := by omega
    conv_rhs => rw [this, List.take_add]

/-- Every well-formed object is given by its rows. -/
theorem Wf.isRows {m : Crs α} (h : Wf m) :
    IsRows m m.nrow m.ncol ((List.range m.nrow).map (row m)) := by
  have key : ∀ n, n ≤ m.nrow → ((List.range n).map (row m)).flatten = (m.colind.zip m.values).take (ptr m n) := by
    intro n hn
    refine flatten_rows (m.colind.zip m.values) (ptr m) n h.start (fun i hi => h.mono i (by omega))
      (fun i hi => ?_)
    rw [List.length_zip, h.values_length, min_self]
    exact h.ptr_le i (by omega)
  have hfull : ((List.range m.nrow).map (row m)).flatten = m.colind.zip m.values := by
    rw [key _ le_rfl, h.finish, List.take_of_length_le]
    simp [h.values_length]
  refine ⟨rfl, rfl, by simp, h.rowptr_length, ?_, ?_, ?_⟩
  · intro j hj
    rw [ptr_eq m j (by rw [h.rowptr_length]; omega)]
    unfold pos
    rw [← List.map_take, List.take_range, min_eq_left hj, key j hj, List.length_take, List.length_zip,
      h.values_length, min_self, min_eq_left (h.ptr_le j hj)]
  · rw [hfull]
    exact (List.map_fst_zip (by rw [h.values_length])).symm
  · rw [hfull]
    exact (List.map_snd_zip (by rw [h.values_length])).symm

/-! ### Building a matrix row by row -/

/-- `m` is being built: the rows `rows` are complete (and their row pointers set). -/
structure Built (m : Crs α) (n c : Nat) (rows : List (List (Nat × α))) : Prop where
  nrow : m.nrow = n
  ncol : m.ncol = c
  plen : m.rowptr.length = n + 1
  ptrs : ∀ j, j < rows.length → m.rowptr[j]? = some (pos rows j)
  cols : m.colind = rows.flatten.map fun p => p.1
  vals : m.values = rows.flatten.map fun p => p.2

theorem built_resize2 (n c : Nat) : Built (resize2 n c : Crs α) n c [] :=
  ⟨rfl, rfl, by simp [resize2], by simp, rfl, rfl⟩

theorem pos_append (rows rows' : List (List (Nat × α))) (j : Nat) (h : j ≤ rows.length) :
    pos (rows ++ rows') j = pos rows j := by
  unfold pos; rw [List.take_append_of_le_length h]

theorem pos_length (rows : List (List (Nat × α))) : pos rows rows.length = rows.flatten.length := by
  simp only [pos, List.take_length]

/-- `setRow(i, counter)` starts a new, empty row. -/
theorem Built.newRow {m : Crs α} {n c rows} (h : Built m n c rows) (i : Nat) (hi : i = rows.length)
    (hn : i < n) (v : Nat) (hv : v = rows.flatten.length) :
    ∃ m', setRow m i v = some m' ∧ Built m' n c (rows ++ [[]]) := by
  subst hi hv
  have hlt : rows.length < m.rowptr.length := by rw [h.plen]; omega
  refine ⟨{ m with rowptr := m.rowptr.set rows.length rows.flatten.length }, ?_,
    h.nrow, h.ncol, by simp [h.plen], ?_, by simp [h.cols], by simp [h.vals]⟩
  · simp [setRow, setAt_some hlt]
  · intro j hj
    rw [List.length_append, List.length_singleton] at hj
    rw [pos_append _ _ _ (by omega)]
    by_cases e : rows.length = j
    · subst e
      rw [List.getElem?_set_self hlt, pos_length]
    · simp only
      rw [List.getElem?_set_ne e]
      exact h.ptrs j (by omega)

theorem pos_snoc_lt (rows : List (List (Nat × α))) (l l' : List (Nat × α)) (j : Nat)
    (h : j < (rows ++ [l]).length) : pos (rows ++ [l]) j = pos (rows ++ [l']) j := by
  rw [List.length_append, List.length_singleton] at h
  rw [pos_append _ _ _ (by omega), pos_append _ _ _ (by omega)]

/-- Pushing extends the last row. -/
theorem Built.push {m : Crs α} {n c rows} {l : List (Nat × α)} (h : Built m n c (rows ++ [l]))
    (j : Nat) (v : α) : Built (push m j v) n c (rows ++ [l ++ [(j, v)]]) where
  nrow := h.nrow
  ncol := h.ncol
  plen := h.plen
  ptrs := by
    intro k hk
    have hk' : k < (rows ++ [l]).length := by simpa using hk
    rw [pos_snoc_lt rows _ l k hk]
    exact h.ptrs k hk'
  cols := by simp [Crs.push, h.cols]
  vals := by simp [Crs.push, h.vals]

/-- `setRow(n, counter)` at the end completes the matrix. -/
theorem Built.finish {m : Crs α} {n c rows} (h : Built m n c rows) (hn : rows.length = n) (v : Nat)
    (hv : v = rows.flatten.length) : ∃ m', setRow m n v = some m' ∧ IsRows m' n c rows := by
  subst hn hv
  have hlt : rows.length < m.rowptr.length := by rw [h.plen]; omega
  refine ⟨{ m with rowptr := m.rowptr.set rows.length rows.flatten.length }, ?_,
    h.nrow, h.ncol, rfl, by simp [h.plen], ?_, h.cols, h.vals⟩
  · simp [setRow, setAt_some hlt]
  · intro j hj
    by_cases e : rows.length = j
    · subst e
      rw [List.getElem?_set_self hlt, pos_length]
    · simp only
      rw [List.getElem?_set_ne e]
      exact h.ptrs j (by omega)

theorem resize3_self [Zero α] {m : Crs α} {n c rows} (h : IsRows m n c rows) (v : Nat)
    (hv : v = rows.flatten.length) : resize3 m n c v = m := by
  have h1 : m.colind.length = v := by rw [h.cols, hv, List.length_map]
  have h2 : m.values.length = v := by rw [h.vals, hv, List.length_map]
  unfold resize3
  rw [← h.plen, resizeL_self]
  rw [show resizeL m.colind v 0 = m.colind by rw [← h1, resizeL_self]]
  rw [show resizeL m.values v 0 = m.values by rw [← h2, resizeL_self]]
  obtain ⟨a, b, c, d, e⟩ := m
  have := h.nrow; have := h.ncol
  simp_all

/-! ### checkValidity -/

theorem mark_loop (l : List (Nat × α)) (c : Nat) (hc : ∀ p ∈ l, p.1 < c)
    (hn : (l.map fun p => p.1).Nodup) :
    ∃ p, l.foldlM (fun (p : List Bool) x => do
      let b ← p[x.1]?
      if b then none else setAt p x.1 true) (List.replicate c false) = some p ∧ p.length = c ∧
      ∀ k, k < c → p[k]? = some (decide (k ∈ l.map fun p => p.1)) := by
  obtain ⟨p, h1, h2, h3⟩ := foldlM_inv
    (fun d (p : List Bool) => p.length = c ∧ ∀ k, k < c → p[k]? = some (decide (k ∈ d.map fun p => p.1)))
    l (fun (p : List Bool) x => do
      let b ← p[x.1]?
      if b then none else setAt p x.1 true) (List.replicate c false) (by
      refine ⟨by simp, fun k hk => by simp [hk]⟩) (by
      rintro d a r p rfl ⟨hl, hk⟩
      have ha : a.1 < c := hc a (by simp)
      have hna : a.1 ∉ d.map fun p => p.1 := by
        rw [List.map_append, List.map_cons] at hn
        intro hm
        exact List.disjoint_of_nodup_append hn hm (by simp)
      refine ⟨p.set a.1 true, ?_, by simp [hl], ?_⟩
      · rw [hk a.1 ha]
        simp only [hna, decide_false, bind, Option.bind_some]
        simp [setAt, hl, ha]
      · intro k hk'
        by_cases e : a.1 = k
        · subst e; simp [hl, ha]
        · rw [List.getElem?_set_ne e, hk k hk']
          congr 1
          simp only [List.map_append, List.mem_append, List.map_cons, List.map_nil,
            List.mem_singleton, decide_eq_decide]
          constructor
          · exact Or.inl
          · rintro (h | h)
            · exact h
            · exact absurd h.symm e)
  exact ⟨p, h1, h2, h3⟩

theorem clear_loop (l : List (Nat × α)) (c : Nat) (hc : ∀ p ∈ l, p.1 < c) (p : List Bool)
    (hp : p.length = c) (hk : ∀ k, k < c → p[k]? = some (decide (k ∈ l.map fun p => p.1))) :
    l.foldlM (fun (p : List Bool) x => setAt p x.1 false) p = some (List.replicate c false) := by
  obtain ⟨q, h1, h2, h3⟩ := foldlM_inv
    (fun d (q : List Bool) => q.length = c ∧ ∀ k, k < c → q[k]? =
      some (decide (k ∈ (l.map fun p => p.1) ∧ k ∉ d.map fun p => p.1)))
    l (fun (p : List Bool) x => setAt p x.1 false) p ⟨hp, by simpa using hk⟩ (by
      rintro d a r p hl ⟨hlen, hk⟩
      have ha : a.1 < c := hc a (by rw [hl]; simp)
      refine ⟨p.set a.1 false, by simp [setAt, hlen, ha], by simp [hlen], ?_⟩
      intro k hk'
      by_cases e : a.1 = k
      · subst e; rw [List.getElem?_set_self (by omega)]
        simp
      · rw [List.getElem?_set_ne e, hk k hk']
        simp only [List.map_append, List.mem_append, List.map_cons, List.map_nil,
            List.mem_singleton, Option.some.injEq, decide_eq_decide]
        have : k ≠ a.1 := fun h => e h.symm
        tauto)
  rw [h1]
  congr 1
  apply List.ext_getElem?
  intro k
  by_cases hk : k < c
  · rw [h3 k hk]; simp [hk]
  · rw [List.getElem?_eq_none (by omega), List.getElem?_eq_none (by simp; omega)]

theorem Valid.check {m : Crs α} (h : Valid m) (hr : 0 < m.nrow) (hc : 0 < m.ncol) :
    checkValidity m = some () := by
  unfold checkValidity
  rw [if_pos ⟨h.rowptr_length.symm, by
    rw [ptr_eq m _ (by rw [h.rowptr_length]; omega), h.finish], h.values_length, hr, hc⟩]
  obtain ⟨p, h1, h2⟩ := loopN_inv (fun _ p => p = List.replicate m.ncol false) m.nrow
    (fun i p => checkRow m i p) (List.replicate m.ncol false) rfl (by
      rintro i p hi rfl
      refine ⟨_, ?_, rfl⟩
      unfold checkRow
      rw [ptr_eq m i (by rw [h.rowptr_length]; omega), ptr_eq m (i + 1) (by rw [h.rowptr_length]; omega)]
      simp only [bind, Option.bind_some]
      rw [if_neg (by simpa using h.mono i hi), h.toWf.rowLoop i hi]
      obtain ⟨p, h1, h2, h3⟩ := mark_loop (row m i) m.ncol (fun p hp => h.toWf.col_lt hp) (h.nodup i hi)
      simp only [bind] at h1
      rw [h1]
      simp only [Option.bind_some]
      rw [h.toWf.rowLoop i hi]
      exact clear_loop (row m i) m.ncol (fun p hp => h.toWf.col_lt hp) p h2 h3)
  rw [h1]; rfl

theorem loopN_some_succ {n : Nat} {f : Nat → σ → Option σ} {s s' : σ}
    (h : loopN (n + 1) f s = some s') : ∃ t, loopN n f s = some t ∧ f n t = some s' := by
  rw [loopN] at h
  exact Option.bind_eq_some_iff.1 h

theorem loopN_some_step {n : Nat} {f : Nat → σ → Option σ} {s s' : σ} (h : loopN n f s = some s')
    (i : Nat) (hi : i < n) : ∃ t u, f i t = some u := by
  induction n generalizing s' with
  | zero => omega
  | succ n ih =>
    obtain ⟨t, h1, h2⟩ := loopN_some_succ h
    by_cases e : i = n
    · subst e; exact ⟨t, s', h2⟩
    · exact ih h1 (by omega)

theorem mark_conv (c : Nat) (l : List (Nat × α)) (p : List Bool)
    (h : l.foldlM (fun (p : List Bool) x => do
      let b ← p[x.1]?
      if b then none else setAt p x.1 true) (List.replicate c false) = some p) :
    (∀ p ∈ l, p.1 < c) ∧ (l.map fun p => p.1).Nodup := by
  induction l using List.reverseRecOn generalizing p with
  | nil => simp
  | append_singleton l a ih =>
    rw [List.foldlM_append] at h
    obtain ⟨q, h1, h2⟩ := Option.bind_eq_some_iff.1 h
    obtain ⟨hc, hn⟩ := ih q h1
    obtain ⟨q', h3, h4, h5⟩ := mark_loop l c hc hn
    have : q = q' := Option.some.inj (h1.symm.trans h3)
    subst this
    simp only [List.foldlM_cons, List.foldlM_nil, bind, Option.bind_some] at h2
    have ha : a.1 < c := by
      by_contra hc'
      rw [List.getElem?_eq_none (by omega)] at h2
      simp at h2
    rw [h5 a.1 ha] at h2
    have hna : a.1 ∉ l.map fun p => p.1 := by
      intro hm
      simp only [hm, decide_true, Option.bind_some, if_true, Option.bind_none] at h2
      cases h2
    refine ⟨?_, ?_⟩
    · intro x hx
      rcases List.mem_append.1 hx with hx | hx
      · exact hc x hx
      · rw [List.mem_singleton.1 hx]; exact ha
    · rw [List.map_append, List.nodup_append]
      refine ⟨hn, by simp, ?_⟩
      rintro x hx y hy rfl
      simp only [List.map_cons, List.map_nil, List.mem_singleton] at hy
      exact hna (hy ▸ hx)

theorem check_conv {m : Crs α} (h : checkValidity m = some ()) (h0 : ptr m 0 = 0) :
    Valid m ∧ 0 < m.nrow ∧ 0 < m.ncol := by
  unfold checkValidity at h
  split at h
  swap
  · cases h
  rename_i hc
  obtain ⟨c1, c2, c3, c4, c5⟩ := hc
  obtain ⟨q, hq, -⟩ := Option.map_eq_some_iff.1 h
  have hmono : ∀ i, i < m.nrow → ptr m i ≤ ptr m (i + 1) := by
    intro i hi
    obtain ⟨t, u, hu⟩ := loopN_some_step hq i hi
    unfold checkRow at hu
    rw [ptr_eq m i (by omega), ptr_eq m (i + 1) (by omega)] at hu
    simp only [bind, Option.bind_some] at hu
    by_contra hle
    rw [if_pos hle] at hu
    cases hu
  have hfin : ptr m m.nrow = m.colind.length := by
    rw [ptr_eq m _ (by omega)] at c2
    exact Option.some.inj c2
  let m' : Crs α := { m with ncol := m.colind.sum + 1 }
  have hw : Wf m' := ⟨c1.symm, h0, hfin, c3, hmono, fun x hx => by
    show x < m.colind.sum + 1
    exact Nat.lt_succ_of_le (List.le_sum_of_mem hx)⟩
  have key : ∀ n, n ≤ m.nrow → ∀ q, loopN n (fun i p => checkRow m i p) (List.replicate m.ncol false) = some q →
      q = List.replicate m.ncol false ∧
      ∀ i, i < n → (∀ p ∈ row m i, p.1 < m.ncol) ∧ ((row m i).map fun p => p.1).Nodup := by
    intro n
    induction n with
    | zero => intro _ q hq; exact ⟨(Option.some.inj hq).symm, fun i hi => by omega⟩
    | succ n ih =>
      intro hn q hq
      obtain ⟨t, h1, h2⟩ := loopN_some_succ hq
      obtain ⟨rfl, h3⟩ := ih (by omega) t h1
      unfold checkRow at h2
      rw [ptr_eq m n (by omega), ptr_eq m (n + 1) (by omega)] at h2
      simp only [bind, Option.bind_some] at h2
      rw [if_neg (by simpa using hmono n (by omega))] at h2
      obtain ⟨p, h4, h5⟩ := Option.bind_eq_some_iff.1 h2
      have h4' := (hw.rowLoop n (by simp only [m']; omega) (fun col _ (p : List Bool) => do
        let b ← p[col]?
        if b then none else setAt p col true) (List.replicate m.ncol false)).symm.trans h4
      obtain ⟨h6, h7⟩ := mark_conv m.ncol (row m' n) p h4'
      obtain ⟨p', h8, h9, h10⟩ := mark_loop (row m' n) m.ncol h6 h7
      have : p = p' := Option.some.inj (h4'.symm.trans h8)
      subst this
      have h11 := clear_loop (row m' n) m.ncol h6 p h9 h10
      have h12 := (hw.rowLoop n (by simp only [m']; omega)
        (fun col _ (p : List Bool) => setAt p col false) p).symm.trans h5
      rw [h11] at h12
      refine ⟨(Option.some.inj h12).symm, fun i hi => ?_⟩
      by_cases e : i = n
      · subst e; exact ⟨h6, h7⟩
      · exact h3 i (by omega)
  obtain ⟨-, hrows⟩ := key m.nrow le_rfl q hq
  refine ⟨⟨⟨c1.symm, h0, hfin, c3, hmono, ?_⟩, fun i hi => (hrows i hi).2⟩, c4, c5⟩
  intro x hx
  have hx' : x ∈ ((List.range m.nrow).map (row m')).flatten.map fun p => p.1 := by
    have := hw.isRows.cols
    rw [← this]; exact hx
  obtain ⟨p, hp, rfl⟩ := List.mem_map.1 hx'
  obtain ⟨l, hl, hp'⟩ := List.mem_flatten.1 hp
  obtain ⟨i, hi, rfl⟩ := List.mem_map.1 hl
  exact (hrows i (List.mem_range.1 hi)).1 p hp'

end Verif.Crs
