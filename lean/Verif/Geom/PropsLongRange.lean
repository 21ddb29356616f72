import Verif.Geom.ModelLongRange
import Verif.Geom.PropsTerm
import Mathlib.Data.Rat.Cast.Order
import Mathlib.Tactic.NormNum

/-!
# C72: connections of any range

The connectors are given as a matrix, as a list of entries (`compact`), or as one number for all pairs.
-/

namespace Verif.Geom

open Verif.Loop Verif.Dense

/-! ## Specification -/

/-- One entry of the compact form: `site0 orb0 site1 orb1 value`. -/
structure Entry where
  site0 : Nat
  orb0 : Nat
  site1 : Nat
  orb1 : Nat
  value : Cx

/-- The entry is for this pair. -/
def Entry.isFor (e : Entry) (s0 o0 s1 o1 : Nat) : Bool :=
  decide (e.site0 = s0 ∧ e.orb0 = o0 ∧ e.site1 = s1 ∧ e.orb1 = o1)

/-- The value of a pair: the last one given for it, or zero. -/
def lastValue (es : List Entry) (s0 o0 s1 o1 : Nat) : Cx :=
  ((es.filter fun e => e.isFor s0 o0 s1 o1).getLast?.map (·.value)).getD 0

/-- The table of the entries, with five columns. -/
structure Table5 (values : Mat Cx) (es : List Entry) : Prop where
  rows : values.nrow = es.length
  cols : values.ncol = 5
  at_ : ∀ i e, es[i]? = some e → values.get i 0 = some ((e.site0 : ℚ), 0) ∧ values.get i 1 = some ((e.orb0 : ℚ), 0) ∧
    values.get i 2 = some ((e.site1 : ℚ), 0) ∧ values.get i 3 = some ((e.orb1 : ℚ), 0) ∧ values.get i 4 = some e.value

/-- The table of the entries, with three columns, for one orbital. -/
structure Table3 (values : Mat Cx) (es : List Entry) : Prop where
  rows : values.nrow = es.length
  cols : values.ncol = 3
  at_ : ∀ i e, es[i]? = some e → values.get i 0 = some ((e.site0 : ℚ), 0) ∧ values.get i 1 = some ((e.site1 : ℚ), 0) ∧
    values.get i 2 = some e.value

/-- The entries are for sites and orbitals that exist. -/
def InRange (linSize dofs : Nat) (es : List Entry) : Prop :=
  ∀ e ∈ es, e.site0 < linSize ∧ e.orb0 < dofs ∧ e.site1 < linSize ∧ e.orb1 < dofs

/-! ## Lemmas -/

theorem lastValue_snoc (es : List Entry) (e : Entry) (s0 o0 s1 o1 : Nat) :
    lastValue (es ++ [e]) s0 o0 s1 o1 = if e.isFor s0 o0 s1 o1 then e.value else lastValue es s0 o0 s1 o1 := by
  unfold lastValue
  by_cases h : e.isFor s0 o0 s1 o1
  · simp [List.filter_append, h]
  · simp [List.filter_append, h]

theorem foldlM_range_inv {σ : Type} (P : Nat → σ → Prop) (n : Nat) (f : σ → Nat → Out σ) (s : σ) (h0 : P 0 s)
    (hs : ∀ i s, i < n → P i s → ∃ s', f s i = .ok s' ∧ P (i + 1) s') :
    ∃ s', (List.range n).foldlM f s = .ok s' ∧ P n s' := by
  induction n with
  | zero => exact ⟨s, rfl, h0⟩
  | succ n ih =>
    obtain ⟨s1, h1, h2⟩ := ih (fun i s hi => hs i s (by omega))
    obtain ⟨s2, h3, h4⟩ := hs n s1 (by omega) h2
    refine ⟨s2, ?_, h4⟩
    rw [List.range_succ, List.foldlM_append, h1]
    simp [bind, Except.bind, h3, pure, Except.pure]

theorem complexToInteger_nat (n : Nat) (h : n < 2 ^ 63) : complexToInteger ((n : ℚ), 0) = .ok n := by
  have h1 : isInt64 (n : ℚ) = true := by
    unfold isInt64
    have : ((n : ℚ)).den = 1 := Rat.den_natCast n
    have h2 : ((n : ℚ)) < 9223372036854775808 := by exact_mod_cast h
    have h3 : (0 : ℚ) ≤ n := Nat.cast_nonneg n
    have h4 : (-9223372036854775808 : ℚ) ≤ n := le_trans (by norm_num) h3
    simp [this, h2, h4]
  have h2 : ¬ ((n : ℚ) < 0) := not_lt.2 (Nat.cast_nonneg n)
  simp [complexToInteger, h1, h2]

theorem pair_inj {dofs s o s' o' : Nat} (h : o < dofs) (h' : o' < dofs) (e : o + s * dofs = o' + s' * dofs) :
    s = s' ∧ o = o' := by
  have h1 : (o + s * dofs) / dofs = s := by
    rw [Nat.add_mul_div_right _ _ (by omega), Nat.div_eq_of_lt h]; omega
  have h2 : (o' + s' * dofs) / dofs = s' := by
    rw [Nat.add_mul_div_right _ _ (by omega), Nat.div_eq_of_lt h']; omega
  have : s = s' := by rw [← h1, ← h2, e]
  subst this
  exact ⟨rfl, by omega⟩

theorem pair_lt {linSize dofs s o : Nat} (hs : s < linSize) (ho : o < dofs) : o + s * dofs < linSize * dofs := by
  have : (s + 1) * dofs ≤ linSize * dofs := Nat.mul_le_mul_right _ hs
  rw [Nat.add_mul] at this
  omega

/-- The matrix after some entries. -/
def Filled (linSize dofs : Nat) (es : List Entry) (m : Mat Cx) : Prop :=
  Shape m (linSize * dofs) (linSize * dofs) ∧ ∀ s0 o0 s1 o1, s0 < linSize → o0 < dofs → s1 < linSize → o1 < dofs →
    m.get (o0 + s0 * dofs) (o1 + s1 * dofs) = some (lastValue es s0 o0 s1 o1)

theorem filled_nil (linSize dofs : Nat) : Filled linSize dofs [] (Mat.mk0 (linSize * dofs) (linSize * dofs)) :=
  ⟨shape_mk0 _ _, fun s0 o0 s1 o1 h1 h2 h3 h4 => by
    rw [shape_mk0_get (pair_lt h1 h2) (pair_lt h3 h4)]; rfl⟩

theorem filled_step {linSize dofs : Nat} {es : List Entry} {m : Mat Cx} (h : Filled linSize dofs es m) (e : Entry)
    (he : e.site0 < linSize ∧ e.orb0 < dofs ∧ e.site1 < linSize ∧ e.orb1 < dofs) :
    ∃ m', m.set (e.orb0 + e.site0 * dofs) (e.orb1 + e.site1 * dofs) e.value = some m' ∧
      Filled linSize dofs (es ++ [e]) m' := by
  obtain ⟨h1, h2, h3, h4⟩ := he
  obtain ⟨m', hm, hs, hg0, hg⟩ := h.1.set (pair_lt h1 h2) (pair_lt h3 h4) e.value
  refine ⟨m', hm, hs, ?_⟩
  intro s0 o0 s1 o1 g1 g2 g3 g4
  rw [lastValue_snoc]
  by_cases hf : e.isFor s0 o0 s1 o1 = true
  · rw [if_pos hf]
    simp only [Entry.isFor, decide_eq_true_eq] at hf
    obtain ⟨rfl, rfl, rfl, rfl⟩ := hf
    exact hg0
  · rw [if_neg hf, ← h.2 s0 o0 s1 o1 g1 g2 g3 g4]
    refine hg _ _ (pair_lt g1 g2) (pair_lt g3 g4) ?_
    by_contra hcon
    have e1 : o0 + s0 * dofs = e.orb0 + e.site0 * dofs := by omega
    have e2 : o1 + s1 * dofs = e.orb1 + e.site1 * dofs := by omega
    obtain ⟨a1, a2⟩ := pair_inj g2 h2 e1
    obtain ⟨a3, a4⟩ := pair_inj g4 h4 e2
    simp [Entry.isFor, a1, a2, a3, a4] at hf

theorem take_snoc {es : List Entry} {i : Nat} {e : Entry} (h : es[i]? = some e) : es.take (i + 1) = es.take i ++ [e] := by
  obtain ⟨hi, rfl⟩ := List.getElem?_eq_some_iff.1 h
  rw [List.take_succ_eq_append_getElem hi]

theorem reinterpret5 (linSize dofs : Nat) (values : Mat Cx) (es : List Entry) (h0 : 0 < linSize) (h1 : 1 < dofs)
    (ht : Table5 values es) (hr : InRange linSize dofs es) (hl : linSize < 2 ^ 63) (hd : dofs < 2 ^ 63) :
    ∃ m, reinterpretMatrix linSize dofs values = .ok m ∧ Filled linSize dofs es m := by
  unfold reinterpretMatrix
  simp only
  rw [if_neg (by omega), if_pos h1, if_neg (by simp [ht.cols])]
  obtain ⟨m, hm1, hm2⟩ := foldlM_range_inv (fun i m => Filled linSize dofs (es.take i) m) values.nrow
    (fun m i => compactRow5 dofs values i m) (Mat.mk0 (linSize * dofs) (linSize * dofs)) (filled_nil _ _) (by
      intro i m hi hm
      rw [ht.rows] at hi
      have he : es[i]? = some es[i] := List.getElem?_eq_getElem hi
      obtain ⟨v0, v1, v2, v3, v4⟩ := ht.at_ i _ he
      have hin := hr es[i] (List.getElem_mem hi)
      obtain ⟨m', e1, e2⟩ := filled_step hm es[i] hin
      refine ⟨m', ?_, by rw [take_snoc he]; exact e2⟩
      unfold compactRow5
      simp only [v0, v1, v2, v3, v4, orUb, bind, Except.bind, complexToInteger_nat _ (show es[i].site0 < 2 ^ 63 by omega),
        complexToInteger_nat _ (show es[i].orb0 < 2 ^ 63 by omega), complexToInteger_nat _ (show es[i].site1 < 2 ^ 63 by omega),
        complexToInteger_nat _ (show es[i].orb1 < 2 ^ 63 by omega), e1])
  refine ⟨m, hm1, ?_⟩
  rw [ht.rows, List.take_length] at hm2
  exact hm2

theorem reinterpret3 (linSize : Nat) (values : Mat Cx) (es : List Entry) (h0 : 0 < linSize)
    (ht : Table3 values es) (hr : InRange linSize 1 es) (hl : linSize < 2 ^ 63) :
    ∃ m, reinterpretMatrix linSize 1 values = .ok m ∧ Filled linSize 1 es m := by
  unfold reinterpretMatrix
  simp only
  rw [if_neg (by omega), if_neg (by omega), if_neg (by simp [ht.cols])]
  obtain ⟨m, hm1, hm2⟩ := foldlM_range_inv (fun i m => Filled linSize 1 (es.take i) m) values.nrow
    (fun m i => compactRow3 values i m) (Mat.mk0 (linSize * 1) (linSize * 1)) (filled_nil _ _) (by
      intro i m hi hm
      rw [ht.rows] at hi
      have he : es[i]? = some es[i] := List.getElem?_eq_getElem hi
      obtain ⟨v0, v1, v2⟩ := ht.at_ i _ he
      have hin := hr es[i] (List.getElem_mem hi)
      obtain ⟨m', e1, e2⟩ := filled_step hm es[i] hin
      refine ⟨m', ?_, by rw [take_snoc he]; exact e2⟩
      have o0 : es[i].orb0 = 0 := by omega
      have o1 : es[i].orb1 = 0 := by omega
      simp only [o0, o1, Nat.zero_add, Nat.mul_one] at e1
      unfold compactRow3
      simp only [v0, v1, v2, orUb, bind, Except.bind, complexToInteger_nat _ (show es[i].site0 < 2 ^ 63 by omega),
        complexToInteger_nat _ (show es[i].site1 < 2 ^ 63 by omega), e1])
  refine ⟨m, hm1, ?_⟩
  rw [ht.rows, List.take_length] at hm2
  exact hm2

theorem checkConnectors_ok (n linSize : Nat) (h0 : 0 < linSize) (m : Mat Cx) (hs : Shape m n n) :
    checkConnectors m linSize = .ok () := by
  have : ∃ b, hasLowerTriangle m = some b := by
    unfold hasLowerTriangle
    obtain ⟨b, h, _⟩ := loopN_inv (fun _ _ => True) m.nrow (fun i found => loopN i (fun j found =>
      if found then some true else (m.get i j).map fun x => decide (x ≠ 0)) found) false trivial (by
        intro i b hi _
        obtain ⟨b', h, _⟩ := loopN_inv (fun _ _ => True) i (fun j found =>
          if found then some true else (m.get i j).map fun x => decide (x ≠ 0)) b trivial (by
            intro j c hj _
            cases c with
            | true => exact ⟨true, by simp, trivial⟩
            | false =>
              have hr := hs.1
              obtain ⟨A, hA⟩ := hs.exists_rep
              have hx := hA.get (show i < n by omega) (show j < n by omega)
              exact ⟨_, by simp only [hx, Bool.false_eq_true, if_false, Option.map_some]; rfl, trivial⟩)
        exact ⟨b', h, trivial⟩)
    exact ⟨b, h⟩
  obtain ⟨b, hb⟩ := this
  unfold checkConnectors
  rw [if_neg (by omega), hb]

/-- The cache agrees with `M` on the entries in `D`. -/
def Agree (R : Nat) (M : Mat Cx) (D : Nat × Nat → Prop) (c : Mat Cx) : Prop :=
  Shape c R R ∧ ∀ k1 k2, k1 < R → k2 < R → D (k1, k2) → c.get k1 k2 = M.get k1 k2

/-- The values of a term are the entries of the matrix. -/
theorem cache_matrix (g : LongRange) (linSize : Nat) (hs : Shape g.matrix (linSize * g.dofs) (linSize * g.dofs)) :
    ∃ c, g.cache linSize g.dofs = .ok c ∧ ∀ s0 o0 s1 o1, s0 < linSize → o0 < g.dofs → s1 < linSize → o1 < g.dofs →
      termValue LongRange.base g.dofs c s0 o0 s1 o1 = g.matrix.get (o0 + s0 * g.dofs) (o1 + s1 * g.dofs) := by
  have main : ∃ c, cacheWith LongRange.base linSize g.dofs (generalValue g.matrix g.dofs) = some c ∧
      Agree (linSize * g.dofs) g.matrix (fun x => False ∨ ∃ i, i < linSize ∧ ∃ j, j < linSize ∧ ∃ e, e < g.dofs ∧
        ∃ e', e' < g.dofs ∧ x = (e + i * g.dofs, e' + j * g.dofs)) c := by
    unfold cacheWith
    refine union_loop linSize _ (Agree (linSize * g.dofs) g.matrix) (fun i x => ∃ j, j < linSize ∧ ∃ e, e < g.dofs ∧
        ∃ e', e' < g.dofs ∧ x = (e + i * g.dofs, e' + j * g.dofs)) _ _
        ⟨shape_mk0 _ _, fun k1 k2 _ _ h => h.elim⟩ ?_
    intro i D s hi hinv
    refine union_loop linSize _ (Agree (linSize * g.dofs) g.matrix) (fun j x => ∃ e, e < g.dofs ∧
        ∃ e', e' < g.dofs ∧ x = (e + i * g.dofs, e' + j * g.dofs)) _ _ hinv ?_
    intro j D s hj hinv
    simp only [LongRange.base, bind, Option.bind_some, Bool.not_true, Bool.false_eq_true, if_false]
    refine union_loop g.dofs _ (Agree (linSize * g.dofs) g.matrix) (fun e x =>
        ∃ e', e' < g.dofs ∧ x = (e + i * g.dofs, e' + j * g.dofs)) _ _ hinv ?_
    intro e D s he hinv
    simp only [defaultIndex, he, if_true, Option.bind_some]
    refine union_loop g.dofs _ (Agree (linSize * g.dofs) g.matrix) (fun e' x =>
        x = (e + i * g.dofs, e' + j * g.dofs)) _ _ hinv ?_
    intro e' D s he' hinv
    obtain ⟨A, hA⟩ := hs.exists_rep
    have hx := hA.get (pair_lt hi he) (pair_lt hj he')
    obtain ⟨c', h1, h2, h3, h4⟩ := hinv.1.set (pair_lt hi he) (pair_lt hj he')
      (A ⟨e + i * g.dofs, pair_lt hi he⟩ ⟨e' + j * g.dofs, pair_lt hj he'⟩)
    refine ⟨c', ?_, h2, ?_⟩
    · simp only [he', if_true, Option.bind_some, generalValue, he, true_and, hx, h1]
    · intro k1 k2 hk1 hk2 hD
      by_cases hk : k1 = e + i * g.dofs ∧ k2 = e' + j * g.dofs
      · obtain ⟨rfl, rfl⟩ := hk
        rw [h3, hx]
      · rw [h4 k1 k2 hk1 hk2 (by omega)]
        refine hinv.2 k1 k2 hk1 hk2 (hD.resolve_right fun h => hk ?_)
        simpa using h
  obtain ⟨c, h1, h2⟩ := main
  refine ⟨c, ?_, ?_⟩
  · simp [LongRange.cache, LongRange.set, bind, Except.bind, h1, orUb]
  · intro s0 o0 s1 o1 g1 g2 g3 g4
    have := h2.2 _ _ (pair_lt g1 g2) (pair_lt g3 g4) (Or.inr ⟨s0, g1, s1, g3, o0, g2, o1, g4, rfl⟩)
    rw [← this]
    simp [termValue, LongRange.base, defaultIndex, g2, g4]

theorem entangler_loop (n : Nat) (v : Cx) : ∃ m, setEntangler (Mat.mk0 n n) v = some m ∧ Shape m n n ∧
    ∀ i j, i < n → j < n → m.get i j = some (if i < j then v else 0) := by
  unfold setEntangler
  obtain ⟨m, h1, h2⟩ := loopN_inv (fun k (m : Mat Cx) => Shape m n n ∧ ∀ i j, i < n → j < n →
      m.get i j = some (if i < k ∧ i < j then v else 0)) n
    (fun i m => loopFrom (i + 1) m.nrow (fun j m => m.set i j v) m) (Mat.mk0 n n)
    ⟨shape_mk0 _ _, fun i j hi hj => by rw [shape_mk0_get hi hj]; simp⟩ (by
      intro k m hk ⟨hs, hg⟩
      rw [hs.nrow]
      obtain ⟨m', e1, e2, e3⟩ := loopFrom_inv (fun l (m : Mat Cx) => Shape m n n ∧ ∀ i j, i < n → j < n →
          m.get i j = some (if (i < k ∧ i < j) ∨ (i = k ∧ k < j ∧ j < l) then v else 0)) (k + 1) n (by omega)
        (fun j m => m.set k j v) m ⟨hs, fun i j hi hj => by
          rw [hg i j hi hj]
          have : ¬ (i = k ∧ k < j ∧ j < k + 1) := by omega
          simp only [this, or_false]⟩ (by
          intro l m hl1 hl2 ⟨hs, hg⟩
          obtain ⟨m', e1, e2, e3, e4⟩ := hs.set hk hl2 v
          refine ⟨m', e1, e2, ?_⟩
          intro i j hi hj
          by_cases hij : i = k ∧ j = l
          · obtain ⟨rfl, rfl⟩ := hij
            rw [e3, if_pos (by omega)]
          · rw [e4 i j hi hj (by omega), hg i j hi hj]
            have : ((i < k ∧ i < j) ∨ (i = k ∧ k < j ∧ j < l)) ↔ ((i < k ∧ i < j) ∨ (i = k ∧ k < j ∧ j < l + 1)) := by omega
            simp only [this])
      refine ⟨m', e1, e2, ?_⟩
      intro i j hi hj
      rw [e3 i j hi hj]
      have : ((i < k ∧ i < j) ∨ (i = k ∧ k < j ∧ j < n)) ↔ (i < k + 1 ∧ i < j) := by omega
      simp only [this])
  refine ⟨m, h1, h2.1, ?_⟩
  intro i j hi hj
  rw [h2.2 i j hi hj]
  simp only [hi, true_and]

/-! ## Theorems -/

/-- All terms with the geometry have the value `f` for every pair of sites and orbitals. -/
def HasValues (g : LongRange) (linSize dofs : Nat) (f : Nat → Nat → Nat → Nat → Cx) : Prop :=
  ∃ c, g.cache linSize dofs = .ok c ∧ ∀ s0 o0 s1 o1, s0 < linSize → o0 < dofs → s1 < linSize → o1 < dofs →
    termValue LongRange.base dofs c s0 o0 s1 o1 = some (f s0 o0 s1 o1)

/-- **C72** Entries in the compact form, with several orbitals: every pair gets the last value given for it, or zero. -/
theorem longrange_compact (linSize dofs k : Nat) (values : Mat Cx) (es : List Entry) (h0 : 0 < linSize) (h1 : 1 < dofs)
    (ht : Table5 values es) (hr : InRange linSize dofs es) (hl : linSize < 2 ^ 63) (hd : dofs < 2 ^ 63) :
    ∃ g, LongRange.ctor linSize "compact" ⟨none, some dofs, some values, some k⟩ = .ok g ∧
      HasValues g linSize dofs (lastValue es) := by
  obtain ⟨m, hm, hs, hg⟩ := reinterpret5 linSize dofs values es h0 h1 ht hr hl hd
  refine ⟨⟨linSize, dofs, k, m⟩, ?_, ?_⟩
  · simp [LongRange.ctor, ofThrow, bind, Except.bind, hm, checkConnectors_ok _ _ h0 m hs, pure, Except.pure]
  · obtain ⟨c, hc1, hc2⟩ := cache_matrix ⟨linSize, dofs, k, m⟩ linSize hs
    exact ⟨c, hc1, fun s0 o0 s1 o1 g1 g2 g3 g4 => (hc2 s0 o0 s1 o1 g1 g2 g3 g4).trans (hg s0 o0 s1 o1 g1 g2 g3 g4)⟩

/-- **C72** The same with one orbital. -/
theorem longrange_compact_one (linSize k : Nat) (values : Mat Cx) (es : List Entry) (h0 : 0 < linSize)
    (ht : Table3 values es) (hr : InRange linSize 1 es) (hl : linSize < 2 ^ 63) :
    ∃ g, LongRange.ctor linSize "compact" ⟨none, some 1, some values, some k⟩ = .ok g ∧
      HasValues g linSize 1 (lastValue es) := by
  obtain ⟨m, hm, hs, hg⟩ := reinterpret3 linSize values es h0 ht hr hl
  refine ⟨⟨linSize, 1, k, m⟩, ?_, ?_⟩
  · simp [LongRange.ctor, ofThrow, bind, Except.bind, hm, checkConnectors_ok _ _ h0 m hs, pure, Except.pure]
  · obtain ⟨c, hc1, hc2⟩ := cache_matrix ⟨linSize, 1, k, m⟩ linSize hs
    exact ⟨c, hc1, fun s0 o0 s1 o1 g1 g2 g3 g4 => (hc2 s0 o0 s1 o1 g1 g2 g3 g4).trans (hg s0 o0 s1 o1 g1 g2 g3 g4)⟩

/-- The two entries used in the examples: the second is for the same pair. -/
def someEntries : List Entry := [⟨0, 1, 1, 0, (5, 1)⟩, ⟨0, 1, 1, 0, (7, 0)⟩, ⟨2, 0, 1, 1, (1, 0)⟩]

example : Table5 ⟨3, 5, [(0, 0), (0, 0), (2, 0), (1, 0), (1, 0), (0, 0), (1, 0), (1, 0), (1, 0), (0, 0), (0, 0), (1, 0),
    (5, 1), (7, 0), (1, 0)]⟩ someEntries ∧ InRange 3 2 someEntries ∧ lastValue someEntries 0 1 1 0 = (7, 0) ∧
    lastValue someEntries 1 0 0 1 = 0 := by
  refine ⟨⟨rfl, rfl, ?_⟩, ?_, rfl, rfl⟩
  · intro i e h
    match i, h with
    | 0, h => cases h; exact ⟨rfl, rfl, rfl, rfl, rfl⟩
    | 1, h => cases h; exact ⟨rfl, rfl, rfl, rfl, rfl⟩
    | 2, h => cases h; exact ⟨rfl, rfl, rfl, rfl, rfl⟩
    | _ + 3, h => simp [someEntries] at h
  · intro e he
    simp only [someEntries, List.mem_cons, List.not_mem_nil, or_false] at he
    rcases he with rfl | rfl | rfl <;> decide

/-- **C72** A full matrix: every pair gets its entry. -/
theorem longrange_full (linSize dofs k : Nat) (goptions : String) (m : Mat Cx) (h0 : 0 < linSize)
    (hg : goptions = "none" ∨ goptions = "ConstantValues") (hs : Shape m (linSize * dofs) (linSize * dofs))
    (f : Nat → Nat → Nat → Nat → Cx)
    (hf : ∀ s0 o0 s1 o1, s0 < linSize → o0 < dofs → s1 < linSize → o1 < dofs →
      m.get (o0 + s0 * dofs) (o1 + s1 * dofs) = some (f s0 o0 s1 o1)) :
    ∃ g, LongRange.ctor linSize goptions ⟨none, some dofs, some m, some k⟩ = .ok g ∧ HasValues g linSize dofs f := by
  have hr : m.nrow / linSize = dofs := by rw [hs.nrow, Nat.mul_div_cancel_left _ h0]
  refine ⟨⟨linSize, dofs, k, m⟩, ?_, ?_⟩
  · have h1 : linSize ≠ 0 := by omega
    rcases hg with rfl | rfl <;>
    simp [LongRange.ctor, ofThrow, bind, Except.bind, hr, checkConnectors_ok _ _ h0 m hs, h1, pure, Except.pure]
  · obtain ⟨c, hc1, hc2⟩ := cache_matrix ⟨linSize, dofs, k, m⟩ linSize hs
    exact ⟨c, hc1, fun s0 o0 s1 o1 g1 g2 g3 g4 => (hc2 s0 o0 s1 o1 g1 g2 g3 g4).trans (hf s0 o0 s1 o1 g1 g2 g3 g4)⟩

/-- **C72** One number for all pairs: it is the value of a pair in increasing order; other pairs have zero. -/
theorem longrange_entangler (linSize dofs : Nat) (goptions : String) (e : ℚ) (mc : Option Nat) (con : Option (Mat Cx))
    (h0 : 0 < linSize) (hg : goptions = "none" ∨ goptions = "ConstantValues") :
    ∃ g, LongRange.ctor linSize goptions ⟨some e, some dofs, con, mc⟩ = .ok g ∧
      HasValues g linSize dofs (fun s0 o0 s1 o1 => if s0 < s1 ∨ s0 = s1 ∧ o0 < o1 then (e, 0) else 0) := by
  obtain ⟨m, hm, hs, hv⟩ := entangler_loop (dofs * linSize) (e, 0)
  have hr : m.nrow / linSize = dofs := by rw [hs.nrow, Nat.mul_div_cancel _ h0]
  refine ⟨⟨linSize, dofs, mc.getD 0, m⟩, ?_, ?_⟩
  · have h1 : linSize ≠ 0 := by omega
    rcases hg with rfl | rfl <;> cases mc <;>
    simp [LongRange.ctor, ofThrow, orUb, bind, Except.bind, hm, hr, checkConnectors_ok _ _ h0 m hs, h1, pure, Except.pure]
  · rw [Nat.mul_comm] at hs
    obtain ⟨c, hc1, hc2⟩ := cache_matrix ⟨linSize, dofs, mc.getD 0, m⟩ linSize hs
    refine ⟨c, hc1, fun s0 o0 s1 o1 g1 g2 g3 g4 => (hc2 s0 o0 s1 o1 g1 g2 g3 g4).trans ?_⟩
    have l0 := pair_lt g1 g2
    have l1 := pair_lt g3 g4
    rw [Nat.mul_comm linSize] at l0 l1
    refine (hv _ _ l0 l1).trans ?_
    have : (o0 + s0 * dofs < o1 + s1 * dofs) ↔ (s0 < s1 ∨ s0 = s1 ∧ o0 < o1) := by
      constructor
      · intro h
        rcases Nat.lt_trichotomy s0 s1 with h' | h' | h'
        · exact Or.inl h'
        · subst h'; exact Or.inr ⟨rfl, by omega⟩
        · exfalso
          have : (s1 + 1) * dofs ≤ s0 * dofs := Nat.mul_le_mul_right _ h'
          rw [Nat.add_mul] at this
          omega
      · rintro (h | ⟨rfl, h⟩)
        · have : (s0 + 1) * dofs ≤ s1 * dofs := Nat.mul_le_mul_right _ h
          rw [Nat.add_mul] at this
          omega
        · omega
    simp only [this]

/-- **C72** What is refused: no number of degrees of freedom, an unknown option, a matrix for another number of sites,
no `GeometryMaxConnections`. -/
theorem longrange_refused (linSize dofs : Nat) (goptions : String) (m : Mat Cx) (h0 : 0 < linSize) (mc : Option Nat) :
    LongRange.ctor linSize goptions ⟨none, none, some m, mc⟩ = throwOut ∧
    LongRange.ctor linSize goptions ⟨none, some dofs, none, mc⟩ = throwOut ∧
    (goptions ≠ "none" → goptions ≠ "ConstantValues" → goptions ≠ "compact" →
      LongRange.ctor linSize goptions ⟨none, some dofs, some m, mc⟩ = throwOut) ∧
    (goptions = "none" ∨ goptions = "ConstantValues" → ¬ (linSize * dofs ≤ m.nrow ∧ m.nrow < linSize * (dofs + 1)) →
      LongRange.ctor linSize goptions ⟨none, some dofs, some m, mc⟩ = throwOut) ∧
    (goptions = "none" ∨ goptions = "ConstantValues" → Shape m (linSize * dofs) (linSize * dofs) →
      LongRange.ctor linSize goptions ⟨none, some dofs, some m, none⟩ = throwOut) := by
  have h1 : linSize ≠ 0 := by omega
  refine ⟨rfl, rfl, ?_, ?_, ?_⟩
  · intro a b c
    simp [LongRange.ctor, ofThrow, bind, Except.bind, a, b, c]
  · intro hg hn
    have : dofs ≠ m.nrow / linSize := by
      rintro rfl
      apply hn
      exact ⟨Nat.mul_div_le _ _, Nat.lt_mul_div_succ _ h0⟩
    rcases hg with rfl | rfl <;> simp [LongRange.ctor, ofThrow, bind, Except.bind, h1, this, throwOut]
  · intro hg hs
    have hr : m.nrow / linSize = dofs := by rw [hs.nrow, Nat.mul_div_cancel_left _ h0]
    rcases hg with rfl | rfl <;>
    simp [LongRange.ctor, ofThrow, bind, Except.bind, hr, checkConnectors_ok _ _ h0 m hs, h1, throwOut]

/-- **C72** A site that is not an integer, or not real, is refused. -/
theorem compact_site_refused (x : Cx) (h : x.2 ≠ 0 ∨ ¬ ∃ z : Int, x.1 = z) : complexToInteger x = throwOut := by
  unfold complexToInteger
  by_cases h2 : x.2 = 0
  · have h3 : isInt64 x.1 = false := by
      rcases h with h | h
      · exact absurd h2 h
      · unfold isInt64
        have : ¬ x.1.den = 1 := fun hd => h ⟨x.1.num, ((Rat.den_eq_one_iff _).1 hd).symm⟩
        simp [this]
    simp [h2, h3]
  · simp [h2]

example : ((1 / 2, 0) : Cx).2 ≠ 0 ∨ ¬ ∃ z : Int, ((1 / 2, 0) : Cx).1 = z := by
  right
  rintro ⟨z, hz⟩
  have : ((1 / 2, 0) : Cx).1.den = 1 := by rw [hz]; rfl
  exact absurd this (by decide +kernel)

/-- **C72** A negative site, or a site beyond the last one, is not refused: it is used. -/
theorem compact_site_fails :
    LongRange.ctor 2 "compact" ⟨none, some 1, some ⟨1, 3, [(-1, 0), (1, 0), (3, 0)]⟩, some 4⟩ = ubOut ∧
    LongRange.ctor 2 "compact" ⟨none, some 1, some ⟨1, 3, [(0, 0), (2, 0), (3, 0)]⟩, some 4⟩ = ubOut := by
  constructor <;> rfl

/-- **C72** The size of a full matrix is checked only by dividing its rows: three rows are accepted for two sites, and a
matrix with too few columns is read out of range. -/
theorem longrange_size_fails :
    (∃ g, LongRange.ctor 2 "none" ⟨none, some 1, some ⟨3, 3, [0, (1, 0), (2, 0), (3, 0), 0, (4, 0), (5, 0), (6, 0), 0]⟩, some 4⟩
      = .ok g) ∧
    LongRange.ctor 4 "none" ⟨none, some 1, some ⟨4, 1, [0, 0, 0, 0]⟩, some 4⟩ = ubOut := by
  constructor
  · exact ⟨_, rfl⟩
  · rfl

/-- **C72** The lower triangle is not filled in: with a matrix that has only the upper one, as the warning asks for, the
value of a pair in the other order is zero. -/
theorem longrange_hermitian_fails :
    ∃ g, LongRange.ctor 2 "none" ⟨some 3, some 1, none, none⟩ = .ok g ∧ HasValues g 2 1
      (fun s0 _ s1 _ => if s0 = 0 ∧ s1 = 1 then (3, 0) else 0) := by
  obtain ⟨g, h1, c, h2, h3⟩ := longrange_entangler 2 1 "none" 3 none none (by omega) (Or.inl rfl)
  refine ⟨g, h1, c, h2, ?_⟩
  intro s0 o0 s1 o1 g1 g2 g3 g4
  rw [h3 s0 o0 s1 o1 g1 g2 g3 g4]
  have : (s0 < s1 ∨ s0 = s1 ∧ o0 < o1) ↔ (s0 = 0 ∧ s1 = 1) := by omega
  simp only [this]

/-- **C72** A term with another number of orbitals is refused. -/
theorem longrange_orbitals (g : LongRange) (linSize orbitals : Nat) (h : orbitals ≠ g.dofs) :
    g.cache linSize orbitals = throwOut := by
  unfold LongRange.cache LongRange.set
  rw [if_pos h]
  rfl

/-- **C72** Translations and reflections. -/
theorem longrange_translate (g : LongRange) (site amount : Nat) (h0 : 0 < g.linSize) :
    g.translate site amount = some ((site + amount) % g.linSize) := by
  have : ∀ fuel n, n < fuel → LongRange.translateLoop g.linSize fuel n = some (n % g.linSize) := by
    intro fuel
    induction fuel with
    | zero => intro n h; omega
    | succ fuel ih =>
      intro n h
      unfold LongRange.translateLoop
      by_cases hn : n ≥ g.linSize
      · rw [if_pos hn, ih _ (by omega), Nat.mod_eq_sub_mod hn]
      · rw [if_neg hn, Nat.mod_eq_of_lt (by omega)]
  exact this _ _ (by omega)

/-- **C72** With no sites a translation does not end. -/
theorem longrange_translate_fails (site amount : Nat) : (LongRange.mk 0 1 0 ⟨0, 0, []⟩).translate site amount = none := by
  unfold LongRange.translate
  have : ∀ fuel n, LongRange.translateLoop 0 fuel n = none := by
    intro fuel
    induction fuel with
    | zero => intro n; rfl
    | succ fuel ih => intro n; unfold LongRange.translateLoop; rw [if_pos (by omega), ih]
  exact this _ _

/-- **C72** The reflection of a site is a site, reflecting twice changes nothing, and distances stay the same. -/
theorem longrange_reflection (g : LongRange) (s t : Nat) (hs : s < g.linSize) (ht : t < g.linSize) :
    g.findReflection s < g.linSize ∧ g.findReflection (g.findReflection s) = s ∧
    (s : Int) - t = (g.findReflection t : Int) - g.findReflection s := by
  have h : ∀ s, s < g.linSize → g.findReflection s = g.linSize - s - 1 := by
    intro s hs
    unfold LongRange.findReflection
    rw [sub64_le (show s ≤ g.linSize by omega), sub64_le (show 1 ≤ g.linSize - s by omega)]
  rw [h s hs, h t ht, h _ (by omega)]
  omega

/-- **C72** Substitutes of sites of the environment: the environment moved to follow the system. -/
theorem longrange_substitute (g : LongRange) (smax emin site t : Nat) :
    g.getSubstituteSite smax emin site = some t ↔ emin ≤ site ∧ t + emin = site + smax + 1 ∧ t < g.linSize := by
  unfold LongRange.getSubstituteSite
  split
  · simp only [reduceCtorEq, false_iff]; omega
  · split
    · simp only [Option.some.injEq]; omega
    · simp only [reduceCtorEq, false_iff]; omega

end Verif.Geom
