import Verif.Crs.LemmasExt

namespace Verif.Crs

open Verif.Loop

variable {α σ : Type}

/-! ### `externalProduct`, first overload -/

/-- Position of the pair (index of `A`, index of the environment) before the permutation. -/
def code (order : Bool) (na nout i e : Nat) : Nat := if order then i + e * na else e + i * nout

theorem code_lt (order : Bool) {na nout i e : Nat} (hi : i < na) (he : e < nout) :
    code order na nout i e < nout * na := by
  unfold code
  split_ifs
  · rw [Nat.mul_comm nout]; exact pair_lt hi he
  · exact pair_lt he hi

theorem code_inj (order : Bool) {na nout i e i' e' : Nat} (hi : i < na) (he : e < nout) (hi' : i' < na)
    (he' : e' < nout) (h : code order na nout i e = code order na nout i' e') : i = i' ∧ e = e' := by
  unfold code at h
  split_ifs at h
  · exact pair_inj hi hi' h
  · exact (pair_inj he he' h).symm

theorem code_surj (order : Bool) {na nout k : Nat} (hk : k < nout * na) :
    ∃ i e, i < na ∧ e < nout ∧ code order na nout i e = k := by
  cases order
  · have h0 : 0 < nout := Nat.pos_of_ne_zero (by rintro rfl; simp at hk)
    refine ⟨k / nout, k % nout, Nat.div_lt_of_lt_mul hk, Nat.mod_lt _ h0, ?_⟩
    simp only [code]
    exact Nat.mod_add_div' k nout
  · have h0 : 0 < na := Nat.pos_of_ne_zero (by rintro rfl; simp at hk)
    refine ⟨k % na, k / na, Nat.mod_lt _ h0, Nat.div_lt_of_lt_mul (by rw [Nat.mul_comm]; exact hk), ?_⟩
    simp only [code, if_true]
    exact Nat.mod_add_div' k na

theorem pick_flatMap {β : Type} (L : List β) (g : β → List (Nat × Nat × α)) (i : Nat) :
    pick (L.flatMap g) i = L.flatMap fun x => pick (g x) i := by
  induction L with
  | nil => simp [pick]
  | cons x L ih => rw [List.flatMap_cons, pick_append, ih, List.flatMap_cons]

theorem filter_range_eq (n e : Nat) (he : e < n) (P : Nat → Bool) (hP : ∀ k, k < n → (P k = true ↔ k = e)) :
    (List.range n).filter P = [e] := by
  have h1 : (List.range n).filter P = (List.range n).filter (fun k => decide (k = e)) := by
    refine List.filter_congr ?_
    intro k hk
    have := hP k (List.mem_range.1 hk)
    by_cases hke : k = e
    · simp [hke, this.2, hP e he]
    · have : ¬ P k = true := fun h => hke (this.1 h)
      simp [hke, this]
  rw [h1]
  have h2 : ∀ m, (List.range m).filter (fun k => decide (k = e)) = if e < m then [e] else [] := by
    intro m
    induction m with
    | zero => simp
    | succ m ih =>
      rw [List.range_succ, List.filter_append, ih]
      by_cases h1 : e < m
      · rw [if_pos h1, if_pos (by omega)]
        simp; omega
      · by_cases h2 : m = e
        · subst h2; simp
        · rw [if_neg h1, if_neg (by omega)]; simp [h2]
  rw [h2 n, if_pos he]

theorem flatMap_range_single {β : Type} (n i : Nat) (hi : i < n) (F X : Nat → List β)
    (hX : ∀ k, k < n → F k = if k = i then X k else []) : (List.range n).flatMap F = X i := by
  have h2 : ∀ m, m ≤ n → (List.range m).flatMap F = if i < m then X i else [] := by
    intro m
    induction m with
    | zero => simp
    | succ m ih =>
      intro hm
      rw [List.range_succ, List.flatMap_append, ih (by omega), List.flatMap_singleton, hX m (by omega)]
      by_cases h1 : i < m
      · have e1 : i < m + 1 := by omega
        have e2 : ¬ m = i := by omega
        simp only [h1, e1, e2, if_true, if_false, List.append_nil]
      · by_cases h2 : m = i
        · subst h2; simp
        · have e1 : ¬ i < m + 1 := by omega
          simp only [h1, e1, h2, if_false, List.append_nil]
  rw [h2 n le_rfl, if_pos hi]

/-- Triples stored by the first overload. -/
def idTriples (A : Crs α) (nout : Nat) (cd : Nat → Nat → Nat) (g : α → Nat → α) :
    List (Nat × Nat × α) :=
  (triples A).flatMap fun t => (List.range nout).map fun ie => (cd t.1 ie, cd t.2.1 ie, g t.2.2 ie)

theorem pick_idTriples {A : Crs α} (nout : Nat) (cd : Nat → Nat → Nat) (g : α → Nat → α)
    (hinj : ∀ i e i' e', i < A.nrow → e < nout → i' < A.nrow → e' < nout → cd i e = cd i' e' →
      i = i' ∧ e = e') (i e : Nat) (hi : i < A.nrow) (he : e < nout) :
    pick (idTriples A nout cd g) (cd i e) = (row A i).map fun q => (cd q.1 e, g q.2 e) := by
  have inner : ∀ t : Nat × Nat × α, t.1 < A.nrow →
      pick ((List.range nout).map fun ie => (cd t.1 ie, cd t.2.1 ie, g t.2.2 ie)) (cd i e) =
        if t.1 = i then [(cd t.2.1 e, g t.2.2 e)] else [] := by
    intro t ht
    unfold pick
    rw [List.filter_map, List.map_map]
    by_cases h : t.1 = i
    · rw [if_pos h, filter_range_eq nout e he]
      · rfl
      · intro k hk
        simp only [Function.comp, decide_eq_true_eq]
        constructor
        · intro hh; exact (hinj _ _ _ _ ht hk hi he hh).2
        · rintro rfl; rw [h]
    · rw [if_neg h, List.filter_eq_nil_iff.2]
      · rfl
      · intro k hk
        simp only [Function.comp, decide_eq_true_eq]
        intro hh
        exact h (hinj _ _ _ _ ht (List.mem_range.1 hk) hi he hh).1
  unfold idTriples triples
  rw [pick_flatMap, List.flatMap_assoc]
  have := flatMap_range_single A.nrow i hi
    (fun x => ((row A x).map fun p => (x, p.1, p.2)).flatMap fun t =>
      pick ((List.range nout).map fun ie => (cd t.1 ie, cd t.2.1 ie, g t.2.2 ie)) (cd i e))
    (fun x => (row A x).map fun q => (cd q.1 e, g q.2 e)) (by
      intro k hk
      rw [List.flatMap_map]
      by_cases h : k = i
      · rw [if_pos h]
        have : ∀ l : List (Nat × α), (l.flatMap fun p => pick ((List.range nout).map fun ie =>
            (cd k ie, cd p.1 ie, g p.2 ie)) (cd i e)) = l.map fun q => (cd q.1 e, g q.2 e) := by
          intro l
          induction l with
          | nil => rfl
          | cons p l ih =>
            rw [List.flatMap_cons, ih, List.map_cons]
            have := inner (k, p.1, p.2) hk
            rw [if_pos h] at this
            simp only at this
            rw [this]; rfl
        exact this _
      · rw [if_neg h, List.flatMap_eq_nil_iff]
        intro p _
        have := inner (k, p.1, p.2) hk
        rw [if_neg h] at this
        exact this)
  exact this

theorem counts_id {A : Crs α} (h : Wf A) (nout : Nat) (cdo : Nat → Nat → Option Nat) (cd : Nat → Nat → Nat)
    (hcd : ∀ i e, i < A.nrow → e < nout → cdo i e = some (cd i e))
    (hlt : ∀ i e, i < A.nrow → e < nout → cd i e < nout * A.nrow)
    (hinj : ∀ i e i' e', i < A.nrow → e < nout → i' < A.nrow → e' < nout → cd i e = cd i' e' →
      i = i' ∧ e = e') :
    ∃ cnt, loopN A.nrow (fun ia cnt => (A.rowptr[ia]?).bind fun lo => (A.rowptr[ia + 1]?).bind fun hi =>
      loopN nout (fun ie cnt => (cdo ia ie).bind fun ib => setAt cnt ib (hi - lo)) cnt)
      (List.replicate (nout * A.nrow) 0) = some cnt ∧
      ∀ i e, i < A.nrow → e < nout → cnt[cd i e]? = some (row A i).length := by
  obtain ⟨cnt, h1, h2, h3⟩ := loopN_inv
    (fun ia (cnt : List Nat) => cnt.length = nout * A.nrow ∧
      ∀ i e, i < A.nrow → e < nout → i < ia → cnt[cd i e]? = some (row A i).length) A.nrow
    (fun ia cnt => (A.rowptr[ia]?).bind fun lo => (A.rowptr[ia + 1]?).bind fun hi =>
      loopN nout (fun ie cnt => (cdo ia ie).bind fun ib => setAt cnt ib (hi - lo)) cnt)
    (List.replicate (nout * A.nrow) 0) ⟨by simp, by simp⟩ (by
      rintro ia cnt hia ⟨g1, g2⟩
      rw [ptr_eq A ia (by rw [h.rowptr_length]; omega), ptr_eq A (ia + 1) (by rw [h.rowptr_length]; omega)]
      simp only [Option.bind_some]
      obtain ⟨cnt', e1, e2, e3, e4⟩ := loopN_inv
        (fun ie (cnt : List Nat) => cnt.length = nout * A.nrow ∧
          (∀ i e, i < A.nrow → e < nout → i < ia → cnt[cd i e]? = some (row A i).length) ∧
          (∀ e, e < nout → e < ie → cnt[cd ia e]? = some (row A ia).length)) nout
        (fun ie cnt => (cdo ia ie).bind fun ib => setAt cnt ib (ptr A (ia + 1) - ptr A ia)) cnt
        ⟨g1, g2, by simp⟩ (by
          rintro ie cnt hie ⟨k1, k2, k3⟩
          have hl := hlt ia ie hia hie
          refine ⟨cnt.set (cd ia ie) (row A ia).length, ?_, by simp [k1], ?_, ?_⟩
          · rw [hcd ia ie hia hie, row_length h ia hia]
            exact setAt_some (by rw [k1]; exact hl)
          · intro i e hi he hii
            rw [List.getElem?_set_ne (fun hh => by
              have := (hinj _ _ _ _ hia hie hi he hh).1; omega)]
            exact k2 i e hi he hii
          · intro e he hee
            by_cases hx : e = ie
            · subst hx; rw [List.getElem?_set_self (by rw [k1]; exact hl)]
            · rw [List.getElem?_set_ne (fun hh => hx (hinj _ _ _ _ hia hie hia he hh).2.symm)]
              exact k3 e he (by omega))
      refine ⟨cnt', e1, e2, ?_⟩
      intro i e hi he hii
      by_cases hx : i = ia
      · subst hx; exact e4 e he he
      · exact e3 i e hi he (by omega))
  exact ⟨cnt, h1, fun i e hi he => h3 i e hi he hi⟩

theorem extId_rows [CommRing α] {A : Crs α} (h : Wf A) (hsq : A.nrow = A.ncol) (old : Crs α) (nout : Nat)
    (signs : List α) (order : Bool) (perm : List Nat) (hperm : perm.Perm (List.range (nout * A.nrow)))
    (hsg : order = false → signs.length = nout) (hchk : A.nrow > 0 → checkValidity A = some ()) :
    ∃ (m : Crs α) (rows : List (List (Nat × α))),
      IsRows m (nout * A.nrow) (nout * A.ncol) rows ∧
      (∀ i e, i < A.nrow → e < nout → rows[perm.getD (code order A.nrow nout i e) 0]? =
        some ((row A i).map fun q => (perm.getD (code order A.nrow nout q.1 e) 0,
          q.2 * if order then 1 else signs.getD e 0))) ∧
      externalProductId old A nout signs order perm =
        (if nout * A.nrow ≠ 0 then checkValidity m else some ()).bind fun _ => some m := by
  have hl : perm.length = nout * A.nrow := by simpa using hperm.length_eq
  have hnd : perm.Nodup := hperm.nodup_iff.2 List.nodup_range
  let cd : Nat → Nat → Nat := fun i e => perm.getD (code order A.nrow nout i e) 0
  let g : α → Nat → α := fun v e => v * if order then 1 else signs.getD e 0
  have hcd : ∀ i e, i < A.nrow → e < nout → perm[code order A.nrow nout i e]? = some (cd i e) := by
    intro i e hi he
    have := code_lt order hi he
    rw [← hl] at this
    simp only [cd, getD_lt _ _ this]
    exact List.getElem?_eq_getElem this
  have hlt : ∀ i e, i < A.nrow → e < nout → cd i e < nout * A.nrow := by
    intro i e hi he
    have := code_lt order hi he
    rw [← hl] at this
    simp only [cd, getD_lt _ _ this]
    exact List.mem_range.1 (hperm.mem_iff.1 (List.getElem_mem this))
  have hinj : ∀ i e i' e', i < A.nrow → e < nout → i' < A.nrow → e' < nout → cd i e = cd i' e' →
      i = i' ∧ e = e' := by
    intro i e i' e' hi he hi' he' hh
    have h1 := code_lt order hi he
    have h2 := code_lt order hi' he'
    rw [← hl] at h1 h2
    simp only [cd, getD_lt _ _ h1, getD_lt _ _ h2] at hh
    exact code_inj order hi he hi' he' ((hnd.getElem_inj_iff).1 hh)
  have hsurj : ∀ k, k < nout * A.nrow → ∃ i e, i < A.nrow ∧ e < nout ∧ cd i e = k := by
    intro k hk
    have : k ∈ perm := hperm.mem_iff.2 (List.mem_range.2 hk)
    obtain ⟨p, hp, e⟩ := List.getElem_of_mem this
    obtain ⟨i, e', hi, he, hc⟩ := code_surj order (k := p) (na := A.nrow) (nout := nout) (by omega)
    refine ⟨i, e', hi, he, ?_⟩
    simp only [cd, hc, getD_lt _ _ hp, e]
  set T := idTriples A nout cd g with hTdef
  have hT : ∀ t ∈ T, t.1 < nout * A.nrow := by
    intro t ht
    obtain ⟨u, hu, ht'⟩ := List.mem_flatMap.1 ht
    obtain ⟨e, he, rfl⟩ := List.mem_map.1 ht'
    exact hlt _ _ (triples_lt h u hu).1 (List.mem_range.1 he)
  have hlen : (rowsOf (nout * A.nrow) T).flatten.length = nout * A.colind.length := by
    rw [rowsOf_flatten_length _ _ hT, hTdef, idTriples, List.length_flatMap, ← triples_length h]
    simp [Nat.mul_comm]
  obtain ⟨cnt, c1, c3⟩ := counts_id h nout (fun i e => perm[code order A.nrow nout i e]?) cd hcd hlt hinj
  obtain ⟨b', e1, e2, e3, e4, e5, e6, e7⟩ := setPtrs_spec (nout * A.nrow) cnt
    (resize3 old (nout * A.nrow) (nout * A.ncol) (nout * A.colind.length))
    (rowsOf (nout * A.nrow) T) (by simp [rowsOf]) (by
      intro k hk
      have hk' : k < nout * A.nrow := by simpa [rowsOf] using hk
      obtain ⟨i, e, hi, he, rfl⟩ := hsurj k hk'
      rw [c3 i e hi he]
      simp only [rowsOf, List.getElem_map, List.getElem_range, hTdef]
      rw [pick_idTriples nout cd g hinj i e hi he, List.length_map])
      (by simp only [resize3]; rw [resizeL_length])
  let b2 : Crs α := { b' with rowptr := b'.rowptr.set (nout * A.nrow) (nout * A.colind.length) }
  have hset : setRow b' (nout * A.nrow) (nout * A.colind.length) = some b2 := by
    simp [setRow, setAt_some (show nout * A.nrow < b'.rowptr.length by omega), b2]
  obtain ⟨m, s', e8, e9⟩ := scatter_spec (nout * A.nrow) (nout * A.ncol) T hT b2
    (b2.rowptr.take (nout * A.nrow))
    (by simp [b2, e2]) (by
      intro j hj
      simp only [b2]
      by_cases e : nout * A.nrow = j
      · subst e
        rw [List.getElem?_set_self (by omega)]
        have := pos_length (rowsOf (nout * A.nrow) T)
        rw [show (rowsOf (nout * A.nrow) T).length = nout * A.nrow by simp [rowsOf]] at this
        rw [this, hlen]
      · rw [List.getElem?_set_ne e]; exact e3 j (by omega))
    (by simp only [b2, e4, resize3]; rw [resizeL_length, hlen])
    (by simp only [b2, e5, resize3]; rw [resizeL_length, hlen])
    (by simp only [b2, e6, resize3]) (by simp only [b2, e7, resize3]) rfl
  refine ⟨m, _, e9, ?_, ?_⟩
  · intro i e hi he
    have hk := hlt i e hi he
    rw [rowsOf, List.getElem?_map, List.getElem?_range hk, Option.map_some, hTdef,
      pick_idTriples nout cd g hinj i e hi he]
  · unfold externalProductId
    have hc0 : (if A.nrow > 0 then checkValidity A else some ()) = some () := by
      split_ifs with h0
      · exact hchk h0
      · rfl
    simp only [hc0, h.nonZeros, bind, Option.bind_some]
    rw [if_neg (not_not.2 hsq), if_neg (by rw [hl, Nat.mul_comm]; simp)]
    have c1' : loopN A.nrow (fun ia cnt => (A.rowptr[ia]?).bind fun lo => (A.rowptr[ia + 1]?).bind fun hi =>
        loopN nout (fun ie cnt => (perm[if order = true then ia + ie * A.nrow else ie + ia * nout]?).bind
          fun ib => setAt cnt ib (hi - lo)) cnt) (List.replicate (nout * A.nrow) 0) = some cnt := c1
    rw [c1']
    simp only [Option.bind_some, e1]
    rw [if_neg (by rw [hlen]; simp), hset]
    simp only [Option.bind_some]
    have e10 : loopN A.nrow (fun ia s => rowLoop A ia (fun ja aij s =>
        loopN nout (fun ie s => (if order = true then some aij else (signs[ie]?).map fun x => aij * x).bind
          fun bij => (perm[if order = true then ia + ie * A.nrow else ie + ia * nout]?).bind fun pib =>
          (perm[if order = true then ja + ie * A.ncol else ie + ja * nout]?).bind fun pjb =>
          scatterStep pib pjb bij s) s) s) (b2, b2.rowptr.take (nout * A.nrow)) = some (m, s') := by
      rw [nested_foldlM h (fun ia ja aij s =>
        loopN nout (fun ie s => (if order = true then some aij else (signs[ie]?).map fun x => aij * x).bind
          fun bij => (perm[if order = true then ia + ie * A.nrow else ie + ia * nout]?).bind fun pib =>
          (perm[if order = true then ja + ie * A.ncol else ie + ja * nout]?).bind fun pjb =>
          scatterStep pib pjb bij s) s), ← e8, hTdef, idTriples, foldlM_flatMap]
      refine foldlM_congr _ _ _ _ (fun s t ht => ?_)
      rw [loopN_foldlM, foldlM_map']
      refine foldlM_congr _ _ _ _ (fun s e he => ?_)
      have he' := List.mem_range.1 he
      obtain ⟨ht1, ht2⟩ := triples_lt h t ht
      have hv : (if order = true then some t.2.2 else (signs[e]?).map fun x => t.2.2 * x) =
          some (g t.2.2 e) := by
        by_cases ho : order = true
        · simp [ho, g]
        · have : signs.length = nout := hsg (by simpa using ho)
          rw [if_neg ho, List.getElem?_eq_getElem (by omega)]
          simp only [g, if_neg ho, Option.map_some, getD_lt signs 0 (show e < signs.length by omega)]
      have hi1 := hcd t.1 e ht1 he'
      have hi2 := hcd t.2.1 e (by rw [hsq]; exact ht2) he'
      simp only [code] at hi1 hi2
      rw [hv, hi1, ← hsq, hi2]
      rfl
    rw [e10]
    rfl

theorem sumAt_code [CommRing α] {A : Crs α} (h : Wf A) (hsq : A.nrow = A.ncol) (nout : Nat) (order : Bool)
    (perm : List Nat) (hperm : perm.Perm (List.range (nout * A.nrow))) (x : α) (i e j e' : Nat)
    (he : e < nout) (hj : j < A.nrow) (he' : e' < nout) :
    sumAt ((row A i).map fun q => (perm.getD (code order A.nrow nout q.1 e) 0, q.2 * x))
      (perm.getD (code order A.nrow nout j e') 0) = if e = e' then entry A i j * x else 0 := by
  have hl : perm.length = nout * A.nrow := by simpa using hperm.length_eq
  have hnd : perm.Nodup := hperm.nodup_iff.2 List.nodup_range
  have hiff : ∀ a, a < A.nrow → (perm.getD (code order A.nrow nout a e) 0 =
      perm.getD (code order A.nrow nout j e') 0 ↔ a = j ∧ e = e') := by
    intro a ha
    have h1 := code_lt order ha he
    have h2 := code_lt order hj he'
    rw [← hl] at h1 h2
    constructor
    · intro hh
      rw [getD_lt _ _ h1, getD_lt _ _ h2] at hh
      exact code_inj order ha he hj he' ((hnd.getElem_inj_iff).1 hh)
    · rintro ⟨rfl, rfl⟩; rfl
  have : ∀ l : List (Nat × α), (∀ q ∈ l, q.1 < A.nrow) →
      sumAt (l.map fun q => (perm.getD (code order A.nrow nout q.1 e) 0, q.2 * x))
        (perm.getD (code order A.nrow nout j e') 0) = if e = e' then sumAt l j * x else 0 := by
    intro l hl
    induction l with
    | nil => simp
    | cons q l ih =>
      rw [List.map_cons, sumAt_cons, ih (fun q hq => hl q (by simp [hq])), sumAt_cons]
      by_cases h1 : q.1 = j
      · by_cases h2 : e = e'
        · rw [if_pos ((hiff q.1 (hl q (by simp))).2 ⟨h1, h2⟩), if_pos h2, if_pos h2, if_pos h1]; ring
        · rw [if_neg (fun hh => h2 ((hiff q.1 (hl q (by simp))).1 hh).2), if_neg h2, if_neg h2]; ring
      · rw [if_neg (fun hh => h1 ((hiff q.1 (hl q (by simp))).1 hh).1), if_neg h1]
        simp
  exact this _ (fun q hq => hsq ▸ h.col_lt hq)

end Verif.Crs
