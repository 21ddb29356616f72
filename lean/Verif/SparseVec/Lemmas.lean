import Verif.SparseVec.Spec
import Verif.Crs.Lemmas
import Verif.SortM.Lemmas

/-! # Lemmas for sparse vectors and rows -/

namespace Verif.SparseVec

open Verif.Loop Verif.SortM
open Verif.Crs (sumAt sumAt_cons sumAt_append sumAt_snoc sumAt_of_not_mem sumAt_eq_of_mem)

variable {α : Type}

theorem sumAt_perm [AddCommMonoid α] {l l' : List (Nat × α)} (h : l.Perm l') (k : Nat) :
    sumAt l k = sumAt l' k := by
  unfold sumAt
  exact ((h.filter _).map _).sum_eq

/-- State of the merging loop after `i` pairs. -/
structure GInv [AddCommMonoid α] (L : List (Nat × α)) (i : Nat) (out : List (Nat × α)) (prev : Nat)
    (value : α) : Prop where
  prevEq : ∀ (h : i - 1 < L.length), prev = L[i - 1].1
  sorted : (out.map (fun p => p.1) ++ [prev]).Pairwise (· < ·)
  sums : ∀ k, sumAt (out ++ [(prev, value)]) k = sumAt (L.take i) k
  mem : ∀ k ∈ (L.take i).map (fun p => p.1), k ∈ out.map (fun p => p.1) ∨ k = prev
  mem' : ∀ k ∈ out.map (fun p => p.1) ++ [prev], k ∈ L.map (fun p => p.1)

theorem GInv.same [AddCommMonoid α] {L : List (Nat × α)} {i out prev value} (h : GInv L i out prev value)
    (hi : i < L.length) (hc : L[i].1 = prev) : GInv L (i + 1) out prev (value + L[i].2) where
  prevEq := fun _ => by simp [hc]
  sorted := h.sorted
  sums := by
    intro k
    rw [List.take_succ_eq_append_getElem hi, sumAt_snoc (List.take i L), ← h.sums, sumAt_snoc, sumAt_snoc, hc]
    by_cases e : prev = k <;> simp [e, add_assoc]
  mem := by
    intro k hk
    rw [List.take_succ_eq_append_getElem hi, List.map_append, List.mem_append] at hk
    rcases hk with hk | hk
    · exact h.mem k hk
    · right; simp at hk; rw [hk, hc]
  mem' := h.mem'

theorem GInv.next [AddCommMonoid α] {L : List (Nat × α)} (hs : L.Pairwise fun a b => a.1 ≤ b.1) {i out prev value}
    (h : GInv L i out prev value) (hi : i < L.length) (hc : L[i].1 ≠ prev) :
    GInv L (i + 1) (out ++ [(prev, value)]) L[i].1 L[i].2 where
  prevEq := fun _ => by simp
  sorted := by
    have hp := h.prevEq (by omega)
    have hi0 : i ≠ 0 := by rintro rfl; exact hc (by simpa using hp.symm)
    have hle : L[i - 1].1 ≤ L[i].1 := List.pairwise_iff_getElem.1 hs (i - 1) i (by omega) hi (by omega)
    have hlt : prev < L[i].1 := by omega
    rw [List.map_append, List.map_cons, List.map_nil, List.pairwise_append]
    refine ⟨h.sorted, by simp, ?_⟩
    intro a ha b hb
    rw [List.mem_singleton] at hb
    subst hb
    have := List.pairwise_append.1 h.sorted
    rcases List.mem_append.1 ha with ha | ha
    · exact lt_trans (this.2.2 a ha prev (by simp)) hlt
    · rw [List.mem_singleton] at ha; rw [ha]; exact hlt
  sums := by
    intro k
    rw [List.take_succ_eq_append_getElem hi, sumAt_snoc (List.take i L), ← h.sums, sumAt_snoc]
  mem := by
    intro k hk
    rw [List.take_succ_eq_append_getElem hi, List.map_append, List.mem_append] at hk
    rcases hk with hk | hk
    · left
      rw [List.map_append, List.mem_append]
      rcases h.mem k hk with h | h
      · exact Or.inl h
      · right; simp [h]
    · right; simpa using hk
  mem' := by
    intro k hk
    rw [List.map_append, List.mem_append] at hk
    rcases hk with hk | hk
    · exact h.mem' k hk
    · simp only [List.mem_singleton] at hk
      subst hk
      exact List.mem_map.2 ⟨L[i], List.getElem_mem _, rfl⟩

theorem GInv.start [AddCommMonoid α] {L : List (Nat × α)} (h : 0 < L.length) : GInv L 0 [] L[0].1 0 where
  prevEq := fun _ => rfl
  sorted := by simp
  sums := by intro k; rw [sumAt_snoc]; simp [sumAt]
  mem := by simp
  mem' := by
    intro k hk
    simp only [List.map_nil, List.nil_append, List.mem_singleton] at hk
    subst hk
    exact List.mem_map.2 ⟨L[0], List.getElem_mem _, rfl⟩

theorem GInv.start1 [AddCommMonoid α] {L : List (Nat × α)} (h : 0 < L.length) : GInv L 1 [] L[0].1 L[0].2 := by
  have := (GInv.start h).same h rfl
  rwa [zero_add, zero_add] at this

theorem GInv.finish [AddCommMonoid α] {L : List (Nat × α)} {out prev value}
    (h : GInv L L.length out prev value) :
    ((out ++ [(prev, value)]).map (fun p => p.1)).Pairwise (· < ·) ∧
    (∀ k, sumAt (out ++ [(prev, value)]) k = sumAt L k) ∧
    ∀ k, k ∈ (out ++ [(prev, value)]).map (fun p => p.1) ↔ k ∈ L.map (fun p => p.1) := by
  refine ⟨by simpa using h.sorted, fun k => by rw [h.sums, List.take_length], fun k => ⟨fun hk => ?_, fun hk => ?_⟩⟩
  · exact h.mem' k (by simpa using hk)
  · have := h.mem k (by rw [List.take_length]; exact hk)
    simpa using this

/-- The loop of `finalize`. -/
theorem finLoop_spec [AddCommMonoid α] (check : Bool) (m : Crs.Crs α) (cols iperm : List Nat) (values : List α)
    (L : List (Nat × α)) (hs : L.Pairwise fun a b => a.1 ≤ b.1) (hL : 0 < L.length)
    (h : ∀ i (hi : i < L.length), cols[i]? = some L[i].1 ∧ ∃ p, iperm[i]? = some p ∧ values[p]? = some L[i].2)
    (hc : check = true → ∀ p ∈ L, p.1 < m.ncol) :
    ∃ g : List (Nat × α),
      finLoop check m cols iperm values L.length =
        some (⟨m.rowptr, m.colind ++ g.map (fun p => p.1), m.values ++ g.map (fun p => p.2), m.nrow, m.ncol⟩,
          g.length) ∧
      (g.map (fun p => p.1)).Pairwise (· < ·) ∧ (∀ k, sumAt g k = sumAt L k) ∧
      ∀ k, k ∈ g.map (fun p => p.1) ↔ k ∈ L.map (fun p => p.1) := by
  unfold finLoop
  rw [(h 0 hL).1]
  simp only [bind, Option.bind_some]
  obtain ⟨⟨m1, cnt, value, prev⟩, h1, out, h2, h3, h4⟩ := loopN_inv
    (fun i (st : Crs.Crs α × Nat × α × Nat) => ∃ out : List (Nat × α), GInv L i out st.2.2.2 st.2.2.1 ∧
      st.1 = ⟨m.rowptr, m.colind ++ out.map (fun p => p.1), m.values ++ out.map (fun p => p.2), m.nrow, m.ncol⟩ ∧
      st.2.1 = out.length) L.length
    (fun i (st : Crs.Crs α × Nat × α × Nat) =>
      cols[i]?.bind fun c =>
      if check = true ∧ ¬ c < st.1.ncol then none
      else iperm[i]?.bind fun p => values[p]?.bind fun v =>
        if c = st.2.2.2 then some (st.1, st.2.1, st.2.2.1 + v, st.2.2.2)
        else some (Crs.push st.1 st.2.2.2 st.2.2.1, st.2.1 + 1, v, c)) (m, 0, 0, L[0].1)
    ⟨[], GInv.start hL, by simp, rfl⟩ (by
      rintro i ⟨m1, cnt, value, prev⟩ hi ⟨out, h2, h3, h4⟩
      obtain ⟨g1, p, g2, g3⟩ := h i hi
      simp only at h2 h3 h4
      subst h3
      simp only [g1, g2, g3, Option.bind_some]
      rw [if_neg (by rintro ⟨hk, hn⟩; exact hn (hc hk _ (List.getElem_mem _)))]
      by_cases e : L[i].1 = prev
      · rw [if_pos e]
        exact ⟨_, rfl, out, h2.same hi e, rfl, h4⟩
      · rw [if_neg e]
        exact ⟨_, rfl, out ++ [(prev, value)], h2.next hs hi e, by simp [Crs.push], by simp [h4]⟩)
  simp only at h2 h3 h4
  obtain ⟨f1, f2, f3⟩ := h2.finish
  refine ⟨out ++ [(prev, value)], ?_, f1, f2, f3⟩
  rw [h1]
  simp [Crs.push, h3, h4]

/-- The loop of `sort`. -/
theorem sortMerge_spec [AddCommMonoid α] {R : Type} [LT R] [DecidableLT R] (nrm : α → R) (eps : R)
    (L : List (Nat × α)) (hs : L.Pairwise fun a b => a.1 ≤ b.1) (hL : 0 < L.length) :
    ∃ g : List (Nat × α),
      sortMerge nrm eps (L.map fun p => p.1) (L.map fun p => p.2) =
        some ((g.filter fun p => decide (nrm p.2 > eps)).map (fun p => p.2),
          (g.filter fun p => decide (nrm p.2 > eps)).map (fun p => p.1)) ∧
      (g.map (fun p => p.1)).Pairwise (· < ·) ∧ (∀ k, sumAt g k = sumAt L k) ∧
      ∀ k, k ∈ g.map (fun p => p.1) ↔ k ∈ L.map (fun p => p.1) := by
  unfold sortMerge
  have e0 : (L.map fun p => p.1)[0]? = some L[0].1 := by simp [hL]
  have e1 : (L.map fun p => p.2)[0]? = some L[0].2 := by simp [hL]
  rw [e0, e1]
  simp only [bind, Option.bind_some]
  obtain ⟨⟨outV, outI, sum, prev⟩, h1, out, h2, h3, h4⟩ := loopFrom_inv
    (fun i (st : List α × List Nat × α × Nat) => ∃ out : List (Nat × α), GInv L i out st.2.2.2 st.2.2.1 ∧
      st.1 = (out.filter fun p => decide (nrm p.2 > eps)).map (fun p => p.2) ∧
      st.2.1 = (out.filter fun p => decide (nrm p.2 > eps)).map (fun p => p.1)) 1 (L.map fun p => p.1).length
    (by rw [List.length_map]; exact hL)
    (fun i (st : List α × List Nat × α × Nat) =>
      (L.map fun p => p.1)[i]?.bind fun c => (L.map fun p => p.2)[i]?.bind fun v =>
      if c ≠ st.2.2.2 then
        if nrm st.2.2.1 > eps then some (st.1 ++ [st.2.2.1], st.2.1 ++ [st.2.2.2], v, c)
        else some (st.1, st.2.1, v, c)
      else some (st.1, st.2.1, st.2.2.1 + v, st.2.2.2)) ([], [], L[0].2, L[0].1)
    ⟨[], GInv.start1 hL, by simp, by simp⟩ (by
      rintro i ⟨outV, outI, sum, prev⟩ - hi ⟨out, h2, h3, h4⟩
      rw [List.length_map] at hi
      simp only at h2 h3 h4
      have g1 : (L.map fun p => p.1)[i]? = some L[i].1 := by simp [hi]
      have g2 : (L.map fun p => p.2)[i]? = some L[i].2 := by simp [hi]
      simp only [g1, g2, Option.bind_some]
      by_cases e : L[i].1 = prev
      · rw [if_neg (by simpa using e)]
        exact ⟨_, rfl, out, h2.same hi e, h3, h4⟩
      · rw [if_pos e]
        by_cases e2 : nrm sum > eps
        · rw [if_pos e2]
          refine ⟨_, rfl, out ++ [(prev, sum)], h2.next hs hi e, ?_, ?_⟩
          · simp only; rw [h3]; simp [e2]
          · simp only; rw [h4]; simp [e2]
        · rw [if_neg e2]
          refine ⟨_, rfl, out ++ [(prev, sum)], h2.next hs hi e, ?_, ?_⟩
          · simp only; rw [h3]; simp [e2]
          · simp only; rw [h4]; simp [e2])
  rw [List.length_map] at h2
  simp only at h2 h3 h4
  obtain ⟨f1, f2, f3⟩ := h2.finish
  refine ⟨out ++ [(prev, sum)], ?_, f1, f2, f3⟩
  rw [h1]
  simp only [Option.bind_some]
  by_cases e2 : nrm sum > eps
  · rw [if_pos e2, h3, h4]; simp [e2]
  · rw [if_neg e2, h3, h4]; simp [e2]

/-- Sorted pairs out of a `Sort` run. -/
theorem stdSort_pairs {x : List Nat} {vals : List α} {q : List (Nat × Nat)} (hl : x.length ≤ vals.length)
    (h : StdSort x.zipIdx q) :
    ∃ L : List (Nat × α), L.Perm (x.zip vals) ∧ (L.Pairwise fun a b => a.1 ≤ b.1) ∧ L.length = q.length ∧
      (q.map Prod.fst = L.map fun p => p.1) ∧
      (∀ i (hi : i < L.length), ∃ p, (q.map Prod.snd)[i]? = some p ∧ p < x.length ∧
        vals[p]? = some L[i].2) := by
  cases hx : vals with
  | nil =>
    subst hx
    have : x = [] := List.eq_nil_of_length_eq_zero (by simpa using hl)
    subst this
    have : q = [] := by simpa using h.1
    subst this
    exact ⟨[], by simp, by simp, rfl, rfl, by simp⟩
  | cons v0 vs =>
    rw [← hx]
    have hq : ∀ c ∈ q, c.2 < x.length ∧ x[c.2]? = some c.1 := by
      intro c hc
      have := h.1.mem_iff.1 hc
      have h2 := List.mem_zipIdx_iff_getElem?.1 this
      exact ⟨(List.getElem?_eq_some_iff.1 h2).1, h2⟩
    refine ⟨q.map fun c => (c.1, vals.getD c.2 v0), ?_, ?_, by simp, by simp [Function.comp_def], ?_⟩
    · have e : x.zip vals = x.zipIdx.map fun c => (c.1, vals.getD c.2 v0) := by
        apply List.ext_getElem
        · simp; omega
        · intro i h1 h2
          simp only [List.length_zip] at h1
          have : i < vals.length := by omega
          simp [this]
      rw [e]
      exact h.1.map _
    · rw [List.pairwise_map]
      exact h.2.imp fun h => not_lt.1 h
    · intro i hi
      rw [List.length_map] at hi
      have := hq q[i] (List.getElem_mem _)
      refine ⟨q[i].2, by simp [hi], this.1, ?_⟩
      have h3 : q[i].2 < vals.length := by omega
      simp [h3]

theorem zip_map_fst {β γ : Type} (a : List β) (b : List γ) (h : a.length ≤ b.length) :
    (a.zip b).map (fun p => p.1) = a := by
  have := List.map_fst_zip (l₁ := a) (l₂ := b) h
  exact this

theorem mapM_some {β γ : Type} (f : β → Option γ) (l : List β) (r : List γ) :
    l.mapM f = some r ↔ r.length = l.length ∧
      ∀ i (h : i < l.length) (h' : i < r.length), f l[i] = some r[i] := by
  induction l generalizing r with
  | nil => cases r <;> simp
  | cons a l ih =>
    rw [List.mapM_cons]
    constructor
    · intro h
      simp only [bind, pure, Option.bind_eq_some_iff] at h
      obtain ⟨b, hb, bs, hbs, hr⟩ := h
      obtain rfl := Option.some.inj hr
      obtain ⟨h1, h2⟩ := (ih bs).1 hbs
      refine ⟨by simp [h1], ?_⟩
      intro i hi hi'
      cases i with
      | zero => simpa using hb
      | succ i => simpa using h2 i (by simpa using hi) (by simpa using hi')
    · rintro ⟨h1, h2⟩
      cases r with
      | nil => simp at h1
      | cons b bs =>
        have hb := h2 0 (by simp) (by simp)
        have hbs := (ih bs).2 ⟨by simpa using h1, fun i hi hi' => by
          have := h2 (i + 1) (by simpa using hi) (by simpa using hi')
          simpa using this⟩
        simp only [List.getElem_cons_zero] at hb
        rw [hb, hbs]
        rfl

/-! ### scalar product -/

theorem sumAt_filter [AddCommMonoid α] (g : List (Nat × α)) (hg : (g.map fun p => p.1).Nodup)
    (p : α → Bool) (k : Nat) :
    sumAt (g.filter fun q => p q.2) k = if p (sumAt g k) = true then sumAt g k else 0 := by
  by_cases hk : k ∈ g.map fun p => p.1
  · obtain ⟨q, hq, rfl⟩ := List.mem_map.1 hk
    have hn : ((g.filter fun q => p q.2).map fun p => p.1).Nodup :=
      List.Nodup.sublist (List.filter_sublist.map _) hg
    rw [sumAt_eq_of_mem hg hq]
    by_cases e : p q.2 = true
    · rw [if_pos e, sumAt_eq_of_mem hn (List.mem_filter.2 ⟨hq, e⟩)]
    · rw [if_neg e]
      apply sumAt_of_not_mem
      intro hm
      obtain ⟨q', hq', he⟩ := List.mem_map.1 hm
      obtain ⟨h1, h2⟩ := List.mem_filter.1 hq'
      have a1 := sumAt_eq_of_mem hg h1
      have a2 := sumAt_eq_of_mem hg hq
      rw [he, a2] at a1
      rw [a1] at e
      exact e h2
  · rw [sumAt_of_not_mem hk, sumAt_of_not_mem (fun hm => hk ?_)]
    · simp
    · obtain ⟨q', hq', he⟩ := List.mem_map.1 hm
      exact List.mem_map.2 ⟨q', (List.mem_filter.1 hq').1, he⟩

/-- The inner loop started at `j` (all earlier indices are smaller) adds `a * conj v_index` and
stops just after the last index `≤ index`. -/
theorem spInner_spec [CommRing α] [StarRing α] (index : Nat) (a : α) (rest : List (Nat × α))
    (hs : (rest.map fun p => p.1).Pairwise (· < ·)) (j : Nat) (sum : α) :
    ∃ t, t ≤ rest.length ∧ spInner index a rest j sum = (j + t, sum + a * star (sumAt rest index)) ∧
      ∀ i (hi : i < rest.length), i < t → rest[i].1 ≤ index := by
  induction rest generalizing j sum with
  | nil => exact ⟨0, by simp, by simp [spInner, sumAt], by simp⟩
  | cons p rest ih =>
    rw [List.map_cons, List.pairwise_cons] at hs
    unfold spInner
    by_cases h1 : p.1 < index
    · rw [if_pos h1]
      obtain ⟨t, t1, t2, t3⟩ := ih hs.2 (j + 1) sum
      refine ⟨t + 1, by simp; omega, ?_, ?_⟩
      · rw [t2, sumAt_cons, if_neg (by omega), zero_add]
        congr 1; omega
      · intro i hi hit
        cases i with
        | zero => simp; omega
        | succ i => simp at hi ⊢; exact t3 i hi (by omega)
    · rw [if_neg h1]
      by_cases h2 : p.1 > index
      · rw [if_pos h2]
        refine ⟨0, by simp, ?_, by simp⟩
        rw [sumAt_of_not_mem]
        · simp
        · intro hm
          rw [List.map_cons, List.mem_cons] at hm
          rcases hm with h | h
          · omega
          · have := hs.1 _ h; omega
      · rw [if_neg h2]
        have e : p.1 = index := by omega
        obtain ⟨t, t1, t2, t3⟩ := ih hs.2 (j + 1) (sum + a * star p.2)
        have hz : sumAt rest index = 0 := by
          apply sumAt_of_not_mem
          intro hm
          have := hs.1 _ hm; omega
        refine ⟨t + 1, by simp; omega, ?_, ?_⟩
        · rw [t2, sumAt_cons, if_pos e, hz, add_zero, star_zero, mul_zero, add_zero]
          congr 1; omega
        · intro i hi hit
          cases i with
          | zero => simp; omega
          | succ i => simp at hi ⊢; exact t3 i hi (by omega)

theorem sumAt_drop [AddCommMonoid α] (l : List (Nat × α)) (j k : Nat)
    (h : ∀ i (hi : i < l.length), i < j → l[i].1 < k) : sumAt (l.drop j) k = sumAt l k := by
  conv_rhs => rw [← List.take_append_drop j l, sumAt_append]
  rw [sumAt_of_not_mem (l := l.take j), zero_add]
  intro hm
  obtain ⟨p, hp, rfl⟩ := List.mem_map.1 hm
  obtain ⟨i, hi, rfl⟩ := List.getElem_of_mem hp
  rw [List.length_take] at hi
  have := h i (by omega) (by omega)
  simp at this

theorem sp_loop [CommRing α] [StarRing α] (s v : SVec α) (hls : s.indices.length = s.values.length)
    (hlv : v.indices.length = v.values.length) (hs : Increasing s.indices) (hv : Increasing v.indices) :
    ∃ st : Nat × α, loopN s.indices.length (fun i (st : Nat × α) => do
      let index ← s.indices[i]?
      let a ← s.values[i]?
      let r := spInner index a ((v.indices.zip v.values).drop st.1) st.1 st.2
      some (if r.1 > 0 then r.1 - 1 else r.1, r.2)) (0, 0) = some st ∧
      st.2 = ((s.indices.zip s.values).map fun p => p.2 * star (coeff v p.1)).sum := by
  have hvm : (v.indices.zip v.values).map (fun p => p.1) = v.indices := zip_map_fst _ _ (by omega)
  obtain ⟨st, h1, h2, h3, h4⟩ := loopN_inv (fun i (st : Nat × α) =>
      st.1 ≤ (v.indices.zip v.values).length ∧
      (∀ (hi : i < s.indices.length) (t : Nat) (ht : t < (v.indices.zip v.values).length), t < st.1 →
        (v.indices.zip v.values)[t].1 < s.indices[i]) ∧
      st.2 = (((s.indices.zip s.values).take i).map fun p => p.2 * star (coeff v p.1)).sum)
    s.indices.length (fun i (st : Nat × α) => do
      let index ← s.indices[i]?
      let a ← s.values[i]?
      let r := spInner index a ((v.indices.zip v.values).drop st.1) st.1 st.2
      some (if r.1 > 0 then r.1 - 1 else r.1, r.2)) (0, 0) ⟨by simp, by simp, by simp⟩ (by
      rintro i ⟨j, sum⟩ hi ⟨g1, g2, g3⟩
      simp only at g1 g2 g3
      have hi' : i < s.values.length := by omega
      simp only [List.getElem?_eq_getElem hi, List.getElem?_eq_getElem hi', bind, Option.bind_some]
      obtain ⟨t, t1, t2, t3⟩ := spInner_spec s.indices[i] s.values[i] ((v.indices.zip v.values).drop j)
        (by rw [List.map_drop, hvm]; exact List.Pairwise.sublist (List.drop_sublist _ _) hv) j sum
      refine ⟨_, rfl, ?_, ?_, ?_⟩
      · rw [t2]
        rw [List.length_drop] at t1
        simp only
        split_ifs <;> omega
      · intro hi1 u hu hut
        rw [t2] at hut
        simp only at hut
        have hlt : u < j + t := by split_ifs at hut <;> omega
        have hii : s.indices[i] < s.indices[i + 1] :=
          List.pairwise_iff_getElem.1 hs i (i + 1) hi hi1 (by omega)
        by_cases huj : u < j
        · exact lt_trans (g2 hi u hu huj) hii
        · have := t3 (u - j) (by rw [List.length_drop]; omega) (by omega)
          rw [List.getElem_drop] at this
          have e : j + (u - j) = u := by omega
          simp only [e] at this
          omega
      · rw [t2]
        have hz : i < (s.indices.zip s.values).length := by simp; omega
        rw [List.take_succ_eq_append_getElem hz, List.map_append, List.sum_append, ← g3]
        simp only [List.map_cons, List.map_nil, List.sum_cons, List.sum_nil, add_zero, List.getElem_zip]
        rw [sumAt_drop _ _ _ (g2 hi)]
        rfl)
  refine ⟨st, h1, ?_⟩
  rw [h4, List.take_of_length_le (by simp)]

end Verif.SparseVec
