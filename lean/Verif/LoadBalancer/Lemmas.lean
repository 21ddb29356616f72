import Verif.LoadBalancer.Model
import Verif.SortM.Props
import Verif.LoadBalancer.Spec

namespace Verif.LoadBalancer

/-! ### Default balancer -/

theorem defaultBlockSize_eq (ntasks nthreads : Nat) (h : 0 < nthreads) :
    ∃ bs, defaultBlockSize ntasks nthreads = some bs ∧ ntasks ≤ bs * min nthreads ntasks ∧
      (ntasks = 0 ∨ bs = (ntasks + min nthreads ntasks - 1) / min nthreads ntasks) ∧
      (ntasks = 0 → bs = 0) := by
  have hne : nthreads ≠ 0 := by omega
  unfold defaultBlockSize
  simp only [hne, if_false]
  by_cases h1 : ntasks < nthreads ∧ ntasks > 0
  · simp only [h1, and_self, if_true, Nat.mod_self, ne_eq, not_true_eq_false, if_false]
    refine ⟨1, rfl, ?_, ?_, ?_⟩
    · have : min nthreads ntasks = ntasks := by omega
      rw [this]; omega
    · right
      have : min nthreads ntasks = ntasks := by omega
      rw [this]
      symm
      rw [Nat.div_eq_iff (by omega)]
      omega
    · omega
  · simp only [h1, if_false]
    by_cases h0 : ntasks = 0
    · subst h0; simp
    · have hm : min nthreads ntasks = nthreads := by omega
      rw [hm]
      refine ⟨_, rfl, ?_, ?_, by omega⟩
      · have := Nat.div_add_mod ntasks nthreads
        split
        · have hlt := Nat.mod_lt ntasks h
          rw [Nat.add_mul, Nat.mul_comm (ntasks / nthreads)]; omega
        · rename_i h2
          have h2' : ntasks % nthreads = 0 := by simpa using h2
          rw [Nat.mul_comm]; omega
      · right
        have hdm := Nat.div_add_mod ntasks nthreads
        have hlt := Nat.mod_lt ntasks h
        symm
        rw [Nat.div_eq_iff h]
        split
        · rename_i h2
          have h2' : ntasks % nthreads ≠ 0 := h2
          rw [Nat.add_mul, Nat.mul_comm (ntasks / nthreads)]; omega
        · rename_i h2
          have h2' : ntasks % nthreads = 0 := by simpa using h2
          rw [Nat.mul_comm]; omega

/-! ### min_element -/

theorem minElementLoop_spec : ∀ (xs pre : List Nat) (best bestIdx : Nat),
    pre[bestIdx]? = some best → (∀ y ∈ pre, best ≤ y) →
    ∃ m, (pre ++ xs)[minElementLoop best bestIdx pre.length xs]? = some m ∧
      ∀ y ∈ pre ++ xs, m ≤ y
  | [], pre, best, bestIdx, h1, h2 => by
    simp only [minElementLoop, List.append_nil]
    exact ⟨best, h1, h2⟩
  | x :: xs, pre, best, bestIdx, h1, h2 => by
    have hassoc : pre ++ x :: xs = (pre ++ [x]) ++ xs := by simp
    have hlen : pre.length + 1 = (pre ++ [x]).length := by simp
    simp only [minElementLoop]
    rw [hassoc, hlen]
    split
    · rename_i hlt
      refine minElementLoop_spec xs (pre ++ [x]) x pre.length (by simp) ?_
      intro y hy
      rcases List.mem_append.1 hy with h | h
      · exact Nat.le_of_lt (Nat.lt_of_lt_of_le hlt (h2 y h))
      · simp at h; omega
    · rename_i hnlt
      refine minElementLoop_spec xs (pre ++ [x]) best bestIdx ?_ ?_
      · have hlt : bestIdx < pre.length := (List.getElem?_eq_some_iff.1 h1).1
        rw [List.getElem?_append_left hlt]; exact h1
      · intro y hy
        rcases List.mem_append.1 hy with h | h
        · exact h2 y h
        · simp at h; omega

theorem lightest_spec (l : List Nat) (h : l ≠ []) :
    ∃ m, l[findThreadWithLightestWork l]? = some m ∧ ∀ y ∈ l, m ≤ y := by
  match l, h with
  | x :: xs, _ =>
    have := minElementLoop_spec xs [x] x 0 (by simp) (by simp)
    simpa [findThreadWithLightestWork] using this

/-! ### List helpers -/

theorem set_flatten_perm : ∀ (ll : List (List Nat)) (k : Nat) (l : List Nat) (t : Nat),
    ll[k]? = some l → (ll.set k (l ++ [t])).flatten.Perm (t :: ll.flatten)
  | [], k, l, t, h => by simp at h
  | a :: ll, 0, l, t, h => by
    simp at h; subst h
    simp only [List.set_cons_zero, List.flatten_cons, List.append_assoc]
    exact List.perm_middle
  | a :: ll, k + 1, l, t, h => by
    simp at h
    simp only [List.set_cons_succ, List.flatten_cons]
    exact ((set_flatten_perm ll k l t h).append_left a).trans List.perm_middle

theorem sum_set : ∀ (ws : List Nat) (k w d : Nat), ws[k]? = some w →
    (ws.set k (w + d)).sum = ws.sum + d
  | [], k, w, d, h => by simp at h
  | a :: ws, 0, w, d, h => by simp at h; subst h; simp; omega
  | a :: ws, k + 1, w, d, h => by
    simp at h; simp [sum_set ws k w d h]; omega

theorem le_sum_of_mem : ∀ {ws : List Nat} {w : Nat}, w ∈ ws → w ≤ ws.sum
  | a :: ws, w, h => by
    rcases List.mem_cons.1 h with rfl | h
    · simp
    · have := le_sum_of_mem h
      simp; omega

theorem length_mul_le_sum : ∀ (ws : List Nat) (m : Nat), (∀ y ∈ ws, m ≤ y) →
    ws.length * m ≤ ws.sum
  | [], m, _ => by simp
  | a :: ws, m, h => by
    have := length_mul_le_sum ws m (fun y hy => h y (by simp [hy]))
    have := h a (by simp)
    simp only [List.length_cons, List.sum_cons, Nat.add_mul]; omega

/-- Loop invariant of the assignment. -/
structure Inv (weights : List Nat) (wmax : Nat) (nth n : Nat) (doneTasks : List Nat)
    (s : List (List Nat) × List Nat) : Prop where
  len1 : s.1.length = nth
  len2 : s.2.length = n
  perm : s.1.flatten.Perm doneTasks
  load : ∀ k, k < n → s.2[k]? = some (loadOf weights (s.1.getD k []))
  rest : ∀ k, n ≤ k → s.1.getD k [] = []
  tot : s.2.sum = loadOf weights doneTasks
  bound : ∀ w ∈ s.2, n * w ≤ s.2.sum + (n - 1) * wmax

theorem assignStep_inv (weights : List Nat) (wmax nth n : Nat) (d : List Nat)
    (s : List (List Nat) × List Nat) (t : Nat) (hn : 0 < n) (hnn : n ≤ nth)
    (hmax : ∀ w ∈ weights, w ≤ wmax) (ht : t < weights.length)
    (h : Inv weights wmax nth n d s) :
    ∃ s', assignStep weights s t = some s' ∧ Inv weights wmax nth n (t :: d) s' := by
  have hne : s.2 ≠ [] := by intro h0; have := h.len2; simp [h0] at this; omega
  obtain ⟨m, hm1, hm2⟩ := lightest_spec s.2 hne
  have hklt : findThreadWithLightestWork s.2 < s.2.length := (List.getElem?_eq_some_iff.1 hm1).1
  generalize hk : findThreadWithLightestWork s.2 = k at *
  have hkn : k < n := by rw [← h.len2]; exact hklt
  have hk1 : k < s.1.length := by rw [h.len1]; omega
  have hl : s.1[k]? = some s.1[k] := List.getElem?_eq_getElem hk1
  have hwt : weights[t]? = some weights[t] := List.getElem?_eq_getElem ht
  have hgd : s.1.getD k [] = s.1[k] := by simp [List.getD, hl]
  have hmload : m = loadOf weights s.1[k] := by
    have := h.load k hkn
    rw [hm1, hgd] at this
    exact Option.some.inj this
  refine ⟨(s.1.set k (s.1[k] ++ [t]), s.2.set k (m + weights[t])), ?_, ?_⟩
  · simp only [assignStep, hk, hl, hm1, hwt]
  · have hsum : (s.2.set k (m + weights[t])).sum = s.2.sum + weights[t] := sum_set _ _ _ _ hm1
    have hwle : weights[t] ≤ wmax := hmax _ (List.getElem_mem _)
    have hmin := length_mul_le_sum s.2 m hm2
    rw [h.len2] at hmin
    refine ⟨by simp [h.len1], by simp [h.len2], ?_, ?_, ?_, ?_, ?_⟩
    · exact (set_flatten_perm _ _ _ _ hl).trans (h.perm.cons t)
    · intro k' hk'
      by_cases he : k = k'
      · subst he
        rw [List.getElem?_set_self (by omega)]
        simp only [List.getD, List.getElem?_set_self hk1, Option.getD_some]
        rw [hmload]
        simp [loadOf, List.getD, hwt]
      · rw [List.getElem?_set_ne he]
        have := h.load k' hk'
        rw [this]
        simp [List.getD, List.getElem?_set_ne he]
    · intro k' hk'
      have he : k ≠ k' := by omega
      have := h.rest k' hk'
      simpa [List.getD, List.getElem?_set_ne he] using this
    · rw [hsum, h.tot]
      simp [loadOf, List.getD, hwt]; omega
    · intro w hw
      rw [hsum]
      rcases List.mem_or_eq_of_mem_set hw with hw | rfl
      · have := h.bound w hw; omega
      · have e : n * weights[t] = weights[t] + (n - 1) * weights[t] := by
          obtain ⟨q, rfl⟩ : ∃ q, n = q + 1 := ⟨n - 1, by omega⟩
          simp [Nat.add_mul]; omega
        have e2 : (n - 1) * weights[t] ≤ (n - 1) * wmax := Nat.mul_le_mul_left _ hwle
        rw [Nat.mul_add]
        omega

theorem assignLoop_inv (weights : List Nat) (wmax nth n : Nat) (hn : 0 < n) (hnn : n ≤ nth)
    (hmax : ∀ w ∈ weights, w ≤ wmax) : ∀ (ts d : List Nat) (s : List (List Nat) × List Nat),
    (∀ t ∈ ts, t < weights.length) → Inv weights wmax nth n d s →
    ∃ s', assignLoop weights s ts = some s' ∧ Inv weights wmax nth n (ts.reverse ++ d) s'
  | [], d, s, _, h => ⟨s, rfl, h⟩
  | t :: ts, d, s, ht, h => by
    obtain ⟨s1, e1, h1⟩ := assignStep_inv weights wmax nth n d s t hn hnn hmax (ht t (by simp)) h
    obtain ⟨s2, e2, h2⟩ := assignLoop_inv weights wmax nth n hn hnn hmax ts (t :: d) s1
      (fun x hx => ht x (by simp [hx])) h1
    exact ⟨s2, by simp [assignLoop, e1, e2], by simpa using h2⟩

/-- Invariant used for the balance of the result: no thread is ahead of another by more than any
one of its own tasks. -/
def Bal (weights : List Nat) (n : Nat) (s : List (List Nat) × List Nat) : Prop :=
  ∀ a b, a < n → b < n → ∀ t ∈ s.1.getD a [],
    loadOf weights (s.1.getD a []) ≤ loadOf weights (s.1.getD b []) + weights.getD t 0

theorem assignStep_bal (weights : List Nat) (wmax nth n : Nat) (d : List Nat)
    (s s' : List (List Nat) × List Nat) (t : Nat) (hn : 0 < n) (hnn : n ≤ nth)
    (ht : t < weights.length) (hd : ∀ x ∈ d, weights.getD t 0 ≤ weights.getD x 0)
    (h : Inv weights wmax nth n d s) (hb : Bal weights n s)
    (e : assignStep weights s t = some s') : Bal weights n s' := by
  have hne : s.2 ≠ [] := by intro h0; have := h.len2; simp [h0] at this; omega
  obtain ⟨m, hm1, hm2⟩ := lightest_spec s.2 hne
  have hklt : findThreadWithLightestWork s.2 < s.2.length := (List.getElem?_eq_some_iff.1 hm1).1
  generalize hk : findThreadWithLightestWork s.2 = k at *
  have hkn : k < n := by rw [← h.len2]; exact hklt
  have hk1 : k < s.1.length := by rw [h.len1]; omega
  have hl : s.1[k]? = some s.1[k] := List.getElem?_eq_getElem hk1
  have hwt : weights[t]? = some weights[t] := List.getElem?_eq_getElem ht
  have hgd : s.1.getD k [] = s.1[k] := by simp [List.getD, hl]
  have hmin : ∀ b, b < n → loadOf weights (s.1.getD k []) ≤ loadOf weights (s.1.getD b []) := by
    intro b hbn
    have h1 := h.load k hkn
    have h2 := h.load b hbn
    rw [hm1] at h1
    rw [← Option.some.inj h1]
    exact hm2 _ (List.mem_of_getElem? h2)
  have hmem : ∀ x ∈ s.1.getD k [], x ∈ d := by
    intro x hx
    rw [hgd] at hx
    exact h.perm.mem_iff.1 (List.mem_flatten.2 ⟨_, List.getElem_mem _, hx⟩)
  simp only [assignStep, hk, hl, hm1, hwt, Option.some.injEq] at e
  subst e
  have hself : (s.1.set k (s.1[k] ++ [t])).getD k [] = s.1.getD k [] ++ [t] := by
    rw [hgd]; simp [List.getD, List.getElem?_set_self hk1]
  have hoth : ∀ b, b ≠ k → (s.1.set k (s.1[k] ++ [t])).getD b [] = s.1.getD b [] := by
    intro b hbk; simp [List.getD, List.getElem?_set_ne (Ne.symm hbk)]
  have hload : loadOf weights (s.1.getD k [] ++ [t]) =
      loadOf weights (s.1.getD k []) + weights.getD t 0 := by simp [loadOf]
  intro a b han hbn x hx
  simp only at hx ⊢
  by_cases hak : a = k
  · subst hak
    rw [hself] at hx ⊢
    rw [hload]
    have hx' : weights.getD t 0 ≤ weights.getD x 0 := by
      rcases List.mem_append.1 hx with hx | hx
      · exact hd x (hmem x hx)
      · rw [List.mem_singleton.1 hx]
    by_cases hbk : b = a
    · subst hbk; rw [hself, hload]; omega
    · rw [hoth b hbk]
      have := hmin b hbn
      omega
  · rw [hoth a hak] at hx ⊢
    have := hb a b han hbn x hx
    by_cases hbk : b = k
    · subst hbk; rw [hself, hload]; omega
    · rw [hoth b hbk]; exact this

theorem assignLoop_bal (weights : List Nat) (wmax nth n : Nat) (hn : 0 < n) (hnn : n ≤ nth)
    (hmax : ∀ w ∈ weights, w ≤ wmax) : ∀ (ts d : List Nat) (s s' : List (List Nat) × List Nat),
    (∀ t ∈ ts, t < weights.length) →
    (ts.Pairwise fun x y => weights.getD y 0 ≤ weights.getD x 0) →
    (∀ x ∈ d, ∀ t ∈ ts, weights.getD t 0 ≤ weights.getD x 0) →
    Inv weights wmax nth n d s → Bal weights n s →
    assignLoop weights s ts = some s' → Bal weights n s'
  | [], d, s, s', _, _, _, _, hb, e => by
    simp only [assignLoop, Option.some.injEq] at e; subst e; exact hb
  | t :: ts, d, s, s', ht, hs, hd, h, hb, e => by
    obtain ⟨s1, e1, h1⟩ := assignStep_inv weights wmax nth n d s t hn hnn hmax (ht t (by simp)) h
    have hb1 := assignStep_bal weights wmax nth n d s s1 t hn hnn (ht t (by simp))
      (fun x hx => hd x hx t (by simp)) h hb e1
    simp only [assignLoop, e1] at e
    rw [List.pairwise_cons] at hs
    refine assignLoop_bal weights wmax nth n hn hnn hmax ts (t :: d) s1 s'
      (fun x hx => ht x (by simp [hx])) hs.2 ?_ h1 hb1 e
    intro x hx y hy
    rcases List.mem_cons.1 hx with rfl | hx
    · exact hs.1 y hy
    · exact hd x hx y (by simp [hy])

theorem replicate_nil_flatten : ∀ n, (List.replicate n ([] : List Nat)).flatten = []
  | 0 => rfl
  | n + 1 => by simp [List.replicate_succ, replicate_nil_flatten n]

theorem getD_replicate_nil (n k : Nat) : (List.replicate n ([] : List Nat)).getD k [] = [] := by
  simp only [List.getD, List.getElem?_replicate]; split <;> rfl

theorem loadOf_perm (weights a b : List Nat) (h : a.Perm b) : loadOf weights a = loadOf weights b :=
  (h.map _).sum_nat

theorem getD_eq_getElem_range : ∀ (w : List Nat),
    (List.range w.length).map (fun t => w.getD t 0) = w := by
  intro w
  apply List.ext_getElem
  · simp
  · intro i h1 h2
    simp at h1
    simp [List.getD, List.getElem?_eq_getElem h1]

theorem weightsAssign_main (weights iperm : List Nat) (nthreads wmax : Nat) (hn : 0 < nthreads)
    (hmax : ∀ w ∈ weights, w ≤ wmax) (hp : iperm.Perm (List.range weights.length)) :
    ∃ s, weightsAssign weights iperm nthreads = some s ∧
      Inv weights wmax nthreads
        (if weights.length < nthreads ∧ weights.length > 0 then weights.length else nthreads)
        (List.range weights.length) s := by
  have hn' : 0 < (if weights.length < nthreads ∧ weights.length > 0 then weights.length
      else nthreads) := by split <;> omega
  have hnn : (if weights.length < nthreads ∧ weights.length > 0 then weights.length
      else nthreads) ≤ nthreads := by split <;> omega
  unfold weightsAssign
  simp only
  generalize (if weights.length < nthreads ∧ weights.length > 0 then weights.length
      else nthreads) = n at *
  have h0 : Inv weights wmax nthreads n [] (List.replicate nthreads [], List.replicate n 0) := by
    refine ⟨by simp, by simp, by simp [replicate_nil_flatten], ?_, ?_, by simp [loadOf], ?_⟩
    · intro k hk
      rw [List.getElem?_replicate, if_pos hk, getD_replicate_nil]; simp [loadOf]
    · intro k hk; exact getD_replicate_nil _ _
    · intro w hw; simp at hw; simp [hw]
  obtain ⟨s, e, h⟩ := assignLoop_inv weights wmax nthreads n hn' hnn hmax iperm.reverse []
    _ (by
      intro t ht
      have := hp.mem_iff.1 (List.mem_reverse.1 ht)
      simpa using this) h0
  refine ⟨s, e, ?_⟩
  simp only [List.reverse_reverse, List.append_nil] at h
  exact ⟨h.len1, h.len2, h.perm.trans hp, h.load, h.rest,
    by rw [h.tot, loadOf_perm _ _ _ hp], h.bound⟩

theorem sortRun_iperm (weights weights2 iperm : List Nat)
    (h : SortM.SortRun weights (List.replicate weights.length 0) 0 weights2 iperm) :
    iperm.Perm (List.range weights.length) :=
  (SortM.sort_correct weights weights2 _ iperm (by simp) h).2.2.1

theorem sortRun_sorted (weights weights2 iperm : List Nat)
    (h : SortM.SortRun weights (List.replicate weights.length 0) 0 weights2 iperm) :
    iperm.Pairwise fun x y => weights.getD x 0 ≤ weights.getD y 0 := by
  obtain ⟨h1, h2, h3, h4⟩ := SortM.sort_correct weights weights2 _ iperm (by simp) h
  have hl : iperm.length = weights.length := by simpa using h3.length_eq
  have hl2 : weights2.length = weights.length := h2.length_eq
  rw [List.pairwise_iff_getElem] at h1 ⊢
  intro i j hi hj hij
  have := h1 i j (by omega) (by omega) hij
  obtain ⟨k, e1, hk, e2⟩ := h4 i (by omega)
  obtain ⟨k', e1', hk', e2'⟩ := h4 j (by omega)
  rw [List.getElem?_eq_getElem hi] at e1
  rw [List.getElem?_eq_getElem hj] at e1'
  rw [Option.some.inj e1, Option.some.inj e1', List.getD, List.getD, ← e2, ← e2',
    List.getElem?_eq_getElem (by omega), List.getElem?_eq_getElem (by omega)]
  exact this

theorem weightsAssign_bal (weights iperm : List Nat) (nthreads : Nat) (hn : 0 < nthreads)
    (hp : iperm.Perm (List.range weights.length))
    (hs : iperm.Pairwise fun x y => weights.getD x 0 ≤ weights.getD y 0)
    (s : List (List Nat) × List Nat) (e : weightsAssign weights iperm nthreads = some s) :
    Bal weights (if weights.length < nthreads ∧ weights.length > 0 then weights.length else nthreads) s := by
  have hn' : 0 < (if weights.length < nthreads ∧ weights.length > 0 then weights.length
      else nthreads) := by split <;> omega
  have hnn : (if weights.length < nthreads ∧ weights.length > 0 then weights.length
      else nthreads) ≤ nthreads := by split <;> omega
  unfold weightsAssign at e
  simp only at e
  generalize (if weights.length < nthreads ∧ weights.length > 0 then weights.length
      else nthreads) = n at *
  refine assignLoop_bal weights weights.sum nthreads n hn' hnn (fun w hw => le_sum_of_mem hw)
    iperm.reverse [] _ s ?_ ?_ (by simp) ?_ ?_ e
  · intro t ht
    have := hp.mem_iff.1 (List.mem_reverse.1 ht)
    simpa using this
  · rw [List.pairwise_reverse]; exact hs
  · refine ⟨by simp, by simp, by simp [replicate_nil_flatten], ?_, ?_, by simp [loadOf], ?_⟩
    · intro k hk
      rw [List.getElem?_replicate, if_pos hk, getD_replicate_nil]; simp [loadOf]
    · intro k hk; exact getD_replicate_nil _ _
    · intro w hw; simp at hw; simp [hw]
  · intro a b _ _ t ht
    rw [getD_replicate_nil] at ht; simp at ht

end Verif.LoadBalancer
