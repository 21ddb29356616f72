import Verif.Perms.Spec
import Mathlib.Data.List.Perm.Basic
import Mathlib.Data.List.Permutation

/-! # Lemmas on lexicographic order and the next permutation -/

namespace Verif.Perms

open Verif.Loop

theorem cons_lt_cons (a b : Nat) (l l' : List Nat) : a :: l < b :: l' ↔ a < b ∨ a = b ∧ l < l' :=
  List.cons_lt_cons_iff

theorem append_lt_append (p : List Nat) (l l' : List Nat) : p ++ l < p ++ l' ↔ l < l' := by
  induction p with
  | nil => rfl
  | cons a p ih => rw [List.cons_append, List.cons_append, cons_lt_cons, ih]; simp

/-- A non-increasing list is the largest of its rearrangements. -/
theorem desc_max (t : List Nat) (ht : t.Pairwise (· ≥ ·)) (s : List Nat) (hs : s.Perm t) : ¬ t < s := by
  induction t generalizing s with
  | nil => rw [List.perm_nil.1 hs]; simp
  | cons a t ih =>
    cases s with
    | nil => simp
    | cons b s =>
      rw [cons_lt_cons]
      rw [List.pairwise_cons] at ht
      rintro (h | ⟨rfl, h⟩)
      · have hb : b ∈ a :: t := hs.mem_iff.1 (by simp)
        rcases List.mem_cons.1 hb with hb | hb
        · omega
        · have := ht.1 b hb; omega
      · exact ih ht.2 s ((List.perm_cons _).1 hs) h

/-- A non-decreasing list is the smallest of its rearrangements. -/
theorem asc_min (t : List Nat) (ht : t.Pairwise (· ≤ ·)) (s : List Nat) (hs : s.Perm t) : ¬ s < t := by
  induction t generalizing s with
  | nil => rw [List.perm_nil.1 hs]; simp
  | cons a t ih =>
    cases s with
    | nil => exact absurd hs.length_eq (by simp)
    | cons b s =>
      rw [cons_lt_cons]
      rw [List.pairwise_cons] at ht
      rintro (h | ⟨rfl, h⟩)
      · have hb : b ∈ a :: t := hs.mem_iff.1 (by simp)
        rcases List.mem_cons.1 hb with hb | hb
        · omega
        · have := ht.1 b hb; omega
      · exact ih ht.2 s ((List.perm_cons _).1 hs) h

/-- The next permutation: between `p ++ x :: (t1 ++ y :: t2)` and
`p ++ y :: (t1 ++ x :: t2).reverse` there is no other rearrangement. -/
theorem next_between (p t1 t2 : List Nat) (x y : Nat) (hd : (t1 ++ y :: t2).Pairwise (· ≥ ·)) (hxy : x < y)
    (h2 : ∀ z ∈ t2, z ≤ x) (c : List Nat) (hc : c.Perm (p ++ x :: (t1 ++ y :: t2)))
    (hlt : p ++ x :: (t1 ++ y :: t2) < c) : ¬ c < p ++ y :: (t1 ++ x :: t2).reverse := by
  induction p generalizing c with
  | nil =>
    rw [List.nil_append] at hc hlt ⊢
    cases c with
    | nil => simp at hlt
    | cons z s =>
      rw [cons_lt_cons] at hlt ⊢
      have hd' := List.pairwise_append.1 hd
      rcases hlt with hlt | ⟨rfl, hlt⟩
      · have hz : z ∈ x :: (t1 ++ y :: t2) := hc.mem_iff.1 (by simp)
        have hzy : y ≤ z := by
          rcases List.mem_cons.1 hz with rfl | hz
          · omega
          · rcases List.mem_append.1 hz with hz | hz
            · exact hd'.2.2 z hz y (by simp)
            · rcases List.mem_cons.1 hz with rfl | hz
              · exact le_rfl
              · have := h2 z hz; omega
        rintro (h | ⟨rfl, h⟩)
        · omega
        · -- s is a rearrangement of t1 ++ x :: t2
          have hsp : s.Perm (t1 ++ x :: t2) := by
            have e : (x :: (t1 ++ z :: t2)).Perm (z :: (t1 ++ x :: t2)) := by
              refine ((List.Perm.cons x List.perm_middle).trans (List.Perm.swap z x _)).trans ?_
              exact List.Perm.cons z List.perm_middle.symm
            exact (List.perm_cons z).1 (hc.trans e)
          refine asc_min _ ?_ s (hsp.trans (List.reverse_perm _).symm) h
          rw [List.pairwise_reverse, List.pairwise_append]
          refine ⟨hd'.1, ?_, ?_⟩
          · rw [List.pairwise_cons]
            exact ⟨h2, (List.pairwise_cons.1 hd'.2.1).2⟩
          · intro u hu w hw
            rcases List.mem_cons.1 hw with rfl | hw
            · have := hd'.2.2 u hu z (by simp); show w ≤ u; omega
            · exact hd'.2.2 u hu w (by simp [hw])
      · exact absurd hlt (desc_max _ hd s ((List.perm_cons _).1 hc))
  | cons a p ih =>
    cases c with
    | nil => simp at hlt
    | cons z s =>
      rw [List.cons_append, cons_lt_cons] at hlt ⊢
      rw [List.cons_append] at hc
      rcases hlt with hlt | ⟨rfl, hlt⟩
      · rintro (h | ⟨h, -⟩) <;> omega
      · rintro (h | ⟨-, h⟩)
        · omega
        · exact ih s ((List.perm_cons _).1 hc) hlt h

theorem countP_lt {β : Type} (p q : β → Bool) (l : List β) (h : ∀ x ∈ l, p x = true → q x = true) (a : β)
    (ha : a ∈ l) (hq : q a = true) (hp : p a = false) : l.countP p < l.countP q := by
  induction l with
  | nil => cases ha
  | cons b l ih =>
    rw [List.countP_cons, List.countP_cons]
    have hle : l.countP p ≤ l.countP q := List.countP_mono_left (fun x hx => h x (by simp [hx]))
    rcases List.mem_cons.1 ha with rfl | ha
    · rw [hq, hp]; simp; omega
    · have := ih (fun x hx => h x (by simp [hx])) ha
      have hb := h b (by simp)
      cases hpb : p b
      · simp; omega
      · rw [hb hpb]; simp; omega

/-! ### the loops -/

theorem largestk_spec (a : List Nat) : ∃ r, largestk a = some r ∧
    match r with
    | none => a.Pairwise (· ≥ ·)
    | some k => ∃ h : k + 1 < a.length, a[k] < a[k + 1] ∧ (a.drop (k + 1)).Pairwise (· ≥ ·) := by
  unfold largestk
  obtain ⟨r, h1, h2⟩ := loopN_inv (fun i (saved : Option Nat) =>
      match saved with
      | none => ∀ j (h : j + 1 < a.length), j < i → a[j + 1] ≤ a[j]
      | some k => k < i ∧ ∃ h : k + 1 < a.length, a[k] < a[k + 1] ∧
          ∀ j (h : j + 1 < a.length), k < j → j < i → a[j + 1] ≤ a[j])
    (a.length - 1) (fun i saved => do
      let x ← a[i]?
      let y ← a[i + 1]?
      if x < y then some (some i) else some saved) none (by intro j h hj; omega) (by
      intro i saved hi hs
      have h1 : i < a.length := by omega
      have h2 : i + 1 < a.length := by omega
      simp only [List.getElem?_eq_getElem h1, List.getElem?_eq_getElem h2, bind, Option.bind_some]
      by_cases e : a[i] < a[i + 1]
      · rw [if_pos e]
        exact ⟨_, rfl, by omega, h2, e, fun j hj h3 h4 => by omega⟩
      · rw [if_neg e]
        refine ⟨_, rfl, ?_⟩
        cases saved with
        | none =>
          intro j hj hji
          by_cases e' : j = i
          · subst e'; omega
          · exact hs j hj (by omega)
        | some k =>
          obtain ⟨g0, g1, g2, g3⟩ := hs
          refine ⟨by omega, g1, g2, ?_⟩
          intro j hj hkj hji
          by_cases e' : j = i
          · subst e'; omega
          · exact g3 j hj hkj (by omega))
  refine ⟨r, h1, ?_⟩
  cases r with
  | none =>
    simp only at h2 ⊢
    have hc : a.IsChain (· ≥ ·) := List.isChain_iff_getElem.2 (fun j hj => h2 j (by omega) (by omega))
    exact List.isChain_iff_pairwise.1 hc
  | some k =>
    simp only at h2 ⊢
    obtain ⟨-, g1, g2, g3⟩ := h2
    refine ⟨g1, g2, ?_⟩
    have hc : (a.drop (k + 1)).IsChain (· ≥ ·) := by
      rw [List.isChain_iff_getElem]
      intro j hj
      rw [List.length_drop] at hj
      rw [List.getElem_drop, List.getElem_drop]
      exact g3 (k + 1 + j) (by omega) (by omega) (by omega)
    exact List.isChain_iff_pairwise.1 hc

theorem largestl_spec (a : List Nat) (k : Nat) (hk : k + 1 < a.length) (hlt : a[k] < a[k + 1]) :
    ∃ l, largestl a k = some l ∧ k < l ∧ ∃ h : l < a.length, a[k] < a[l] ∧
      ∀ j (h : j < a.length), l < j → a[j] ≤ a[k] := by
  unfold largestl
  obtain ⟨l, h1, h2, h3⟩ := loopN_inv (fun i (saved : Nat) =>
      (k + 1 < i → k < saved ∧ ∃ h : saved < a.length, a[k] < a[saved]) ∧
        ∀ j (h : j < a.length), saved < j → j < i → a[j] ≤ a[k])
    a.length (fun i saved => do
      let x ← a[k]?
      let y ← a[i]?
      if x < y then some i else some saved) 0 ⟨by omega, by intro j _ _ h; omega⟩ (by
      rintro i saved hi ⟨g1, g2⟩
      have hk' : k < a.length := by omega
      simp only [List.getElem?_eq_getElem hk', List.getElem?_eq_getElem hi, bind, Option.bind_some]
      by_cases e : a[k] < a[i]
      · rw [if_pos e]
        refine ⟨_, rfl, fun h => ⟨?_, hi, e⟩, fun j hj h3 h4 => by omega⟩
        have : i ≠ k := by rintro rfl; omega
        omega
      · rw [if_neg e]
        refine ⟨_, rfl, fun h => ?_, ?_⟩
        · have : i ≠ k + 1 := by rintro rfl; omega
          exact g1 (by omega)
        · intro j hj h3 h4
          by_cases e' : j = i
          · subst e'; omega
          · exact g2 j hj h3 (by omega))
  obtain ⟨g1, g2, g3⟩ := h2 hk
  exact ⟨l, h1, g1, g2, g3, fun j hj h => h3 j hj h hj⟩

theorem reverseTail_spec (a : List Nat) (k : Nat) (hk : k < a.length) :
    reverseTail a k = some (a.take (k + 1) ++ (a.drop (k + 1)).reverse) := by
  unfold reverseTail
  obtain ⟨d, h1, h2, h3⟩ := loopN_inv (fun i (d : List Nat) => d.length = a.length ∧
      ∀ j, j < a.length → d[j]? = if a.length - 1 - j < i then a[k + 1 + (a.length - 1 - j)]? else a[j]?)
    (a.length - (k + 1)) (fun i d => do
      let x ← a[k + 1 + i]?
      setAt d (a.length - 1 - i) x) a ⟨rfl, by intro j hj; simp⟩ (by
      rintro i d hi ⟨g1, g2⟩
      have h : k + 1 + i < a.length := by omega
      simp only [List.getElem?_eq_getElem h, bind, Option.bind_some]
      rw [setAt_some (by omega)]
      refine ⟨_, rfl, by simpa using g1, ?_⟩
      intro j hj
      rw [List.getElem?_set]
      by_cases e : a.length - 1 - i = j
      · rw [if_pos e, if_pos (by omega), if_pos (by omega)]
        have : k + 1 + (a.length - 1 - j) = k + 1 + i := by omega
        rw [this, List.getElem?_eq_getElem h]
      · rw [if_neg e, g2 j hj]
        by_cases e2 : a.length - 1 - j < i
        · rw [if_pos e2, if_pos (by omega)]
        · rw [if_neg e2, if_neg (by omega)])
  rw [h1]
  congr 1
  apply List.ext_getElem?
  intro j
  by_cases hj : j < a.length
  · rw [h3 j hj]
    by_cases e : j < k + 1
    · rw [if_neg (by omega), List.getElem?_append_left (by simp; omega), List.getElem?_take_of_lt e]
    · rw [if_pos (by omega), List.getElem?_append_right (by simp; omega)]
      rw [List.getElem?_reverse (by simp; omega), List.getElem?_drop]
      congr 1
      simp
      omega
  · rw [List.getElem?_eq_none (by omega), List.getElem?_eq_none (by simp; omega)]

/-- What `increase` does. -/
theorem increase_cases (a : List Nat) :
    (increase a = some (false, a) ∧ a.Pairwise (· ≥ ·)) ∨
    ∃ p x t1 y t2, a = p ++ x :: (t1 ++ y :: t2) ∧ (t1 ++ y :: t2).Pairwise (· ≥ ·) ∧ x < y ∧
      (∀ z ∈ t2, z ≤ x) ∧ increase a = some (true, p ++ y :: (t1 ++ x :: t2).reverse) := by
  unfold increase
  by_cases h0 : a.length = 0
  · left
    rw [if_pos h0]
    exact ⟨rfl, by rw [List.eq_nil_of_length_eq_zero h0]; simp⟩
  · rw [if_neg h0]
    obtain ⟨r, h1, h2⟩ := largestk_spec a
    rw [h1]
    cases r with
    | none => exact Or.inl ⟨rfl, h2⟩
    | some k =>
      right
      obtain ⟨hk, hlt, hd⟩ := h2
      obtain ⟨l, e1, hkl, hl, hal, hmax⟩ := largestl_spec a k hk hlt
      have hk' : k < a.length := by omega
      have ea : a = a.take k ++ a[k] :: a.drop (k + 1) := by
        rw [← List.drop_eq_getElem_cons hk', List.take_append_drop]
      have et : a.drop (k + 1) = (a.drop (k + 1)).take (l - (k + 1)) ++ a[l] :: a.drop (l + 1) := by
        have := List.take_append_drop (l - (k + 1)) (a.drop (k + 1))
        rw [List.drop_drop, show k + 1 + (l - (k + 1)) = l by omega,
          List.drop_eq_getElem_cons hl] at this
        exact this.symm
      obtain ⟨t1, ht1⟩ : ∃ t1, t1 = (a.drop (k + 1)).take (l - (k + 1)) := ⟨_, rfl⟩
      have ht1l : t1.length = l - (k + 1) := by rw [ht1]; simp; omega
      rw [← ht1] at et
      have e : a = a.take k ++ a[k] :: (t1 ++ a[l] :: a.drop (l + 1)) := by rw [← et]; exact ea
      refine ⟨a.take k, a[k], t1, a[l], a.drop (l + 1), e, ?_, hal, ?_, ?_⟩
      · rw [← et]; exact hd
      · intro z hz
        obtain ⟨j, hj, rfl⟩ := List.getElem_of_mem hz
        rw [List.getElem_drop]
        rw [List.length_drop] at hj
        exact hmax _ (by omega) (by omega)
      · have hsw : swap a k l = some (a.take k ++ a[l] :: (t1 ++ a[k] :: a.drop (l + 1))) := by
          unfold swap
          simp only [List.getElem?_eq_getElem hk', List.getElem?_eq_getElem hl, bind, Option.bind_some]
          rw [setAt_some hk', Option.bind_some, setAt_some (by simpa using hl)]
          congr 1
          generalize hx : a[k] = x
          generalize hy : a[l] = y
          rw [hx, hy] at e
          generalize htt : a.drop (l + 1) = t2
          rw [htt] at e
          have htk : (a.take k).length = k := by simp; omega
          conv_lhs => rw [e]
          rw [List.set_append_right _ _ (by omega), htk, Nat.sub_self, List.set_cons_zero,
            List.set_append_right _ _ (by omega), htk]
          rw [show l - k = (l - (k + 1)) + 1 by omega, List.set_cons_succ,
            List.set_append_right _ _ (by omega), ht1l, Nat.sub_self, List.set_cons_zero]
        have hlen : (a.take k ++ a[l] :: (t1 ++ a[k] :: a.drop (l + 1))).length = a.length := by
          simp [ht1l]; omega
        simp only [bind, Option.bind_some, e1, hsw]
        rw [hlen]
        have htk : (a.take k).length = k := by simp; omega
        by_cases hend : k + 1 ≥ a.length - 1
        · rw [if_pos hend]
          have h3 : t1 = [] := List.eq_nil_of_length_eq_zero (by omega)
          have h4 : a.drop (l + 1) = [] := List.drop_eq_nil_of_le (by omega)
          rw [h3, h4]; rfl
        · rw [if_neg hend, reverseTail_spec _ _ (by omega)]
          simp only [Option.bind_some]
          rw [List.take_append, List.drop_append, htk, show k + 1 - k = 1 by omega,
            List.take_of_length_le (show (a.take k).length ≤ k + 1 by omega),
            List.drop_of_length_le (show (a.take k).length ≤ k + 1 by omega)]
          simp

end Verif.Perms
