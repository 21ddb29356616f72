import Verif.Perms.Lemmas
import Verif.SortM.Props
import Mathlib.Data.Nat.Factorial.Basic

/-! # C23: enumeration of permutations -/

namespace Verif.Perms

/-- **C23** The constructor sorts the elements: the first arrangement in lexicographic order. -/
theorem ctor_spec (orig data : List Nat) (h : CtorTo orig data) :
    data.Perm orig ∧ ∀ b : List Nat, b.Perm orig → data ≤ b := by
  obtain ⟨iperm, h⟩ := h
  obtain ⟨h1, h2, -⟩ := SortM.sort_correct orig data _ iperm (by simp) h
  exact ⟨h2, fun b hb => not_lt.1 (asc_min data h1 b (hb.trans h2.symm))⟩

theorem ctor_exists (orig : List Nat) : ∃ data, CtorTo orig data := by
  obtain ⟨x, ip, h⟩ := SortM.sort_exists orig (List.replicate orig.length 0) (by simp)
  exact ⟨x, ip, h⟩

/-- **C23** `increase` returning true moves to the next arrangement of the same elements: it is
larger and there is none in between. -/
theorem increase_true (a a' : List Nat) (h : increase a = some (true, a')) :
    a'.Perm a ∧ a < a' ∧ ∀ c : List Nat, c.Perm a → a < c → a' ≤ c := by
  rcases increase_cases a with ⟨h1, -⟩ | ⟨p, x, t1, y, t2, ha, hd, hxy, h2, h3⟩
  · rw [h1] at h; cases h
  · rw [h3] at h
    have := Option.some.inj h
    rw [Prod.mk.injEq] at this
    rw [← this.2]
    subst ha
    refine ⟨?_, ?_, fun c hc hlt => not_lt.1 (next_between p t1 t2 x y hd hxy h2 c hc hlt)⟩
    · refine List.Perm.append_left p ?_
      refine ((List.reverse_perm _).cons y).trans ?_
      refine (List.Perm.cons y List.perm_middle).trans ?_
      refine (List.Perm.swap x y _).trans ?_
      exact List.Perm.cons x List.perm_middle.symm
    · rw [append_lt_append, cons_lt_cons]; exact Or.inl hxy

/-- **C23** `increase` returning false leaves the data alone, and this happens only at the last
arrangement. -/
theorem increase_false (a a' : List Nat) (h : increase a = some (false, a')) :
    a' = a ∧ ∀ c : List Nat, c.Perm a → c ≤ a := by
  rcases increase_cases a with ⟨h1, hd⟩ | ⟨p, x, t1, y, t2, ha, hd, hxy, h2, h3⟩
  · rw [h1] at h
    have := Option.some.inj h
    rw [Prod.mk.injEq] at this
    exact ⟨this.2.symm, fun c hc => not_lt.1 (desc_max a hd c hc)⟩
  · rw [h3] at h; cases h

/-- `increase` never reads or writes out of range. -/
theorem increase_total (a : List Nat) : ∃ r, increase a = some r := by
  rcases increase_cases a with ⟨h1, -⟩ | ⟨p, x, t1, y, t2, -, -, -, -, h3⟩
  · exact ⟨_, h1⟩
  · exact ⟨_, h3⟩

theorem run_spec {a : List Nat} {l : List (List Nat)} (h : Run a l) :
    l.Pairwise (· < ·) ∧ ∀ c, c ∈ l ↔ c.Perm a ∧ a ≤ c := by
  induction h with
  | @last a a' h =>
    obtain ⟨-, hm⟩ := increase_false a a' h
    refine ⟨by simp, fun c => ?_⟩
    rw [List.mem_singleton]
    constructor
    · rintro rfl; exact ⟨.refl _, le_rfl⟩
    · rintro ⟨h1, h2⟩; exact le_antisymm (hm c h1) h2
  | @step a a' l h _ ih =>
    obtain ⟨hp, hlt, hn⟩ := increase_true a a' h
    obtain ⟨ih1, ih2⟩ := ih
    refine ⟨?_, fun c => ?_⟩
    · rw [List.pairwise_cons]
      exact ⟨fun c hc => lt_of_lt_of_le hlt ((ih2 c).1 hc).2, ih1⟩
    · rw [List.mem_cons, ih2]
      constructor
      · rintro (rfl | ⟨h1, h2⟩)
        · exact ⟨.refl _, le_rfl⟩
        · exact ⟨h1.trans hp, le_of_lt (lt_of_lt_of_le hlt h2)⟩
      · rintro ⟨h1, h2⟩
        rcases eq_or_lt_of_le h2 with h2 | h2
        · exact Or.inl h2.symm
        · exact Or.inr ⟨h1.trans hp.symm, hn c h1 h2⟩

/-- **C23** The enumeration terminates from any state. -/
theorem run_exists (a : List Nat) : ∃ l, Run a l := by
  -- the number of larger arrangements decreases
  obtain ⟨n, hn⟩ : ∃ n, n = (a.permutations.filter fun c => decide (a < c)).length := ⟨_, rfl⟩
  induction n using Nat.strong_induction_on generalizing a with
  | _ n ih =>
    obtain ⟨⟨b, a'⟩, hr⟩ := increase_total a
    cases b with
    | false => exact ⟨_, .last hr⟩
    | true =>
      obtain ⟨hp, hlt, -⟩ := increase_true a a' hr
      have hperm : a'.permutations.Perm a.permutations := hp.permutations
      have hdec : (a'.permutations.filter fun c => decide (a' < c)).length <
          (a.permutations.filter fun c => decide (a < c)).length := by
        rw [(hperm.filter _).length_eq, ← List.countP_eq_length_filter, ← List.countP_eq_length_filter]
        refine countP_lt _ _ _ ?_ a' (List.mem_permutations.2 hp) (by simpa using hlt) (by simp)
        intro c _ h
        simp only [decide_eq_true_eq] at h ⊢
        exact lt_trans hlt h
      obtain ⟨l, hl⟩ := ih _ (by omega) a' rfl
      exact ⟨_, .step hr hl⟩

/-- **C23** From construction on, `do { … } while (increase())` sees every arrangement of the
elements exactly once, in lexicographic order. -/
theorem enumerates (orig data : List Nat) (h : CtorTo orig data) :
    ∃ l, Run data l ∧ l.Pairwise (· < ·) ∧ l.Nodup ∧ ∀ c, c ∈ l ↔ c.Perm orig := by
  obtain ⟨h1, h2⟩ := ctor_spec orig data h
  obtain ⟨l, hl⟩ := run_exists data
  obtain ⟨h3, h4⟩ := run_spec hl
  refine ⟨l, hl, h3, h3.imp (fun h => ne_of_lt h), fun c => ?_⟩
  rw [h4]
  exact ⟨fun h => h.1.trans h1, fun h => ⟨h.trans h1.symm, h2 c h⟩⟩

/-- **C23** For distinct elements there are `n!` of them. -/
theorem enumerates_count (orig data : List Nat) (hd : orig.Nodup) (h : CtorTo orig data) (l : List (List Nat))
    (hl : Run data l) : l.length = orig.length.factorial := by
  obtain ⟨h1, h2⟩ := ctor_spec orig data h
  obtain ⟨h3, h4⟩ := run_spec hl
  have hp : l.Perm orig.permutations := by
    rw [List.perm_ext_iff_of_nodup (h3.imp (fun h => ne_of_lt h)) (List.nodup_permutations _ hd)]
    intro c
    rw [h4, List.mem_permutations]
    exact ⟨fun h => h.1.trans h1, fun h => ⟨h.trans h1.symm, h2 c h⟩⟩
  rw [hp.length_eq, List.length_permutations]

example : CtorTo [2, 0, 1] [0, 1, 2] :=
  ⟨[1, 2, 0], by refine ⟨rfl, by simp, [(0, 1), (1, 2), (2, 0)], ⟨?_, ?_⟩, rfl, rfl⟩ <;> decide⟩

example : Run [0, 1, 2] [[0, 1, 2], [0, 2, 1], [1, 0, 2], [1, 2, 0], [2, 0, 1], [2, 1, 0]] :=
  .step (a' := [0, 2, 1]) (by decide) <| .step (a' := [1, 0, 2]) (by decide) <|
  .step (a' := [1, 2, 0]) (by decide) <| .step (a' := [2, 0, 1]) (by decide) <|
  .step (a' := [2, 1, 0]) (by decide) <| .last (a' := [2, 1, 0]) (by decide)

theorem made_012 : CtorTo [2, 0, 1] [0, 1, 2] :=
  ⟨[1, 2, 0], by refine ⟨rfl, by simp, [(0, 1), (1, 2), (2, 0)], ⟨?_, ?_⟩, rfl, rfl⟩ <;> decide⟩

example := ctor_spec _ _ made_012
example := enumerates _ _ made_012
example := enumerates_count _ _ (by decide) made_012 _ (.step (a' := [0, 2, 1]) (by decide) <| .step (a' := [1, 0, 2]) (by decide) <|
  .step (a' := [1, 2, 0]) (by decide) <| .step (a' := [2, 0, 1]) (by decide) <|
  .step (a' := [2, 1, 0]) (by decide) <| .last (a' := [2, 1, 0]) (by decide))
example := increase_false [2, 1, 0] [2, 1, 0] (by decide)
example := increase_true [0, 2, 1] [1, 0, 2] (by decide)

end Verif.Perms
