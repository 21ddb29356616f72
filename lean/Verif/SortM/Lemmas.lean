import Verif.SortM.Model

namespace Verif.SortM

variable {α : Type _} [LinearOrder α]

theorem insertPair_perm (a : α × Nat) : ∀ l, (insertPair a l).Perm (a :: l)
  | [] => .refl _
  | b :: l => by
    simp only [insertPair]
    split
    · exact ((insertPair_perm a l).cons b).trans (.swap a b l)
    · exact .refl _

theorem insertPair_sorted (a : α × Nat) : ∀ l, l.Pairwise (fun a b => ¬ b.1 < a.1) →
    (insertPair a l).Pairwise (fun a b => ¬ b.1 < a.1)
  | [], _ => by simp [insertPair]
  | b :: l, h => by
    simp only [insertPair]
    have h' := List.pairwise_cons.1 h
    split
    · rename_i hlt
      refine List.pairwise_cons.2 ⟨?_, insertPair_sorted a l h'.2⟩
      intro c hc
      rcases List.mem_cons.1 ((insertPair_perm a l).mem_iff.1 hc) with rfl | hc
      · exact lt_asymm hlt
      · exact h'.1 c hc
    · rename_i hnlt
      refine List.pairwise_cons.2 ⟨?_, h⟩
      intro c hc
      rcases List.mem_cons.1 hc with rfl | hc
      · exact hnlt
      · exact not_lt.2 (le_trans (not_lt.1 hnlt) (not_lt.1 (h'.1 c hc)))

theorem sortPairs_stdSort : ∀ l : List (α × Nat), StdSort l (sortPairs l)
  | [] => ⟨.refl _, by simp [sortPairs]⟩
  | a :: l => by
    have ih := sortPairs_stdSort l
    exact ⟨(insertPair_perm a _).trans (ih.1.cons a), insertPair_sorted a _ ih.2⟩

end Verif.SortM
