import Verif.GemmR.Props

/-!
# Products with a matrix that is too short
-/

namespace Verif.GemmR

variable {R : Type} [CommRing R] [StarRing R]

/-- **C55, violated part** A small product whose result does not fit into `C` is undefined behaviour; no size is checked. -/
theorem small_short_fails (g : Args R) (nb : Nat) (hs : isSmall nb g.m g.n = true) (hm : 0 < g.m) (hn : 0 < g.n) (C : List R)
    (hc : C.length ≤ g.m - 1 + (g.n - 1) * g.ldC) (l : List Step) (hl : blasSteps g g.m g.n 0 0 0 = .ok l) (r : Out (List R)) :
    Run g nb C r ↔ r = ubOut := by
  have hlen : ∀ (C C' : List R) (s : Step), Step.run g C s = some C' → C'.length = C.length ∧ s.pC + s.i + s.j * g.ldC < C.length := by
    intro C C' s h
    unfold Step.run at h
    cases hi : inner g s.pA s.pB s.i s.j g.k with
    | none => rw [hi] at h; cases h
    | some x =>
      rw [hi] at h
      simp only [Option.bind_eq_bind, Option.bind_some] at h
      unfold Loop.updAt at h
      obtain ⟨a, ha, e⟩ := Option.map_eq_some_iff.1 h
      subst e
      exact ⟨by simp, (List.getElem?_eq_some_iff.1 ha).1⟩
  have hfold : ∀ (l : List Step) (C : List R), (∃ s ∈ l, C.length ≤ s.pC + s.i + s.j * g.ldC) → l.foldlM (Step.run g) C = none := by
    intro l
    induction l with
    | nil => rintro C ⟨s, hs, _⟩; cases hs
    | cons s l ih =>
      rintro C ⟨s', hs', h⟩
      rw [List.foldlM_cons]
      cases e : Step.run g C s with
      | none => rfl
      | some C' =>
        obtain ⟨h1, h2⟩ := hlen C C' s e
        rcases List.mem_cons.1 hs' with rfl | hs'
        · omega
        · exact ih C' ⟨s', hs', by omega⟩
  have hmem : (⟨0, 0, 0, g.m - 1, g.n - 1⟩ : Step) ∈ l := by
    unfold blasSteps at hl
    split at hl
    · cases hl
      exact List.mem_flatMap.2 ⟨g.n - 1, by simp; omega, List.mem_map.2 ⟨g.m - 1, by simp; omega, rfl⟩⟩
    · cases hl
  have hrun : runSteps g C l = ubOut := by
    unfold runSteps
    rw [hfold l C ⟨_, hmem, by simpa using hc⟩]
  constructor
  · intro hr
    cases hr with
    | small l' _ e => rw [hl] at e; cases e; exact hrun
    | smallBad e _ he => rw [hl] at he; cases he
    | big l l' e _ _ => rw [hs] at e; cases e
    | bigBad e e' _ => rw [hs] at e'; cases e'
  · rintro rfl
    rw [← hrun]
    exact .small l hs hl

/-- The hypotheses are met. -/
example : ∃ l, blasSteps (⟨'N', 'N', 2, 2, 2, 1, [1, 2, 3, 4], 2, [5, 6, 7, 8], 2, 0, 2⟩ : Args ℤ) 2 2 0 0 0 = .ok l := ⟨_, rfl⟩

end Verif.GemmR
