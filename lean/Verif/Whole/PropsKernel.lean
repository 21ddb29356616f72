import Verif.Whole.ModelKernel
import Verif.Krylov.PropsCheb

/-!
# C132: the program examples/kernelPolynomial.cpp
-/

namespace Verif.Whole.Kernel

open Verif.Krylov

/-- The constructor that reads assigns to elements that do not exist, unless there are fewer than two moments. -/
theorem ctor_fails (tmp : List ℝ) : ctor tmp = if tmp.length < 2 then some ([], []) else none := by
  unfold ctor
  split
  · rw [show tmp.length / 2 = 0 by omega]
    rfl
  · have key : ∀ n, Loop.loopN (n + 1) (assign tmp) ([], []) = none := by
      intro n
      induction n with
      | zero =>
        rw [Loop.loopN, Loop.loopN]
        have e : tmp[2 * 0]? = some tmp[0] := List.getElem?_eq_getElem (by omega)
        simp [assign, e, Loop.setAt]
      | succ n ih =>
        rw [Loop.loopN, ih]
        rfl
    obtain ⟨n, hn⟩ := Nat.exists_eq_succ_of_ne_zero (show tmp.length / 2 ≠ 0 by omega)
    rw [hn]
    exact key n

/-- **C132, violated part** No file, no kernel and no grid make the program print a curve: when the options are accepted and the file can
be read the behaviour is undefined. -/
theorem kernel_never_fails (o : Options) (d : Data) (hf : o.file ≠ []) (hw : o.wbegin < o.wend) (hs : 0 < o.wstep) :
    program o (some d) = ubOut := by
  unfold program
  rw [if_neg (by simp only [not_or, not_le]; exact ⟨hf, hw, hs⟩)]
  simp only [ctor_fails]
  by_cases h : d.moments.length < 2
  · simp only [if_pos h]
    have e : plotMoments o.kernel o.cutoff [] [] = none := plot_few_fails o.kernel o.cutoff [] [] (by simp; split <;> omega)
    have : plot o.kernel o.cutoff [] [] ⟨o.wbegin, o.wend, o.wstep, d.eg, d.b, d.oneOverA⟩ [] = none := by
      unfold plot
      rw [e]
      rfl
    rw [this]
  · simp only [if_neg h]

/-- **C132** Wrong options are refused with a message about the usage, whatever the file has, and only these are. -/
theorem kernel_usage (o : Options) (read : Option Data) :
    program o read = .ok none ↔ o.file = [] ∨ o.wend ≤ o.wbegin ∨ o.wstep ≤ 0 := by
  by_cases h : o.file = [] ∨ o.wbegin ≥ o.wend ∨ o.wstep ≤ 0
  · constructor
    · exact fun _ => h
    · intro _
      unfold program
      rw [if_pos h]
  · constructor
    · intro e
      exfalso
      cases read with
      | none =>
        unfold program at e
        rw [if_neg h] at e
        cases e
      | some d =>
        simp only [not_or, not_le, ge_iff_le] at h
        rw [kernel_never_fails o d h.1 h.2.1 h.2.2] at e
        cases e
    · exact fun e => absurd e h

/-- **C132** A file that cannot be read makes the program throw. -/
theorem kernel_throws (o : Options) (hf : o.file ≠ []) (hw : o.wbegin < o.wend) (hs : 0 < o.wstep) : program o none = throwOut := by
  unfold program
  rw [if_neg (by simp only [not_or, not_le]; exact ⟨hf, hw, hs⟩)]

/-- The hypotheses are met: a file with eight moments. -/
example : program ⟨"a".toList, -1, 1, 1, .jackson, 0, false⟩ (some ⟨0, 0, 1, [1, 0, 1, 0, 1, 0, 1, 0]⟩) = ubOut :=
  kernel_never_fails _ _ (by simp) (by norm_num) (by norm_num)

end Verif.Whole.Kernel
