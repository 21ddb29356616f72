import Verif.IoSimple.Props

/-!
# Reading a number where there is none
-/

namespace Verif.IoSimple

/-- **C70** Where only white space is left, reading an `int` fails, keeps the old value, and consumes the white space. -/
theorem readInt_blank (s : Str) (h : ∀ c ∈ s, isWs c = true) : readInt ⟨s, false, false⟩ = (⟨[], true, true⟩, none) := by
  have e : s.dropWhile isWs = [] := by
    induction s with
    | nil => rfl
    | cons c s ih => rw [List.dropWhile_cons, if_pos (h c (by simp)), ih fun c hc => h c (by simp [hc])]
  unfold readInt
  simp only [Stream.good, e]
  rfl

/-- **C70** After a failure, nothing more is read. -/
theorem readInt_failed (s : Str) (eof : Bool) : readInt ⟨s, eof, true⟩ = (⟨s, eof, true⟩, none) := by
  unfold readInt
  simp [Stream.good]

/-- The hypotheses are met. -/
example : ∀ c ∈ " \n\t ".toList, isWs c = true := by decide

end Verif.IoSimple
