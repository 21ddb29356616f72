import Verif.Ainur.PropsFun

/-!
# Native macros that are refused
-/

namespace Verif.Ainur

/-- **C106** A native macro that is not `!AinurFromFile` is refused, whatever the files. -/
theorem native_unknown (fs : Files) (funs : List Str) (text : Str) (h : ¬ fromFile <+: text) :
    procNativeMacro fs funs ('!' :: text) = throwOut := by
  unfold procNativeMacro
  rw [if_neg]
  intro e
  refine h ⟨text.drop fromFile.length, ?_⟩
  simp only [List.drop_one, List.tail_cons] at e
  conv_rhs => rw [← List.take_append_drop fromFile.length text, e]

/-- **C106** `!AinurFromFile` of a file that is not there is refused. -/
theorem native_missing {Q : Type} [DecidableEq Q] (N : Num Q) (disk : Str → Option Str) (name : Str) (hn : ',' ∉ name) (hd : disk name = none)
    (fuel : Nat) (funs : List Str) (hfun : funTextShort name ∉ funs) :
    procNativeMacro (filesOf N fuel disk) funs ('!' :: fromFile ++ funTextShort name) = throwOut := by
  unfold procNativeMacro
  have e1 : (('!' :: fromFile ++ funTextShort name).drop 1).take fromFile.length = fromFile := by
    rw [List.cons_append, List.drop_one, List.tail_cons, List.take_left]
  have e2 : ('!' :: fromFile ++ funTextShort name).drop (fromFile.length + 1) = funTextShort name := by
    rw [List.cons_append, List.drop_succ_cons, List.drop_left]
  rw [if_pos e1, if_neg (by simp [funTextShort])]
  simp only [e2]
  rw [if_neg hfun]
  simp [filesOf, function_nofile N disk name hn hd fuel, throwOut]

/-- **C106, violated part** `!AinurFromFile` without a file fails an assertion. -/
theorem native_empty_fails (fs : Files) (funs : List Str) : procNativeMacro fs funs ('!' :: fromFile) = ubOut := by
  unfold procNativeMacro
  rw [if_pos (by decide), if_pos (by decide)]

/-- The hypotheses are met. -/
example : ¬ fromFile <+: "FromDatabase(\"a\")".toList := by decide

end Verif.Ainur
