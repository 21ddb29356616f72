import Verif.Host.ModelProgress

/-! # C88: messages of programs -/

namespace Verif.Host

/-- Only the first thread of the first process prints. -/
def Speaks (p : Indicator) : Prop := p.threadId = 0 ∧ p.rank = 0

instance (p : Indicator) : Decidable (Speaks p) := inferInstanceAs (Decidable (_ ∧ _))

/-- What a call without memory usage and signals says with clock `c`. -/
def said (p : Indicator) (c s : Str) : Str := if Speaks p then p.caller ++ " [".toList ++ c ++ "]: ".toList ++ s else []

/-- What a call adds to the output. -/
def onOutput : Call → Str
  | .line p s c1 _ => said p c1 (s ++ ['\n'])
  | .stream p s c1 _ => said p c1 (s ++ ['\n'])
  | .print p s c1 _ => said p c1 s
  | .memory p size peak c1 _ _ _ => said p c1 ("Current virtual memory is ".toList ++ size ++ " maximum was ".toList ++ peak ++ ['\n'])
  | .signal => []

/-- What a call adds to the buffer, with the clock of that moment. -/
def onBuffer : Call → Str
  | .line p s _ c2 => said p c2 (s ++ ['\n'])
  | .stream p s _ c2 => said p c2 (s ++ ['\n'])
  | .print p s _ c2 => said p c2 s
  | .memory .. => []
  | .signal => []

/-- Calls that print a message. -/
def Message : Call → Prop
  | .line .. => True
  | .stream .. => True
  | .print .. => True
  | .memory .. => False
  | .signal => False

/-- The place to write is the end of the text. -/
def OStr.AtEnd (o : OStr) : Prop := o.pos = o.text.length

theorem put_end {o : OStr} (h : o.AtEnd) (s : Str) : (o.put s).text = o.text ++ s ∧ (o.put s).AtEnd := by
  unfold OStr.AtEnd at *
  unfold OStr.put
  constructor
  · simp only [h]
    rw [List.take_length, List.drop_eq_nil_of_le (by omega), List.append_nil]
  · simp [h]

theorem fresh_text (s : Str) : (OStr.fresh s).text = s := by
  have := (put_end (o := ⟨[], 0⟩) rfl s).1
  simpa [OStr.fresh] using this

theorem silent (p : Indicator) (h : ¬ Speaks p) : p.threadId ≠ 0 ∨ p.threadId = 0 ∧ p.rank ≠ 0 := by
  unfold Speaks at h
  omega

theorem speaks_line {p : Indicator} (hp : Speaks p) (s c1 c2 : Str) (w : World) : printline p s c1 c2 w =
    { w with out := w.out ++ said p c1 (s ++ ['\n']),
             buffer := if w.active then (w.buffer.put (prefixText p c2)).put (s ++ ['\n']) else w.buffer } := by
  unfold printline said
  rw [if_neg (by simp [hp.1]), if_neg (by simp [hp.2]), if_pos hp]
  cases ha : w.active <;> simp [ha, prefixText]

theorem speaks_print {p : Indicator} (hp : Speaks p) (s c1 c2 : Str) (w : World) : Host.print p s c1 c2 w =
    { w with out := w.out ++ said p c1 s,
             buffer := if w.active then (w.buffer.put (prefixText p c2)).put s else w.buffer } := by
  unfold Host.print said
  rw [if_neg (by simp [hp.1]), if_neg (by simp [hp.2]), if_pos hp]
  cases ha : w.active <;> simp [ha, prefixText]

theorem speaks_stream {p : Indicator} (hp : Speaks p) (s : OStr) (c1 c2 : Str) (w : World) : printStream p s c1 c2 w =
    ({ w with out := w.out ++ said p c1 (s.text ++ ['\n']),
              buffer := if w.active then (w.buffer.put (prefixText p c2)).put (s.text ++ ['\n']) else w.buffer }, ⟨s.text, 0⟩) := by
  unfold printStream said
  rw [if_neg (by simp [hp.1]), if_neg (by simp [hp.2]), if_pos hp]
  cases ha : w.active <;> simp [ha, prefixText, OStr.rewind]

theorem silent_calls {p : Indicator} (hp : ¬ Speaks p) (s : Str) (o : OStr) (c1 c2 : Str) (w : World) :
    printline p s c1 c2 w = w ∧ Host.print p s c1 c2 w = w ∧ printStream p o c1 c2 w = (w, o) := by
  unfold printline Host.print printStream
  rcases silent p hp with h | h
  · rw [if_pos h, if_pos h, if_pos h]
    exact ⟨rfl, rfl, rfl⟩
  · have h1 : ¬ p.threadId ≠ 0 := fun e => e h.1
    rw [if_neg h1, if_neg h1, if_neg h1, if_pos h.2, if_pos h.2, if_pos h.2]
    exact ⟨rfl, rfl, rfl⟩

theorem message_step {w : World} (hb : w.buffer.AtEnd) {c : Call} (hc : Message c) :
    (step w c).out = w.out ++ onOutput c ∧ (step w c).active = w.active ∧ (step w c).file = w.file ∧ (step w c).buffer.AtEnd ∧
      (step w c).buffer.text = w.buffer.text ++ if w.active then onBuffer c else [] := by
  have two : ∀ a b : Str, ((w.buffer.put a).put b).text = w.buffer.text ++ (a ++ b) ∧ ((w.buffer.put a).put b).AtEnd := by
    intro a b
    obtain ⟨h1, h2⟩ := put_end hb a
    obtain ⟨h3, h4⟩ := put_end h2 b
    exact ⟨by rw [h3, h1, List.append_assoc], h4⟩
  have quiet : ∀ d : Call, step w d = w → onOutput d = [] → onBuffer d = [] → (step w d).out = w.out ++ onOutput d ∧
      (step w d).active = w.active ∧ (step w d).file = w.file ∧ (step w d).buffer.AtEnd ∧
      (step w d).buffer.text = w.buffer.text ++ if w.active then onBuffer d else [] := by
    intro d h1 h2 h3
    rw [h1, h2, h3]
    simp [hb]
  have loud : ∀ (d : Call) (q : Indicator) (s c1 c2 : Str), Speaks q → step w d =
      { w with out := w.out ++ said q c1 s, buffer := (if w.active then (w.buffer.put (prefixText q c2)).put s else w.buffer) } → onOutput d = said q c1 s → onBuffer d = said q c2 s →
      (step w d).out = w.out ++ onOutput d ∧
      (step w d).active = w.active ∧ (step w d).file = w.file ∧ (step w d).buffer.AtEnd ∧
      (step w d).buffer.text = w.buffer.text ++ if w.active then onBuffer d else [] := by
    intro d q s c1 c2 hq h1 h2 h3
    have hs : prefixText q c2 ++ s = said q c2 s := by rw [said, if_pos hq]; rfl
    rw [h1, h2, h3]
    refine ⟨rfl, rfl, rfl, ?_, ?_⟩
    · cases w.active
      · exact hb
      · exact (two _ _).2
    · cases w.active
      · simp
      · rw [← hs]; exact (two _ _).1
  cases c with
  | signal => exact hc.elim
  | memory => exact hc.elim
  | line p s c1 c2 =>
    by_cases hp : Speaks p
    · exact loud _ p _ c1 c2 hp (speaks_line hp s c1 c2 w) rfl rfl
    · exact quiet _ (silent_calls hp s w.buffer c1 c2 w).1 (if_neg hp) (if_neg hp)
  | stream p s c1 c2 =>
    by_cases hp : Speaks p
    · refine loud _ p (s ++ ['\n']) c1 c2 hp ?_ rfl rfl
      show (printStream p (OStr.fresh s) c1 c2 w).1 = _
      rw [speaks_stream hp, fresh_text]
    · exact quiet _ (congrArg Prod.fst (silent_calls hp s (.fresh s) c1 c2 w).2.2) (if_neg hp) (if_neg hp)
  | print p s c1 c2 =>
    by_cases hp : Speaks p
    · exact loud _ p _ c1 c2 hp (speaks_print hp s c1 c2 w) rfl rfl
    · exact quiet _ (silent_calls hp s w.buffer c1 c2 w).2.1 (if_neg hp) (if_neg hp)

theorem messages_run (h : List Call) (hm : ∀ c ∈ h, Message c) : ∀ w : World, w.buffer.AtEnd →
    (h.foldl step w).out = w.out ++ (h.map onOutput).flatten ∧ (h.foldl step w).active = w.active ∧ (h.foldl step w).file = w.file ∧
      (h.foldl step w).buffer.AtEnd ∧ (h.foldl step w).buffer.text = w.buffer.text ++ if w.active then (h.map onBuffer).flatten else [] := by
  induction h with
  | nil => intro w hw; simp [hw]
  | cons c h ih =>
    intro w hw
    obtain ⟨h1, h2, h3, h4, h5⟩ := message_step hw (hm c List.mem_cons_self)
    obtain ⟨g1, g2, g3, g4, g5⟩ := ih (fun c hc => hm c (List.mem_cons_of_mem _ hc)) _ h4
    rw [List.foldl_cons]
    refine ⟨by rw [g1, h1]; simp, by rw [g2, h2], by rw [g3, h3], g4, ?_⟩
    rw [g5, h5, h2]
    cases w.active <;> simp

/-- Calls that are messages or signals. -/
def Plain (c : Call) : Prop := Message c ∨ c = .signal

/-- What holds between calls: the buffer is empty while it is not active. -/
structure Good (w : World) : Prop where
  atEnd : w.buffer.AtEnd
  empty : w.active = false → w.buffer.text = []

theorem plain_step {w : World} (hw : Good w) {c : Call} (hc : Plain c) : Good (step w c) ∧ (step w c).out = w.out ++ onOutput c ∧
    (step w c).active = (if c matches .signal then !w.active else w.active) := by
  rcases hc with hc | rfl
  · obtain ⟨h1, h2, h3, h4, h5⟩ := message_step hw.atEnd hc
    refine ⟨⟨h4, ?_⟩, h1, ?_⟩
    · intro ha
      rw [h2] at ha
      rw [h5, ha, hw.empty ha]
      rfl
    · cases c <;> first | exact h2 | exact hc.elim
  · refine ⟨?_, ?_, ?_⟩
    · cases ha : w.active
      · have e : step w .signal = { w with active := true } := by
          show updateBuffer w = _
          unfold updateBuffer
          simp [ha]
        rw [e]
        exact ⟨hw.atEnd, fun h => absurd h (by simp)⟩
      · have e : step w .signal = { w with active := false, buffer := ⟨[], 0⟩, file := some (w.buffer.text ++ ['\n']) } := by
          show updateBuffer w = _
          unfold updateBuffer
          simp [ha]
        rw [e]
        exact ⟨rfl, fun _ => rfl⟩
    · unfold step updateBuffer onOutput
      cases ha : w.active <;> simp
    · unfold step updateBuffer
      cases ha : w.active <;> simp [ha]

/-- Number of signals. -/
def signals (h : List Call) : Nat := h.countP fun c => c matches .signal

theorem plain_run (h : List Call) (hp : ∀ c ∈ h, Plain c) : ∀ w : World, Good w → Good (h.foldl step w) ∧
    (h.foldl step w).out = w.out ++ (h.map onOutput).flatten ∧
    (h.foldl step w).active = if signals h % 2 = 0 then w.active else !w.active := by
  induction h with
  | nil => intro w hw; exact ⟨hw, by simp, by simp [signals]⟩
  | cons c h ih =>
    intro w hw
    obtain ⟨h1, h2, h3⟩ := plain_step hw (hp c List.mem_cons_self)
    obtain ⟨g1, g2, g3⟩ := ih (fun c hc => hp c (List.mem_cons_of_mem _ hc)) _ h1
    rw [List.foldl_cons]
    refine ⟨g1, by rw [g2, h2]; simp, ?_⟩
    rw [g3, h3]
    unfold signals
    rw [List.countP_cons]
    cases c <;> simp only [Bool.false_eq_true, if_false, if_true, Nat.add_zero]
    generalize h.countP _ = n
    split_ifs <;> first | omega | (cases w.active <;> rfl)

/-- **C88** Whatever the signals, the output has the messages of the first thread of the first process, in order, each with the name of
its sender and its clock, and nothing else. -/
theorem output_spec (h : List Call) (hp : ∀ c ∈ h, Plain c) : (h.foldl step start).out = (h.map onOutput).flatten := by
  have := (plain_run h hp start ⟨rfl, fun _ => rfl⟩).2.1
  simpa [start] using this

/-- **C88** The file of the buffer has the messages between the signal that turned the buffer on and the one that turned it off, and the
end of a line; messages before and after are not in it. -/
theorem buffer_file (h0 h1 h2 : List Call) (p0 : ∀ c ∈ h0, Plain c) (even : signals h0 % 2 = 0) (m1 : ∀ c ∈ h1, Message c)
    (m2 : ∀ c ∈ h2, Message c) :
    ((h0 ++ [Call.signal] ++ h1 ++ [Call.signal] ++ h2).foldl step start).file = some ((h1.map onBuffer).flatten ++ ['\n']) := by
  simp only [List.foldl_append, List.foldl_cons, List.foldl_nil]
  obtain ⟨g1, -, g3⟩ := plain_run h0 p0 start ⟨rfl, fun _ => rfl⟩
  rw [if_pos even] at g3
  generalize h0.foldl step start = w0 at g1 g3
  have g3 : w0.active = false := g3
  have e1 : step w0 .signal = { w0 with active := true } := by
    unfold step updateBuffer
    simp [g3]
  rw [e1]
  obtain ⟨-, a2, -, a4, a5⟩ := messages_run h1 m1 { w0 with active := true } g1.atEnd
  generalize h1.foldl step { w0 with active := true } = w1 at a2 a4 a5
  have e2 : (step w1 .signal).file = some (w1.buffer.text ++ ['\n']) ∧ (step w1 .signal).buffer.AtEnd := by
    unfold step updateBuffer
    simp only at a2
    simp only [a2, if_true]
    exact ⟨trivial, rfl⟩
  rw [(messages_run h2 m2 _ e2.2).2.2.1, e2.1, a5]
  simp [g1.empty g3]

/-- **C88** Before the buffer is turned off for the first time there is no file. -/
theorem no_file (h : List Call) (hp : ∀ c ∈ h, Plain c) (hs : signals h ≤ 1) : (h.foldl step start).file = none := by
  have key : ∀ (h : List Call) (w : World), (∀ c ∈ h, Plain c) → Good w → w.file = none →
      signals h + (if w.active then 1 else 0) ≤ 1 → (h.foldl step w).file = none := by
    intro h
    induction h with
    | nil => intro w _ _ h _; exact h
    | cons c h ih =>
      intro w hp hw hf hs
      have hg := plain_step hw (hp c List.mem_cons_self)
      rw [List.foldl_cons]
      unfold signals at hs
      rw [List.countP_cons] at hs
      rcases hp c List.mem_cons_self with hc | rfl
      · refine ih _ (fun c hc => hp c (List.mem_cons_of_mem _ hc)) hg.1 ?_ ?_
        · rw [(message_step hw.atEnd hc).2.2.1, hf]
        · rw [(message_step hw.atEnd hc).2.1]
          unfold signals
          omega
      · simp only [if_true] at hs
        have ha : w.active = false := by
          cases ha : w.active
          · rfl
          · rw [ha] at hs; simp at hs
        refine ih _ (fun c hc => hp c (List.mem_cons_of_mem _ hc)) hg.1 ?_ ?_
        · unfold step updateBuffer
          simp [ha, hf]
        · unfold signals
          split_ifs <;> omega
  exact key h start hp ⟨rfl, fun _ => rfl⟩ rfl (by simpa [start] using hs)

/-- **C88** Indicators of other threads or other processes say nothing. -/
theorem other_silent (caller s c1 c2 : Str) (threadId rank : Nat) (h : threadId ≠ 0 ∨ rank ≠ 0) (w : World) :
    printline (.mk' caller threadId rank) s c1 c2 w = w ∧ Host.print (.mk' caller threadId rank) s c1 c2 w = w ∧
      printStream (.mk' caller threadId rank) (.fresh s) c1 c2 w = (w, .fresh s) := by
  unfold Indicator.mk' printline Host.print printStream
  by_cases ht : threadId = 0
  · subst ht
    have hr : rank ≠ 0 := by omega
    simp [hr]
  · simp [ht]

/-- **C88** The use of memory is printed as one line while the buffer is not active. -/
theorem memory_inactive (p : Indicator) (size peak c1 c2 c3 c4 : Str) (w : World) (ha : w.active = false) :
    step w (.memory p size peak c1 c2 c3 c4) = { w with out := w.out ++ onOutput (.memory p size peak c1 c2 c3 c4) } := by
  show printMemoryUsage p size peak c1 c2 c3 c4 w = { w with out := w.out ++ said p c1 (memoryText size peak ++ ['\n']) }
  unfold printMemoryUsage
  by_cases hp : Speaks p
  · rw [speaks_stream hp, fresh_text]
    simp [ha]
  · rw [(silent_calls hp [] _ c1 c2 w).2.2, said, if_neg hp]
    obtain ⟨o, b, a, f⟩ := w
    simp only at ha
    subst ha
    simp

/-- **C88** Finding: while the buffer is active the whole buffer is printed as well, and what is printed afterwards overwrites its
beginning: the file does not have the messages in order. -/
theorem memory_active_fails : let w := [Call.signal, .line ⟨['A'], 0, 0⟩ "one".toList ['1'] ['1'],
      .memory ⟨['A'], 0, 0⟩ ['S'] ['P'] ['2'] ['2'] ['2'] ['2'], .line ⟨['A'], 0, 0⟩ "three".toList ['3'] ['3'], .signal].foldl step start
    w.file = some ("A [3]: three\n one\nA [2]: Current virtual memory is S maximum was P\n".toList ++
      "Current virtual memory is S maximum was P\n\n".toList) ∧
    w.out = "A [1]: one\nA [2]: Current virtual memory is S maximum was P\n".toList ++
      "A [2]: A [1]: one\nA [2]: Current virtual memory is S maximum was P\nCurrent virtual memory is S maximum was P\n".toList ++
      "A [3]: three\n".toList := by decide +kernel

/-- **C88** Finding: a process that should be silent writes the use of memory to its file. -/
theorem memory_silent_fails : ([Call.signal, .memory (.mk' ['A'] 0 1) ['S'] ['P'] [] [] [] [], .signal].foldl step start).file =
    some "Current virtual memory is S maximum was P\n".toList := by decide +kernel

/-- **C88** A stream of messages that is used again: the end of a longer message before it is still there. -/
theorem stream_reuse (p : Indicator) (hp : Speaks p) (t m c1 c2 c3 c4 : Str) (w : World) :
    (printStream p ((printStream p (.fresh t) c1 c2 w).2.put m) c3 c4 w).1.out = w.out ++ said p c3 (m ++ t.drop m.length ++ ['\n']) := by
  rw [speaks_stream hp, speaks_stream hp, fresh_text]
  simp [OStr.put]

theorem update_out (w : World) : (updateBuffer w).out = w.out := by
  unfold updateBuffer
  cases w.active <;> rfl

/-- **C88** A signal in the middle of a line does not change the output. -/
theorem signal_output (k : Nat) (p : Indicator) (s c1 c2 : Str) (w : World) :
    (printlineSignal k p s c1 c2 w).out = w.out ++ onOutput (.line p s c1 c2) := by
  have hs : ∀ (j : Nat) (w : World), (if j = k then updateBuffer w else w).out = w.out := by
    intro j w
    split_ifs
    · exact update_out w
    · rfl
  show _ = w.out ++ said p c1 (s ++ ['\n'])
  unfold printlineSignal said
  by_cases hp : Speaks p
  · rw [if_neg (by simp [hp.1]), if_neg (by simp [hp.2]), if_pos hp]
    simp only []
    simp only [apply_ite World.out, update_out, ite_self, prefixText]
    simp
  · rw [if_neg hp, List.append_nil]
    rcases silent p hp with h | h
    · rw [if_pos h]; exact hs 0 w
    · rw [if_neg (by simp [h.1]), if_pos h.2]; exact hs 0 w

/-- **C88** Finding: but the line is torn in the buffer: its prefix is in the file, and its message is the beginning of what the buffer has
when it is turned on again. -/
theorem signal_torn_fails : let w := printlineSignal 4 ⟨['A'], 0, 0⟩ "one".toList ['1'] ['1'] { start with active := true }
    w.file = some "A [1]: \n".toList ∧ w.active = false ∧ w.buffer = ⟨"one\n".toList, 4⟩ := by decide

/-- **C88** Finding: so the second message is not what was written to the stream. -/
theorem stream_reuse_fails : (printStream ⟨['A'], 0, 0⟩ ((printStream ⟨['A'], 0, 0⟩ (.fresh "energy".toList) [] [] start).2.put "ok".toList)
    ['1'] [] start).1.out = "A [1]: okergy\n".toList := by decide

/-- **C88** A profile prints the beginning and the end once, with the message of the first call of `end`, or none if only the destructor
ends it. -/
theorem profiling_spec (p : Indicator) (hp : Speaks p) (extra c1 c2 : Str) (ends : List (Str × Str × Str)) (d1 d2 : Str) (w : World) :
    let r := Profiling.begin p extra c1 c2 w
    (r.1.run ends d1 d2 r.2).out = w.out ++ said p c1 ("starting clock".toList ++ extra ++ ['\n']) ++
      (match ends with
        | [] => said p d1 "stopping clock \n".toList
        | (m, t, _) :: _ => said p t ("stopping clock ".toList ++ m ++ ['\n'])) := by
  have pr : ∀ (s a b : Str) (w : World), (printStream p (OStr.fresh s) a b w).1.out = w.out ++ said p a (s ++ ['\n']) := by
    intro s a b w
    rw [speaks_stream hp, fresh_text]
  have dead : ∀ (ends : List (Str × Str × Str)) (w : World),
      ends.foldl (fun (r : Profiling × World) e => r.1.killIt e.1 e.2.1 e.2.2 r.2) (⟨p, true⟩, w) = (⟨p, true⟩, w) := by
    intro ends
    induction ends with
    | nil => intro w; rfl
    | cons e ends ih => intro w; exact ih w
  simp only [Profiling.begin]
  cases ends with
  | nil =>
    show ((Profiling.killIt ⟨p, false⟩ [] d1 d2 _).2).out = _
    unfold Profiling.killIt
    simp only [Bool.false_eq_true, if_false]
    rw [pr, List.foldl_nil, pr]
    rfl
  | cons e ends =>
    obtain ⟨m, t, t2⟩ := e
    unfold Profiling.run
    rw [List.foldl_cons]
    have e1 : ∀ w, Profiling.killIt ⟨p, false⟩ m t t2 w = (⟨p, true⟩, (printStream p (OStr.fresh ("stopping clock ".toList ++ m)) t t2 w).1) := fun _ => rfl
    simp only [e1]
    rw [dead]
    show (printStream p (OStr.fresh ("stopping clock ".toList ++ m)) t t2 _).1.out = _
    rw [pr, pr]

example : ([Call.line ⟨"A".toList, 0, 0⟩ "one".toList ['1'] ['1'], .signal, .line ⟨"A".toList, 0, 0⟩ "two".toList ['2'] ['3'],
    .print ⟨"B".toList, 1, 0⟩ "no".toList [] [], .signal, .line ⟨"A".toList, 0, 0⟩ "four".toList ['4'] []].foldl step start) =
    ⟨"A [1]: one\nA [2]: two\nA [4]: four\n".toList, ⟨[], 0⟩, false, some "A [3]: two\n\n".toList⟩ := by decide

/-! ## Concrete cases of the hypotheses. -/

example := buffer_file [.line ⟨"A".toList, 0, 0⟩ "one".toList ['1'] ['1']] [.line ⟨"A".toList, 0, 0⟩ "two".toList ['2'] ['3']]
  [.print ⟨"B".toList, 0, 0⟩ "three".toList [] []] (by simp [Plain, Message]) (by decide) (by simp [Message]) (by simp [Message])
example := no_file [.line ⟨"A".toList, 0, 0⟩ "one".toList ['1'] ['1'], .signal] (by simp [Plain, Message]) (by decide)
example := output_spec [.line ⟨"A".toList, 0, 0⟩ "one".toList ['1'] ['1'], .signal] (by simp [Plain, Message])
example := other_silent "A".toList "one".toList ['1'] ['1'] 2 0 (.inl (by decide)) start
example := memory_inactive ⟨"A".toList, 0, 0⟩ ['5'] ['6'] [] [] [] [] start rfl

end Verif.Host
