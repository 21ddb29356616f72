import Verif.Host.ModelRedirect

/-!
# **C97** Output sent to a file

Whatever a program prints, in whatever order it asks for redirection and whenever the buffers are written.
-/

namespace Verif.Host

open Verif.Str

/-- What the events print, in order. -/
def printed : List RCall → Str
  | [] => []
  | .print t :: cs => t ++ printed cs
  | _ :: cs => printed cs

/-- The last name set, or `s`. -/
def lastName (s : Str) : List RCall → Str
  | [] => s
  | .name _ b :: cs => lastName b cs
  | _ :: cs => lastName s cs

/-- Asks for redirection. -/
def RCall.asks : RCall → Bool
  | .doIt _ _ _ => true
  | _ => false

/-- Asks for redirection to a file that can be opened. -/
def RCall.asksFor (can : Str → Bool) : RCall → Bool
  | .doIt l _ _ => can l
  | _ => false

/-- The program ends. -/
def RCall.isExit : RCall → Bool
  | .exit => true
  | _ => false

theorem run_append (can : Str → Bool) (s : Redirect) (a b : List RCall) :
    s.run can (a ++ b) = ((s.run can a).1 ++ ((s.run can a).2.run can b).1, ((s.run can a).2.run can b).2) := by
  induction a generalizing s with
  | nil => rfl
  | cons c a ih =>
    simp only [List.cons_append, Redirect.run, ih]

/-- Before the redirection. -/
theorem run_before (can : Str → Bool) (disk : Str → Option Str) (pre : List RCall) (h : ∀ c ∈ pre, c.asksFor can = false) (t n : Str) :
    ({ Redirect.start disk with terminal := t, appName2 := n } : Redirect).run can pre =
      (pre.map fun c => !c.asks, { Redirect.start disk with terminal := t ++ printed pre, appName2 := lastName n pre }) := by
  induction pre generalizing t n with
  | nil => simp [Redirect.run, printed, lastName]
  | cons c pre ih =>
    have ih := fun t n => ih (fun c hc => h c (List.mem_cons_of_mem _ hc)) t n
    have hc := h c List.mem_cons_self
    rw [Redirect.run]
    cases c with
    | name a b =>
      simp only [Redirect.step]
      have := ih t b
      simp only [Redirect.start] at this ⊢
      rw [this]
      rfl
    | doIt l a u =>
      simp only [RCall.asksFor] at hc
      have e : Redirect.doIt can { Redirect.start disk with terminal := t, appName2 := n } l a u =
          (false, { Redirect.start disk with terminal := t, appName2 := n }) := by
        unfold Redirect.doIt
        rw [if_pos (by rw [hc]; rfl)]
      simp only [Redirect.step]
      rw [e]
      simp only [ih t n]
      rfl
    | print x =>
      simp only [Redirect.step, Redirect.print, Redirect.start, Bool.false_eq_true, if_false]
      have := ih (t ++ x) n
      simp only [Redirect.start] at this
      rw [this]
      simp [printed, lastName, RCall.asks]
    | leak k =>
      have e : Redirect.flush { Redirect.start disk with terminal := t, appName2 := n } k =
          { Redirect.start disk with terminal := t, appName2 := n } := rfl
      simp only [Redirect.step]
      rw [e, ih t n]
      rfl
    | exit =>
      have e : (Redirect.restore^[(0 : Nat)]) { Redirect.start disk with terminal := t, appName2 := n } =
          { Redirect.start disk with terminal := t, appName2 := n } := rfl
      have e2 : Redirect.step can { Redirect.start disk with terminal := t, appName2 := n } .exit =
          (true, { Redirect.start disk with terminal := t, appName2 := n }) := rfl
      rw [e2, ih t n]
      rfl

/-- While the output goes to the file `f`, which had text `base`: `text` was printed. -/
structure Redirected (disk : Str → Option Str) (f base : Str) (u : Bool) (terminal cerr text : Str) (s : Redirect) : Prop where
  open' : ∃ d p, s.stream = some (f, p) ∧ s.disk f = some d ∧ d ++ p = base ++ text ∧ (u = true → p = [])
  others : ∀ g, g ≠ f → s.disk g = disk g
  term : s.terminal = terminal
  err : s.cerr = cerr
  dest : s.toStream = true
  saved : s.saved = some false
  unit : u = true → s.unitbuf = true
  red : s.redirected = true
  one : s.handlers = 1

theorem Redirected.flush {disk : Str → Option Str} {f base : Str} {u : Bool} {terminal cerr text : Str} {s : Redirect}
    (h : Redirected disk f base u terminal cerr text s) (n : Nat) : Redirected disk f base u terminal cerr text (s.flush n) := by
  obtain ⟨⟨d, p, h1, h2, h3, h4⟩, g1, g2, g3, g4, g5, g6, g7, g8⟩ := h
  unfold Redirect.flush
  rw [h1]
  refine ⟨⟨d ++ p.take n, p.drop n, rfl, ?_, ?_, ?_⟩, ?_, g2, g3, g4, g5, g6, g7, g8⟩
  · simp [h2]
  · rw [List.append_assoc, List.take_append_drop, h3]
  · intro hu; rw [h4 hu, List.drop_nil]
  · intro g hg
    rw [← g1 g hg]
    exact Function.update_of_ne hg _ _

theorem Redirected.print {disk : Str → Option Str} {f base : Str} {u : Bool} {terminal cerr text : Str} {s : Redirect}
    (h : Redirected disk f base u terminal cerr text s) (t : Str) : Redirected disk f base u terminal cerr (text ++ t) (s.print t) := by
  obtain ⟨⟨d, p, h1, h2, h3, h4⟩, g1, g2, g3, g4, g5, g6, g7, g8⟩ := h
  unfold Redirect.print
  rw [if_pos g4, h1]
  simp only []
  by_cases hu : s.unitbuf = true
  · rw [if_pos hu]
    unfold Redirect.flush
    simp only []
    refine ⟨⟨d ++ (p ++ t), [], ?_, ?_, ?_, fun _ => rfl⟩, ?_, g2, g3, g4, g5, g6, g7, g8⟩
    · simp only [List.drop_length]
    · simp [h2]
    · rw [List.append_nil, ← List.append_assoc, h3, List.append_assoc]
    · intro g hg
      rw [← g1 g hg]
      exact Function.update_of_ne hg _ _
  · rw [if_neg hu]
    refine ⟨⟨d, p ++ t, rfl, h2, ?_, fun h => absurd (g6 h) hu⟩, g1, g2, g3, g4, g5, g6, g7, g8⟩
    rw [← List.append_assoc, h3, List.append_assoc]

theorem run_during (can : Str → Bool) (disk : Str → Option Str) (f base : Str) (u : Bool) (terminal cerr : Str) (mid : List RCall)
    (hmid : ∀ c ∈ mid, c.isExit = false) (text : Str) (s : Redirect) (h : Redirected disk f base u terminal cerr text s) :
    (s.run can mid).1 = (mid.map fun c => !c.asks) ∧
      Redirected disk f base u terminal cerr (text ++ printed mid) (s.run can mid).2 := by
  induction mid generalizing text s with
  | nil => exact ⟨rfl, by simpa [printed, Redirect.run] using h⟩
  | cons c mid ih =>
    have ih := fun text s h => ih (fun c hc => hmid c (List.mem_cons_of_mem _ hc)) text s h
    have hc := hmid c List.mem_cons_self
    rw [Redirect.run]
    cases c with
    | name a b =>
      obtain ⟨i1, i2⟩ := ih text { s with appName2 := b } ⟨h.open', h.others, h.term, h.err, h.dest, h.saved, h.unit, h.red, h.one⟩
      exact ⟨by simp only [Redirect.step, List.map_cons]; rw [i1]; rfl, i2⟩
    | doIt l a v =>
      have e : Redirect.doIt can s l a v = (false, s) := by
        obtain ⟨d, p, h1, -⟩ := h.open'
        unfold Redirect.doIt
        rw [if_pos (by rw [h1]; rfl)]
      simp only [Redirect.step]
      rw [e]
      obtain ⟨i1, i2⟩ := ih text s h
      exact ⟨by simp only [List.map_cons]; rw [i1]; rfl, i2⟩
    | print x =>
      obtain ⟨i1, i2⟩ := ih (text ++ x) (s.print x) (h.print x)
      refine ⟨by simp only [Redirect.step, List.map_cons]; rw [i1]; rfl, ?_⟩
      rw [List.append_assoc] at i2
      exact i2
    | leak k =>
      obtain ⟨i1, i2⟩ := ih text (s.flush k) (h.flush k)
      exact ⟨by simp only [Redirect.step, List.map_cons]; rw [i1]; rfl, i2⟩
    | exit => cases hc

/-- Old text that stays in the file. -/
def oldText (disk : Str → Option Str) (f : Str) (app : Bool) : Str := if app then (disk f).getD [] else []

theorem after_doIt (can : Str → Bool) (disk : Str → Option Str) (f : Str) (app u : Bool) (hc : can f = true) (t n : Str) :
    ∃ s, Redirect.doIt can { Redirect.start disk with terminal := t, appName2 := n } f app u = (true, s) ∧
      Redirected disk f (oldText disk f app) u t (n ++ ": Standard output sent to ".toList ++ f ++ ['\n']) [] s := by
  unfold Redirect.doIt
  rw [if_neg (by rw [hc]; simp [Redirect.start])]
  refine ⟨_, rfl, ⟨_, [], rfl, Function.update_self _ _ _, rfl, fun _ => rfl⟩, ?_, rfl, ?_, rfl, rfl, ?_, rfl, rfl⟩
  · intro g hg
    exact Function.update_of_ne hg _ _
  · simp [Redirect.start]
  · intro hu; simp [hu]

/-- **C97** At any point of a program that has sent its output to a file: what it printed before is at the terminal, the file has the
old text if it was to be kept and then what the program printed, up to a part at the end that is still in the buffer, and without a
buffer all of it; so a crash loses at most that part. No other file is touched; asking again throws and changes nothing. -/
theorem redirect_during (can : Str → Bool) (disk : Str → Option Str) (pre mid : List RCall) (f : Str) (app u : Bool)
    (hpre : ∀ c ∈ pre, c.asksFor can = false) (hmid : ∀ c ∈ mid, c.isExit = false) (hc : can f = true) :
    ∃ answers s d rest, (Redirect.start disk).run can (pre ++ .doIt f app u :: mid) = (answers, s) ∧
      answers = (pre.map fun c => !c.asks) ++ true :: (mid.map fun c => !c.asks) ∧
      s.terminal = printed pre ∧ s.disk f = some d ∧ d ++ rest = oldText disk f app ++ printed mid ∧ (u = true → rest = []) ∧
      (∀ g, g ≠ f → s.disk g = disk g) ∧ s.redirected = true ∧
      s.cerr = lastName [] pre ++ ": Standard output sent to ".toList ++ f ++ ['\n'] := by
  have e1 := run_before can disk pre hpre [] []
  obtain ⟨s1, e2, hs1⟩ := after_doIt can disk f app u hc (printed pre) (lastName [] pre)
  obtain ⟨e3, e4⟩ := run_during can disk f _ u _ _ mid hmid [] s1 hs1
  obtain ⟨d, p, q1, q2, q3, q4⟩ := e4.open'
  have e : (Redirect.start disk).run can (pre ++ .doIt f app u :: mid) =
      ((pre.map fun c => !c.asks) ++ true :: (mid.map fun c => !c.asks), (s1.run can mid).2) := by
    rw [run_append]
    have e1' : (Redirect.start disk).run can pre = _ := e1
    rw [e1']
    simp only [List.nil_append, Redirect.run, Redirect.step]
    rw [e2, ← e3]
  exact ⟨_, _, d, p, e, rfl, e4.term, q2, q3, q4, e4.others, e4.red, e4.err⟩

/-- After the end of the program. -/
theorem run_after (can : Str → Bool) (post : List RCall) (hpost : ∀ c ∈ post, c.asks = false) (s : Redirect)
    (h1 : s.toStream = false) (h2 : s.stream = none) (h3 : s.handlers = 0) :
    (s.run can post).1 = (post.map fun _ => true) ∧ (s.run can post).2.terminal = s.terminal ++ printed post ∧
      (s.run can post).2.disk = s.disk := by
  induction post generalizing s with
  | nil => exact ⟨rfl, by simp [printed, Redirect.run], rfl⟩
  | cons c post ih =>
    have ih := fun s h1 h2 h3 => ih (fun c hc => hpost c (List.mem_cons_of_mem _ hc)) s h1 h2 h3
    have hc := hpost c List.mem_cons_self
    rw [Redirect.run]
    cases c with
    | name a b =>
      obtain ⟨i1, i2, i3⟩ := ih { s with appName2 := b } h1 h2 h3
      exact ⟨by simp only [Redirect.step, List.map_cons]; rw [i1], i2, i3⟩
    | doIt l a v => cases hc
    | print x =>
      have e : s.print x = { s with terminal := s.terminal ++ x } := by
        unfold Redirect.print
        rw [if_neg (by rw [h1]; decide)]
      simp only [Redirect.step]
      rw [e]
      obtain ⟨i1, i2, i3⟩ := ih { s with terminal := s.terminal ++ x } h1 h2 h3
      exact ⟨by rw [i1]; rfl, by rw [i2]; simp [printed], i3⟩
    | leak k =>
      have e : s.flush k = s := by
        unfold Redirect.flush
        rw [h2]
      simp only [Redirect.step]
      rw [e]
      obtain ⟨i1, i2, i3⟩ := ih s h1 h2 h3
      exact ⟨by rw [i1]; rfl, by rw [i2]; rfl, i3⟩
    | exit =>
      have e : (Redirect.restore^[s.handlers]) { s with handlers := 0 } = s := by
        rw [h3]
        obtain ⟨⟩ := s
        simp only at h3
        subst h3
        rfl
      simp only [Redirect.step]
      rw [e]
      obtain ⟨i1, i2, i3⟩ := ih s h1 h2 h3
      exact ⟨by rw [i1]; rfl, by rw [i2]; rfl, i3⟩

/-- **C97** When the program ends everything it printed is either at the terminal (before the redirection, and after the end) or in
the file (in between), nothing is lost and nothing is twice, whether buffered or not. -/
theorem redirect_exit (can : Str → Bool) (disk : Str → Option Str) (pre mid post : List RCall) (f : Str) (app u : Bool)
    (hpre : ∀ c ∈ pre, c.asksFor can = false) (hmid : ∀ c ∈ mid, c.isExit = false) (hpost : ∀ c ∈ post, c.asks = false)
    (hc : can f = true) :
    ∃ answers s, (Redirect.start disk).run can (pre ++ .doIt f app u :: mid ++ .exit :: post) = (answers, s) ∧
      s.terminal = printed pre ++ printed post ∧ s.disk f = some (oldText disk f app ++ printed mid) ∧
      ∀ g, g ≠ f → s.disk g = disk g := by
  have e1 := run_before can disk pre hpre [] []
  obtain ⟨s1, e2, hs1⟩ := after_doIt can disk f app u hc (printed pre) (lastName [] pre)
  obtain ⟨e3, e4⟩ := run_during can disk f _ u _ _ mid hmid [] s1 hs1
  have e : (Redirect.start disk).run can (pre ++ .doIt f app u :: mid) =
      ((pre.map fun c => !c.asks) ++ true :: (mid.map fun c => !c.asks), (s1.run can mid).2) := by
    rw [run_append]
    have e1' : (Redirect.start disk).run can pre = _ := e1
    rw [e1']
    simp only [List.nil_append, Redirect.run, Redirect.step]
    rw [e2, ← e3]
  rw [run_append, e]
  simp only [Redirect.run]
  generalize (s1.run can mid).2 = s at e4
  obtain ⟨d, p, q1, q2, q3, q4⟩ := e4.open'
  have ex : Redirect.step can s .exit = (true, { s with
      disk := Function.update s.disk f (some (d ++ p))
      handlers := 0
      stream := none
      toStream := false }) := by
    simp only [Redirect.step]
    rw [e4.one]
    simp only [Function.iterate_one, Redirect.restore, e4.saved, Redirect.close, q1, Redirect.flush, q2, Option.getD_some,
      List.take_length]
  rw [ex]
  obtain ⟨i1, i2, i3⟩ := run_after can post hpost { s with
      disk := Function.update s.disk f (some (d ++ p))
      handlers := 0
      stream := none
      toStream := false } rfl rfl rfl
  refine ⟨_, _, rfl, ?_, ?_, ?_⟩
  · rw [i2]
    simp only [e4.term]
  · rw [i3]
    simp only [Function.update_self, q3, List.nil_append]
  · intro g hg
    rw [i3, ← e4.others g hg]
    exact Function.update_of_ne hg _ _

/-- Without redirection everything is at the terminal, and no file is touched. -/
theorem redirect_never (can : Str → Bool) (disk : Str → Option Str) (pre : List RCall) (hpre : ∀ c ∈ pre, c.asksFor can = false) :
    ∃ answers s, (Redirect.start disk).run can pre = (answers, s) ∧ s.terminal = printed pre ∧ s.disk = disk ∧ s.redirected = false := by
  have e1 := run_before can disk pre hpre [] []
  exact ⟨_, _, e1, rfl, rfl, rfl⟩

/-- A buffered program that crashes can lose all it printed. -/
theorem redirect_crash_fails : ∃ (s : Redirect) (answers : List Bool), (Redirect.start fun _ => none).run (fun _ => true)
    [.doIt "a".toList false false, .print "x".toList] = (answers, s) ∧ s.disk "a".toList = some [] :=
  ⟨_, _, rfl, by decide⟩

example : ((Redirect.start fun _ => some "old ".toList).run (fun _ => true)
    [.print "one".toList, .doIt "a".toList true false, .print "two".toList, .doIt "b".toList true true, .leak 1, .exit]).2.disk
      "a".toList = some "old two".toList := by decide

end Verif.Host
