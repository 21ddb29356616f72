import Verif.IoSimple.ModelFiles

/-!
# C112: files that are opened, written and closed
-/

namespace Verif.IoSimple

/-- A call that writes. -/
def Call.Writes : Call → Prop
  | .openFile _ _ => False
  | .close => False
  | _ => True

/-- A file is opened, written and closed. -/
structure Session where
  fn : Str
  app : Bool
  items : List Call

/-- The calls of a session. -/
def Session.calls (x : Session) : List Call := .openFile x.fn x.app :: (x.items ++ [.close])

/-- What a session does to the files. -/
def Session.apply (d : Disk) (x : Session) : Disk :=
  d.put x.fn ((if x.app then (d x.fn).getD [] else []) ++ x.items.flatMap Call.text)

/-- The sessions the theorem is about. -/
def Session.Ok (canOpen : Str → Bool) (x : Session) : Prop :=
  canOpen x.fn = true ∧ x.fn ≠ ostreamName ∧ ∀ c ∈ x.items, c.Writes

theorem Disk.put_put (d : Disk) (fn a b : Str) : (d.put fn a).put fn b = d.put fn b := by
  funext x; unfold Disk.put; by_cases h : x = fn <;> simp [h]

theorem Disk.put_self (d : Disk) (fn a : Str) : (d.put fn a) fn = some a := by simp [Disk.put]

theorem runCalls_append (canOpen : Str → Bool) : ∀ (l l' : List Call) (s : OutState), (∀ r ∈ (runCalls canOpen l s).2, r ≠ .undefined) →
    runCalls canOpen (l ++ l') s =
      ((runCalls canOpen l' (runCalls canOpen l s).1).1, (runCalls canOpen l s).2 ++ (runCalls canOpen l' (runCalls canOpen l s).1).2) := by
  intro l
  induction l with
  | nil => intro l' s _; rfl
  | cons c rest ih =>
    intro l' s h
    rw [List.cons_append, runCalls]
    rw [runCalls] at h ⊢
    simp only at h ⊢
    by_cases hu : (step canOpen c s).2 = .undefined
    · rw [if_pos hu] at h
      exact absurd rfl (h .undefined (by simp))
    · rw [if_neg hu] at h ⊢
      rw [if_neg hu]
      have := ih l' (step canOpen c s).1 fun r hr => h r (List.mem_cons_of_mem _ hr)
      rw [this]
      rfl

/-- A call that writes, while a file is open. -/
theorem step_write (canOpen : Str → Bool) {c : Call} (hc : c.Writes) (d : Disk) (name fn buf : Str) :
    step canOpen c ⟨d, 0, name, some ⟨some fn, true, buf⟩⟩ = (⟨d, 0, name, some ⟨some fn, true, buf ++ c.text⟩⟩, .done) := by
  cases c with
  | openFile => exact absurd hc id
  | close => exact absurd hc id
  | line => simp [step, OutState.send, OFile.out]
  | num => simp [step, OutState.send, OFile.out]
  | obj => simp [step, OutState.send, OFile.out, OutState.isGood]

theorem run_writes (canOpen : Str → Bool) : ∀ (items : List Call) (d : Disk) (name fn buf : Str), (∀ c ∈ items, c.Writes) →
    runCalls canOpen items ⟨d, 0, name, some ⟨some fn, true, buf⟩⟩ =
      (⟨d, 0, name, some ⟨some fn, true, buf ++ items.flatMap Call.text⟩⟩, List.replicate items.length .done) := by
  intro items
  induction items with
  | nil => intro d name fn buf _; simp [runCalls]
  | cons c rest ih =>
    intro d name fn buf h
    rw [runCalls, step_write canOpen (h c (by simp))]
    simp only
    rw [if_neg (by simp), ih d name fn _ fun c hc => h c (List.mem_cons_of_mem _ hc)]
    simp [List.replicate_succ]

/-- A stream of the process zero that has no file open. -/
def Idle (s : OutState) : Prop := s.rank = 0 ∧ s.name ≠ ostreamName ∧ ∀ o, s.fout = some o → o.file = none

theorem open_idle (canOpen : Str → Bool) {s : OutState} (h : Idle s) {fn : Str} (app : Bool) (hf : canOpen fn = true) :
    step canOpen (.openFile fn app) s =
      (⟨s.disk.put fn (if app then (s.disk fn).getD [] else []), 0, fn, some ⟨some fn, true, []⟩⟩, .done) := by
  obtain ⟨h1, h2, h3⟩ := h
  have h4 : (s.fout.getD .fresh).file = none := by
    cases hs : s.fout with
    | none => rfl
    | some o => exact h3 o hs
  rw [step, OutState.doOpen, if_neg (by simp [h1]), if_neg h2]
  simp [OFile.openIn, h4, hf, h1]

theorem session_opened (canOpen : Str → Bool) {s : OutState} (h : Idle s) {x : Session} (hx : x.Ok canOpen) :
    runCalls canOpen (.openFile x.fn x.app :: x.items) s =
      (⟨s.disk.put x.fn (if x.app then (s.disk x.fn).getD [] else []), 0, x.fn, some ⟨some x.fn, true, x.items.flatMap Call.text⟩⟩,
        List.replicate (x.items.length + 1) .done) := by
  rw [runCalls, open_idle canOpen h x.app hx.1]
  simp only
  rw [if_neg (by simp), run_writes canOpen _ _ _ _ _ hx.2.2]
  simp [List.replicate_succ]

theorem session_spec (canOpen : Str → Bool) {s : OutState} (h : Idle s) {x : Session} (hx : x.Ok canOpen) :
    ∃ s', runCalls canOpen x.calls s = (s', List.replicate x.calls.length .done) ∧ Idle s' ∧ s'.disk = x.apply s.disk ∧
      s'.name = x.fn := by
  have e : x.calls = (.openFile x.fn x.app :: x.items) ++ [.close] := rfl
  refine ⟨⟨x.apply s.disk, 0, x.fn, some ⟨none, true, []⟩⟩, ?_, ⟨rfl, hx.2.1, fun o ho => by obtain rfl := Option.some.inj ho; rfl⟩, rfl, rfl⟩
  rw [e, runCalls_append _ _ _ _ (by rw [session_opened canOpen h hx]; intro r hr; rw [List.eq_of_mem_replicate hr]; simp),
    session_opened canOpen h hx]
  simp only [runCalls, step, OutState.doClose]
  rw [if_neg hx.2.1]
  simp only [OFile.closeIn, Disk.put_self, Option.getD_some, Disk.put_put]
  rw [if_neg (by simp)]
  simp only [Prod.mk.injEq]
  refine ⟨rfl, ?_⟩
  rw [List.length_append, List.length_cons]
  exact (List.replicate_succ' (n := x.items.length + 1) (a := Ending.done)).symm

theorem sessions_run (canOpen : Str → Bool) : ∀ (xs : List Session) (s : OutState), Idle s → (∀ x ∈ xs, x.Ok canOpen) →
    ∃ s', (runCalls canOpen (xs.flatMap Session.calls) s).1 = s' ∧
      (∀ r ∈ (runCalls canOpen (xs.flatMap Session.calls) s).2, r = .done) ∧ Idle s' ∧ s'.disk = xs.foldl Session.apply s.disk := by
  intro xs
  induction xs with
  | nil => intro s h _; exact ⟨s, rfl, by simp [runCalls], h, rfl⟩
  | cons x rest ih =>
    intro s h hx
    obtain ⟨s1, e1, h1, d1, _⟩ := session_spec canOpen h (hx x (by simp))
    obtain ⟨s2, e2, r2, h2, d2⟩ := ih s1 h1 fun x hx' => hx x (List.mem_cons_of_mem _ hx')
    have hap := runCalls_append canOpen x.calls (rest.flatMap Session.calls) s
      (by rw [e1]; intro r hr; rw [List.eq_of_mem_replicate hr]; simp)
    rw [e1] at hap
    simp only at hap
    refine ⟨s2, ?_, ?_, h2, by rw [d2, d1]; rfl⟩
    · rw [List.flatMap_cons, hap, e2]
    · rw [List.flatMap_cons, hap]
      intro r hr
      rcases List.mem_append.1 hr with h' | h'
      · exact List.eq_of_mem_replicate h'
      · exact r2 r h'

/-- **C112** A program that opens, writes and closes files, any number of times and in any order, has no exceptions, and in the
end each file has what was written to it since it was last opened for writing. -/
theorem sessions_spec (canOpen : Str → Bool) (d : Disk) (xs : List Session) (hx : ∀ x ∈ xs, x.Ok canOpen) :
    (∀ r ∈ (runCalls canOpen (xs.flatMap Session.calls) (newOut d)).2, r = .done) ∧
      (runCalls canOpen (xs.flatMap Session.calls) (newOut d)).1.disk = xs.foldl Session.apply d := by
  obtain ⟨s', e, h1, _, h2⟩ := sessions_run canOpen xs (newOut d) ⟨rfl, show ([] : Str) ≠ ostreamName by decide, fun o ho => by simp [newOut] at ho⟩ hx
  exact ⟨h1, by rw [e, h2]; rfl⟩

/-- **C112** The last file need not be closed: the destructor does. -/
theorem sessions_unclosed (canOpen : Str → Bool) (d : Disk) (xs : List Session) (hx : ∀ x ∈ xs, x.Ok canOpen) (y : Session)
    (hy : y.Ok canOpen) :
    (runCalls canOpen (xs.flatMap Session.calls ++ .openFile y.fn y.app :: y.items) (newOut d)).1.destroy =
      (xs ++ [y]).foldl Session.apply d := by
  obtain ⟨s', e, h1, hi, h2⟩ := sessions_run canOpen xs (newOut d) ⟨rfl, show ([] : Str) ≠ ostreamName by decide, fun o ho => by simp [newOut] at ho⟩ hx
  rw [runCalls_append _ _ _ _ (fun r hr => by rw [h1 r hr]; simp), e, session_opened canOpen hi hy]
  simp only [OutState.destroy]
  rw [if_neg (by simp), if_neg hy.2.1]
  simp only [OFile.closeIn, Disk.put_self, Option.getD_some, Disk.put_put, List.foldl_append, List.foldl_cons, List.foldl_nil]
  rw [h2]
  rfl

/-- What writing does to a stream that is not good. -/
theorem step_bad (canOpen : Str → Bool) {c : Call} (hc : c.Writes) (d : Disk) (name buf : Str) (file : Option Str) :
    ∃ r, r ≠ Ending.undefined ∧ step canOpen c ⟨d, 0, name, some ⟨file, false, buf⟩⟩ = (⟨d, 0, name, some ⟨file, false, buf⟩⟩, r) := by
  cases c with
  | openFile => exact absurd hc id
  | close => exact absurd hc id
  | line => exact ⟨.done, by simp, by simp [step, OutState.send, OFile.out]⟩
  | num => exact ⟨.done, by simp, by simp [step, OutState.send, OFile.out]⟩
  | obj => exact ⟨.threw, by simp, by simp [step, OutState.isGood]⟩

theorem run_bad (canOpen : Str → Bool) (d : Disk) (name buf : Str) (file : Option Str) : ∀ items : List Call, (∀ c ∈ items, c.Writes) →
    (runCalls canOpen items ⟨d, 0, name, some ⟨file, false, buf⟩⟩).1 = ⟨d, 0, name, some ⟨file, false, buf⟩⟩ := by
  intro items
  induction items with
  | nil => intro _; rfl
  | cons c rest ih =>
    intro h
    obtain ⟨r, hr, e⟩ := step_bad canOpen (h c (by simp)) d name buf file
    rw [runCalls, e]
    simp only
    rw [if_neg hr]
    exact ih fun c hc => h c (List.mem_cons_of_mem _ hc)

/-- **C112** (finding) Opening a second file without closing the first throws; and whatever is written afterwards is lost, although
the first file is still open. -/
theorem open_twice_fails (canOpen : Str → Bool) (d : Disk) (name fn buf : Str) (hn : name ≠ ostreamName) (fn' : Str)
    (hf : fn' ≠ ostreamName) (app : Bool) (items : List Call) (hi : ∀ c ∈ items, c.Writes) :
    (step canOpen (.openFile fn' app) ⟨d, 0, name, some ⟨some fn, true, buf⟩⟩).2 = .threw ∧
      (runCalls canOpen (.openFile fn' app :: items) ⟨d, 0, name, some ⟨some fn, true, buf⟩⟩).1.destroy =
        (⟨d, 0, name, some ⟨some fn, true, buf⟩⟩ : OutState).destroy := by
  have e : step canOpen (.openFile fn' app) ⟨d, 0, name, some ⟨some fn, true, buf⟩⟩ =
      (⟨d, 0, fn', some ⟨some fn, false, buf⟩⟩, .threw) := by
    rw [step, OutState.doOpen, if_neg (by simp), if_neg hn]
    simp [OFile.openIn]
  refine ⟨by rw [e], ?_⟩
  rw [runCalls, e]
  simp only
  rw [if_neg (by simp)]
  simp only
  rw [run_bad _ _ _ _ _ _ hi]
  simp [OutState.destroy, hn, hf, OFile.closeIn]

/-- **C112** (finding) Writing after `close` does not throw, and what is written is lost; only the next `write` of something that
is not a number throws. -/
theorem write_closed_fails (canOpen : Str → Bool) (d : Disk) (name : Str) {c : Call} (hc : c.Writes) :
    let s : OutState := ⟨d, 0, name, some ⟨none, true, []⟩⟩
    (step canOpen c s).2 = .done ∧ (step canOpen c s).1.disk = d ∧ (step canOpen c s).1.destroy = s.destroy ∧
      ∀ label text, (step canOpen (.obj label text) (step canOpen c s).1).2 = .threw := by
  have e : step canOpen c ⟨d, 0, name, some ⟨none, true, []⟩⟩ = (⟨d, 0, name, some ⟨none, false, []⟩⟩, .done) := by
    cases c with
    | openFile => exact absurd hc id
    | close => exact absurd hc id
    | line => simp [step, OutState.send, OFile.out]
    | num => simp [step, OutState.send, OFile.out]
    | obj => simp [step, OutState.send, OFile.out, OutState.isGood]
  simp only [e]
  refine ⟨trivial, trivial, ?_, fun label text => by simp [step, OutState.isGood]⟩
  simp [OutState.destroy, OFile.closeIn]

/-- **C112** (finding) Before anything is opened `close` and all ways to write follow a null pointer. -/
theorem not_opened_fails (canOpen : Str → Bool) (d : Disk) (c : Call) (hc : c = .close ∨ c.Writes) :
    (step canOpen c (newOut d)).2 = .undefined := by
  rcases hc with rfl | hc
  · rw [step, OutState.doClose, newOut]
    rw [if_neg (show ¬ ([] : Str) = ostreamName by decide)]
  · cases c with
    | openFile => exact absurd hc id
    | close => exact absurd hc id
    | line => simp [step, OutState.send, newOut]
    | num => simp [step, OutState.send, newOut]
    | obj => simp [step, OutState.isGood, newOut]

/-- **C112** In other processes than the first nothing is opened and lines and objects are not written; but (finding) `write` of
a number and `close` follow a null pointer. -/
theorem rank_fails (canOpen : Str → Bool) (d : Disk) (rank : Nat) (hr : rank ≠ 0) (fn : Str) (hf : fn ≠ ostreamName) :
    let s := (newOutFile canOpen d rank fn).1
    (newOutFile canOpen d rank fn).2 = .done ∧ s.disk = d ∧ s.destroy = d ∧
      (∀ fn' app, step canOpen (.openFile fn' app) s = (s, .done)) ∧ (∀ t, step canOpen (.line t) s = (s, .done)) ∧
      (∀ l t, step canOpen (.obj l t) s = (s, .done)) ∧ (∀ l t, (step canOpen (.num l t) s).2 = .undefined) ∧
      (step canOpen .close s).2 = .undefined := by
  simp [newOutFile, hr, step, OutState.destroy, OutState.doOpen, OutState.send, OutState.doClose, hf]

/-- **C112** (finding) A file named OSTREAM cannot be closed, and the destructor does not close it: what the stream still holds
in its buffer is lost (the model, as a stream with a buffer that is large enough, holds everything). -/
theorem ostream_name_fails (canOpen : Str → Bool) (d : Disk) (hc : canOpen ostreamName = true) (items : List Call)
    (hi : ∀ c ∈ items, c.Writes) :
    (newOutFile canOpen d 0 ostreamName).2 = .done ∧
      (runCalls canOpen items (newOutFile canOpen d 0 ostreamName).1).1.destroy = d.put ostreamName [] ∧
      (step canOpen .close (runCalls canOpen items (newOutFile canOpen d 0 ostreamName).1).1).2 = .threw := by
  have e : newOutFile canOpen d 0 ostreamName = (⟨d.put ostreamName [], 0, ostreamName, some ⟨some ostreamName, true, []⟩⟩, .done) := by
    simp [newOutFile, OFile.openIn, OFile.fresh, hc]
  rw [e]
  simp only
  rw [run_writes canOpen items _ _ _ _ hi]
  refine ⟨trivial, ?_, ?_⟩
  · simp [OutState.destroy]
  · simp [step, OutState.doClose]

/-! ## Examples -/

/-- Two sessions with the same file, the second appends. -/
def exSessions : List Session :=
  [⟨"a".toList, false, [.line "x".toList, .num "N".toList "3".toList]⟩, ⟨"a".toList, true, [.obj "V".toList "1 2".toList]⟩]

example : (∀ x ∈ exSessions, x.Ok fun _ => true) := by
  simp [exSessions, Session.Ok, Call.Writes, ostreamName]

example : (runCalls (fun _ => true) (exSessions.flatMap Session.calls) (newOut fun _ => none)).1.disk "a".toList =
    some "x\nN=3\nV\n1 2\n".toList := by decide +kernel

end Verif.IoSimple
