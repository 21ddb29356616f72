import Verif.IoNg.PropsStore

/-!
# C52: files of programs that died are refused
-/

namespace Verif.IoNg

variable {α : Type} [DecidableEq α]

/-- The place of the canary. -/
def cp : Path := ["Def".toList, "Canary".toList]

theorem canary_path : h5path canaryName = cp := by decide

/-! ## Calls do not touch the canary -/

theorem createDataSet_at (f f' : File α) (s : Str) (d : Dataset α) (q : Path) (hq : h5path s ≠ q)
    (h : f.createDataSet s d = .ok f') : f' q = f q := by
  unfold File.createDataSet at h
  simp only at h
  split at h
  · cases h
    exact set_other _ _ _ _ hq.symm
  · cases h

theorem internalWrite_at (f : File α) (s : Str) (d : Dataset α) (q : Path) (hq : h5path s ≠ q) :
    internalWrite f s d q = f q := by
  unfold internalWrite
  cases h : f.createDataSet s d with
  | ok f' => exact createDataSet_at f f' s d q hq h
  | error e => rfl

theorem unlink_at (f f' : File α) (s : Str) (q : Path) (h : f.unlink s = .ok f') :
    f' q = none ∨ f' q = f q := by
  unfold File.unlink at h
  simp only at h
  split at h
  · cases h
  · cases h
    by_cases hq : q = h5path s
    · left; rw [hq]; exact set_same _ _ _
    · right; exact set_other _ _ _ _ hq
  · split at h
    · cases h
    · cases h
      by_cases hq : h5path s <+: q
      · left; exact if_pos hq
      · right; exact if_neg hq

theorem unlink_far (f f' : File α) (s : Str) (q : Path) (hq : ¬ h5path s <+: q) (h : f.unlink s = .ok f') :
    f' q = f q := by
  unfold File.unlink at h
  simp only at h
  split at h
  · cases h
  · cases h
    exact set_other _ _ _ _ (by rintro rfl; exact hq (List.prefix_refl _))
  · split at h
    · cases h
    · cases h
      exact if_neg hq

theorem overwrite_none (f : File α) (s : Str) (d : Dataset α) (q : Path) (hq : h5path s ≠ q) (hf : f q = none) :
    overwrite f s d q = none := by
  unfold overwrite
  cases h : f.unlink s with
  | ok f' =>
    show internalWrite f' s d q = none
    rw [internalWrite_at _ _ _ _ hq]
    rcases unlink_at f f' s q h with h | h
    · exact h
    · rw [h, hf]
  | error e =>
    show internalWrite f s d q = none
    rw [internalWrite_at _ _ _ _ hq, hf]

theorem put_none (f : File α) (m : Mode) (s : Str) (d : Dataset α) (q : Path) (hq : h5path s ≠ q) (hf : f q = none) :
    put f m s d q = none := by
  cases m with
  | no => show internalWrite f s d q = none; rw [internalWrite_at _ _ _ _ hq, hf]
  | allow => exact overwrite_none f s d q hq hf

theorem put_far (f : File α) (m : Mode) (s : Str) (d : Dataset α) (q : Path) (hq : ¬ h5path s <+: q) :
    put f m s d q = f q := by
  have hne : h5path s ≠ q := by rintro rfl; exact hq (List.prefix_refl _)
  cases m with
  | no => exact internalWrite_at _ _ _ _ hne
  | allow =>
    show overwrite f s d q = f q
    unfold overwrite
    cases h : f.unlink s with
    | ok f' =>
      show internalWrite f' s d q = f q
      rw [internalWrite_at _ _ _ _ hne, unlink_far f f' s q hq h]
    | error e => exact internalWrite_at _ _ _ _ hne

theorem good_far (n : Name) (hn : Good n) : ¬ ("Def".toList :: n) <+: cp := by
  intro h
  obtain ⟨r, hr⟩ := h
  rcases n with _ | ⟨w, n⟩
  · exact hn.1 rfl
  · simp only [cp, List.cons_append, List.cons.injEq] at hr
    exact (hn.2 w (by simp)).2.1 hr.2.1

theorem mark_far (n : Name) (hn : Good n) : ¬ ("Def".toList :: mark n) <+: cp := by
  intro h
  rcases List.eq_nil_or_concat n with rfl | ⟨k, w, rfl⟩
  · exact hn.1 rfl
  · rw [List.concat_eq_append, mark_concat] at h
    obtain ⟨r, hr⟩ := h
    rcases k with _ | ⟨v, k⟩
    · simp only [cp, List.cons_append, List.nil_append, List.cons.injEq] at hr
      have : 'm' ∈ "Canary".toList := by
        rw [← hr.2.1]; exact List.mem_append_right _ (by decide)
      revert this; decide
    · simp only [cp, List.cons_append, List.cons.injEq] at hr
      exact (hn.2 v (by simp)).2.1 hr.2.1

theorem far_ne {p q : Path} (h : ¬ p <+: q) : p ≠ q := by rintro rfl; exact h (List.prefix_refl _)

/-- A good name, and not an overwriting of complex numbers. -/
def Op.Kept : Op α → Prop
  | .group n => Good n
  | .write n v m => Good n ∧ (v.kind = .cvec → m = .no)

/-- The place does not change by any call with a good name that is not an overwriting of complex numbers. -/
theorem op_keeps (f f' : File α) (o : Op α) (h : o.run f = .ok f')
    (ho : o.Kept) : f' cp = f cp := by
  cases o with
  | group n =>
    have hp := path_inDef n (show Good n from ho).1 (Good.parts ho)
    simp only [Op.run, createGroup, File.createGroup, hp] at h
    split at h
    · cases h
      exact set_other _ _ _ _ (far_ne (good_far n ho)).symm
    · cases h
  | write n v m =>
    obtain ⟨hn, hc⟩ := ho
    have hp : ¬ h5path (inDef n.text) <+: cp := by rw [path_inDef n hn.1 hn.parts]; exact good_far n hn
    have hm : ¬ h5path (inDef (marker n.text)) <+: cp := by
      rw [marker_text n hn.1, path_inDef _ (mark_ne_nil n hn.1) (mark_parts n hn.parts)]
      exact mark_far n hn
    have hw : ∀ (f : File α) c, writeComplexOrReal f n.text c cp = f cp := fun f c => by
      unfold writeComplexOrReal writeScalar; exact put_far f _ _ _ _ hm
    have hv : ∀ ty xs, writeVector f n.text ty xs m cp = f cp := by
      intro ty xs
      unfold writeVector
      split
      · rfl
      · rw [put_far _ _ _ _ _ hp]
        split
        · exact hw _ _
        · rfl
    cases v with
    | scalar ty x => cases h; exact put_far _ _ _ _ _ hp
    | text s =>
      simp only [Op.run, Leaf.write, writeString] at h
      split at h
      · cases h
      · cases h; exact internalWrite_at _ _ _ _ (far_ne hp)
    | bool b => cases h; exact put_far _ _ _ _ _ hp
    | vec ty xs => cases h; exact hv ty xs
    | cvec xs =>
      cases h
      rw [hc rfl]
      unfold writeComplex
      split
      · rfl
      · show internalWrite _ _ _ cp = f cp
        rw [internalWrite_at _ _ _ _ (far_ne hp), hw]
    | bools b =>
      simp only [Op.run, Leaf.write, writeBools] at h
      split at h
      · cases h
      · cases h; exact hv _ _

/-- No call with a good name writes the canary. -/
theorem op_none (f f' : File α) (o : Op α) (h : o.run f = .ok f')
    (ho : o.GoodName) (hf : f cp = none) : f' cp = none := by
  cases o with
  | group n => rw [op_keeps f f' (.group n) h ho, hf]
  | write n v m =>
    by_cases hc : v.kind = .cvec → m = .no
    · rw [op_keeps f f' (.write n v m) h ⟨ho, hc⟩, hf]
    · have hn : Good n := ho
      have hm : ¬ h5path (inDef (marker n.text)) <+: cp := by
        rw [marker_text n hn.1, path_inDef _ (mark_ne_nil n hn.1) (mark_parts n hn.parts)]
        exact mark_far n hn
      have hw : ∀ (f : File α) c, writeComplexOrReal f n.text c cp = f cp := fun f c => by
        unfold writeComplexOrReal writeScalar; exact put_far f _ _ _ _ hm
      cases v with
      | cvec xs =>
        cases h
        cases m with
        | no => exact absurd (fun _ => rfl) hc
        | allow =>
          unfold writeComplex
          split
          · exact hf
          · refine overwrite_none _ _ _ _ ?_ (by rw [hw, hf])
            rw [h5path_text n hn.parts]
            rintro rfl
            exact (hn.2 "Canary".toList (by simp [cp])).2.1 rfl
      | _ => exact absurd (fun e => by cases e) hc

/-! ## Properties -/

theorem openRead_none (h : H5 α) (f : File α) (hf : f cp = none) : openRead h f = throwOut := by
  unfold openRead readCanary
  rw [openDataSet_eq f _ _ canary_path, hf]
  rfl

theorem openRead_some (h : H5 α) (f : File α) (hf : f cp = some (.data ⟨.uchar, [canary]⟩)) : openRead h f = .ok f := by
  unfold openRead readCanary
  rw [openDataSet_eq f _ _ canary_path, hf]
  have : h.cvt .uchar .uchar (canary : Num α) = canary := h.cvt_fits _ _ _ (by simp [Num.Fits, canary])
  simp [bind, Except.bind, this, pure, Except.pure]

/-- **C52** A file whose canary has no value, or one that is not right, is refused. -/
theorem openRead_refused (h : H5 α) (f : File α) (d : Dataset α) (hf : f cp = some (.data d))
    (hd : d.vals = [] ∨ ∃ x, d.vals = [x] ∧ h.cvt d.ty .uchar x ≠ canary) : openRead h f = throwOut := by
  unfold openRead readCanary
  rw [openDataSet_eq f _ _ canary_path, hf]
  simp only [bind, Except.bind]
  rcases hd with hd | ⟨x, hd, hx⟩
  · rw [hd]; rfl
  · rw [hd]
    simp only [if_neg hx]
    rfl

theorem session_none (f f' : File α) (calls : List (Call α)) (hf : f cp = none)
    (hgood : ∀ o, Call.op o ∈ calls → o.GoodName)
    (hno : ∀ c ∈ calls, c.isFlush = false) (h : runCalls f calls = .ok f') : f' cp = none := by
  induction calls generalizing f with
  | nil => cases h; exact hf
  | cons c cs ih =>
    have ih' := fun f hf h => ih f hf (fun o ho => hgood o (by simp [ho])) (fun c hc => hno c (by simp [hc])) h
    cases c with
    | flush => have := hno _ (by simp : Call.flush ∈ Call.flush :: cs); cases this
    | op o =>
      cases ho : o.run f with
      | ok f1 =>
        simp only [runCalls, Call.run, ho] at h
        exact ih' f1 (op_none f f1 o ho (hgood o (by simp)) hf) h
      | error e =>
        cases e with
        | thrown =>
          simp only [runCalls, Call.run, ho] at h
          exact ih' f hf h
        | ub =>
          simp only [runCalls, Call.run, ho] at h
          cases h

/-- **C52** A program that makes a file and dies before the first `flush` or `close`, at any moment, whatever it had
written, leaves a file that is refused by every later attempt to read it. -/
theorem crash_refused (h : H5 α) (f0 : File α) (h0 : openTrunc = .ok f0) (calls : List (Call α))
    (hgood : ∀ o, Call.op o ∈ calls → o.GoodName)
    (hno : ∀ c ∈ calls, c.isFlush = false) (disk : File α) (hd : CrashDisk f0 calls disk) :
    openRead h disk = throwOut := by
  have hf0 : f0 cp = none := by
    have hp : h5path (inDef []) = ["Def".toList] := by decide
    simp only [openTrunc, createGroup, File.createGroup, hp] at h0
    split at h0
    · cases h0
      rw [set_other _ _ _ _ (by decide)]
      exact if_neg (by decide)
    · cases h0
  apply openRead_none
  rcases hd cp with h1 | ⟨pre, f, hpre, hrun, h1⟩
  · exact h1
  · rw [h1]
    exact session_none f0 f pre hf0 (fun o ho => hgood o (hpre.subset ho)) (fun c hc => hno c (hpre.subset hc)) hrun

theorem canary_holds (kindOf : Name → Option LeafKind) (f : File α) (s : Store α) (hs : Holds kindOf f s)
    (x : Option (Node α)) : Holds kindOf (f.set cp x) s := by
  refine ⟨?_, ?_, ?_, ?_, hs.groups, hs.vals⟩
  · rw [set_other _ _ _ _ (by decide)]; exact hs.root
  · rw [set_other _ _ _ _ (by decide)]; exact hs.def_
  · intro n hn
    rw [set_other _ _ _ _ (far_ne (good_far n hn))]; exact hs.node n hn
  · intro n hn
    rw [set_other _ _ _ _ (far_ne (mark_far n hn))]; exact hs.letter n hn

theorem writeCanary_holds (kindOf : Name → Option LeafKind) (f : File α) (s : Store α) (hs : Holds kindOf f s)
    (hc : f cp = none ∨ f cp = some (.data ⟨.uchar, [canary]⟩)) :
    writeCanary f = .ok (f.set cp (some (.data ⟨.uchar, [canary]⟩))) := by
  unfold writeCanary
  rw [openDataSet_eq f _ _ canary_path]
  rcases hc with hc | hc
  · rw [hc]
    show f.createDataSet canaryName _ = _
    unfold File.createDataSet
    simp only [canary_path]
    exact if_pos ⟨by decide, hc, hs.def_⟩
  · rw [hc, canary_path]; rfl

theorem session_holds (kindOf : Name → Option LeafKind) (calls : List (Call α))
    (hops : ∀ o, Call.op o ∈ calls → o.Ok kindOf) (f : File α) (s : Store α) (hs : Holds kindOf f s)
    (hc : f cp = none ∨ f cp = some (.data ⟨.uchar, [canary]⟩)) :
    ∃ f', runCalls f calls = .ok f' ∧ Holds kindOf f' (s.run (ops calls)).1 ∧
      f' cp = if calls.any Call.isFlush then some (.data ⟨.uchar, [canary]⟩) else f cp := by
  induction calls generalizing f s with
  | nil => exact ⟨f, rfl, hs, by simp⟩
  | cons c cs ih =>
    have ih' := fun f s => ih (fun o ho => hops o (by simp [ho])) f s
    cases c with
    | flush =>
      have hw := writeCanary_holds kindOf f s hs hc
      obtain ⟨f', h1, h2, h3⟩ := ih' (f.set cp (some (.data ⟨.uchar, [canary]⟩))) s (canary_holds kindOf f s hs _)
        (.inr (set_same _ _ _))
      refine ⟨f', ?_, h2, ?_⟩
      · simp only [runCalls, Call.run, hw]; exact h1
      · rw [h3, set_same]; simp [Call.isFlush]
    | op o =>
      have hok := hops o (by simp)
      have hgood : o.Kept := by
        cases o with
        | group n => exact hok.1
        | write n v m => exact ⟨hok.1, hok.2.2.2⟩
      have hstep : if s.throws o = true then o.run f = throwOut
          else ∃ f', o.run f = .ok f' ∧ Holds kindOf f' (s.step o) := by
        cases o with
        | group n => exact createGroup_holds kindOf f s hs n hok.1 hok.2
        | write n v m => exact write_holds kindOf f s hs n v m hok
      have hop : ops (Call.op o :: cs) = o :: ops cs := rfl
      have hany : (Call.op o :: cs).any Call.isFlush = cs.any Call.isFlush := by simp [Call.isFlush]
      rw [hop, hany]
      by_cases ht : s.throws o = true
      · rw [if_pos ht] at hstep
        obtain ⟨f', h1, h2, h3⟩ := ih' f s hs hc
        refine ⟨f', ?_, ?_, h3⟩
        · simp only [runCalls, Call.run, hstep, throwOut]; exact h1
        · simp only [Store.run, ht, if_true]; exact h2
      · rw [if_neg ht] at hstep
        obtain ⟨f1, h4, h5⟩ := hstep
        have hk := op_keeps f f1 o h4 hgood
        obtain ⟨f', h1, h2, h3⟩ := ih' f1 _ h5 (by rw [hk]; exact hc)
        refine ⟨f', ?_, ?_, by rw [h3, hk]⟩
        · simp only [runCalls, Call.run, h4]; exact h1
        · simp only [Store.run, ht]; exact h2

/-- **C52** A file is accepted for reading when the session ends with `flush` or `close`, and then every name has the
value that the store has for it. -/
theorem closed_accepted [Zero α] (h : H5 α) (kindOf : Name → Option LeafKind) (calls : List (Call α))
    (hops : ∀ o, Call.op o ∈ calls → o.Ok kindOf) :
    ∃ f0 f, openTrunc = .ok f0 ∧ runCalls f0 (calls ++ [.flush]) = .ok f ∧ openRead h f = .ok f ∧
      ∀ n k, Good n → kindOf n = some k → Leaf.read h f n.text k =
        match (Store.init.run (ops calls)).1.vals n with
        | some v => .ok v
        | none => throwOut := by
  obtain ⟨f0, h1, h2⟩ := holds_init (α := α) kindOf
  have hf0 : f0 cp = none := by
    have hp : h5path (inDef []) = ["Def".toList] := by decide
    simp only [openTrunc, createGroup, File.createGroup, hp] at h1
    split at h1
    · cases h1
      rw [set_other _ _ _ _ (by decide)]
      exact if_neg (by decide)
    · cases h1
  have hops' : ∀ o, Call.op o ∈ calls ++ [.flush] → o.Ok kindOf := by
    intro o ho
    rcases List.mem_append.1 ho with ho | ho
    · exact hops o ho
    · simp at ho
  obtain ⟨f, h3, h4, h5⟩ := session_holds kindOf (calls ++ [.flush]) hops' f0 _ h2 (.inl hf0)
  have hoe : ops (calls ++ [.flush]) = ops calls := by simp [ops]
  rw [hoe] at h4
  refine ⟨f0, f, h1, h3, ?_, ?_⟩
  · apply openRead_some
    rw [h5]; simp [Call.isFlush]
  · intro n k hn hk
    have hng := holds_none h4 (n := n) (by rw [hk]; simp)
    have hnode := h4.node n hn
    rw [if_neg hng] at hnode
    have hlet := h4.letter n hn
    cases hv : (Store.init.run (ops calls)).1.vals n with
    | none =>
      rw [hv] at hnode
      exact leaf_read_none h f n hn.1 hn.parts k hnode
    | some v =>
      rw [hv] at hnode hlet
      obtain ⟨_, h5, h6, _⟩ := h4.vals n v hv
      rw [hk] at h5
      cases h5
      exact leaf_read h f n hn.1 hn.parts v h6 hnode hlet

/-- **C52** A session that goes on after a `flush` and ends without one is accepted as well, with all that is in it. -/
theorem accepted_iff (h : H5 α) (kindOf : Name → Option LeafKind) (calls : List (Call α))
    (hops : ∀ o, Call.op o ∈ calls → o.Ok kindOf) :
    ∃ f0 f, openTrunc = .ok f0 ∧ runCalls f0 calls = .ok f ∧
      openRead h f = if calls.any Call.isFlush then .ok f else throwOut := by
  obtain ⟨f0, h1, h2⟩ := holds_init (α := α) kindOf
  have hf0 : f0 cp = none := by
    have hp : h5path (inDef []) = ["Def".toList] := by decide
    simp only [openTrunc, createGroup, File.createGroup, hp] at h1
    split at h1
    · cases h1
      rw [set_other _ _ _ _ (by decide)]
      exact if_neg (by decide)
    · cases h1
  obtain ⟨f, h3, _, h5⟩ := session_holds kindOf calls hops f0 _ h2 (.inl hf0)
  refine ⟨f0, f, h1, h3, ?_⟩
  cases hb : calls.any Call.isFlush with
  | true => rw [hb] at h5; exact openRead_some h f h5
  | false => rw [hb] at h5; exact openRead_none h f (by rw [h5]; exact hf0)

/-! ## Examples -/

/-- Two calls. -/
def calls1 : List (Call Int) := [.op (.write ["a".toList] (.scalar .int (.int 5)) .no),
  .op (.write ["b".toList] (.vec .real [.real 1, .real 2]) .no)]

example : ∀ o, Call.op o ∈ calls1 → Op.Ok (fun n => if n = ["a".toList] then some (.scalar .int) else
    if n = ["b".toList] then some (.vec .real) else none) o := by
  intro o ho
  simp only [calls1, List.mem_cons, Call.op.injEq, List.not_mem_nil, or_false] at ho
  rcases ho with rfl | rfl
  · refine ⟨⟨by simp, ?_⟩, by decide, ?_, ?_⟩
    · intro w hw
      rw [List.mem_singleton] at hw
      subst hw
      exact ⟨⟨by decide, by decide⟩, by decide, by decide⟩
    · simp [Leaf.Ok, Num.Fits]
    · intro h; cases h
  · refine ⟨⟨by simp, ?_⟩, by decide, ?_, ?_⟩
    · intro w hw
      rw [List.mem_singleton] at hw
      subst hw
      exact ⟨⟨by decide, by decide⟩, by decide, by decide⟩
    · simp [Leaf.Ok, Num.Fits]
    · intro h; cases h

/-- What a reader of the file gets. -/
def readerGets (calls : List (Call Int)) (n : Name) (k : LeafKind) : Out (Leaf Int) := do
  let f0 ← openTrunc
  let f ← runCalls f0 calls
  let f ← openRead h5id f
  Leaf.read h5id f n.text k

example : readerGets (calls1 ++ [.flush]) ["a".toList] (.scalar .int) = .ok (.scalar .int (.int 5)) := by decide +kernel
example : readerGets calls1 ["a".toList] (.scalar .int) = throwOut := by decide +kernel

/-- A file in the middle of the second call is one a crash may leave. -/
example (f0 : File Int) : CrashDisk f0 calls1 f0 := by
  intro q
  exact .inr ⟨[], f0, List.nil_prefix, rfl, rfl⟩

/-- A program that dies after a `flush` leaves a file that is accepted, although what it wrote later is not in it. -/
theorem crash_after_flush_fails : ∃ (calls : List (Call Int)) (f0 disk : File Int), openTrunc = .ok f0 ∧
    CrashDisk f0 calls disk ∧ openRead h5id disk = .ok disk ∧
    (∃ f, runCalls f0 calls = .ok f ∧
      Leaf.read h5id f "b".toList (.scalar .int) = .ok (.scalar .int (.int 6))) ∧
    Leaf.read h5id disk "b".toList (.scalar .int) = throwOut := by
  obtain ⟨f0, h0, _⟩ := holds_init (α := Int) (fun _ => none)
  have hf : f0 = File.empty.set ["Def".toList] (some .group) := by
    have hp : h5path (inDef []) = ["Def".toList] := by decide
    simp only [openTrunc, createGroup, File.createGroup, hp] at h0
    rw [if_pos ⟨by simp, by simp [File.empty], by simp [File.empty]⟩] at h0
    cases h0; rfl
  have e1 : (File.empty.set ["Def".toList] (some Node.group) : File Int) = f0 := hf.symm
  have hw : writeCanary f0 = .ok (f0.set cp (some (.data ⟨.uchar, [canary]⟩))) := by
    obtain ⟨g0, h1, h2⟩ := holds_init (α := Int) (fun _ => none)
    rw [h0] at h1
    cases h1
    exact writeCanary_holds _ _ _ h2 (.inl (by rw [hf]; decide +kernel))
  refine ⟨[.flush, .op (.write ["b".toList] (.scalar .int (.int 6)) .no)], f0,
    f0.set cp (some (.data ⟨.uchar, [canary]⟩)), h0, ?_, ?_, ?_, ?_⟩
  · intro q
    refine .inr ⟨[.flush], f0.set cp (some (.data ⟨.uchar, [canary]⟩)), by simp, ?_, rfl⟩
    simp only [runCalls, Call.run, hw]
  · exact openRead_some _ _ (set_same _ _ _)
  · refine ⟨writeScalar (f0.set cp (some (.data ⟨.uchar, [canary]⟩))) "b".toList .int (.int 6) .no, ?_, ?_⟩
    · simp only [runCalls, Call.run, hw]; rfl
    · rw [hf]; decide +kernel
  · rw [hf]; decide +kernel

/-- A file opened again for writing keeps its canary: a program that dies then leaves a file that is accepted. -/
theorem rdwr_fails (h : H5 α) (f : File α) (hf : openRead h f = .ok f) :
    ∃ g, openRdwr f = .ok g ∧ ∀ calls, ∃ disk, CrashDisk g calls disk ∧ openRead h disk = .ok disk :=
  ⟨f, rfl, fun _ => ⟨f, fun _ => .inr ⟨[], f, List.nil_prefix, rfl, rfl⟩, hf⟩⟩

/-- `open` of a reader that was closed does not look at the canary. -/
theorem reopen_fails : ∃ disk : File Int, openRead h5id disk = throwOut ∧ reopenRead disk = .ok disk :=
  ⟨File.empty, openRead_none _ _ (if_neg (by decide)), rfl⟩

/-- `open` of a writer that was closed, to make a new file, throws. -/
theorem reopen_trunc_fails : (reopenTrunc : Out (File Int)) = throwOut := by
  unfold reopenTrunc writeCanary
  rw [openDataSet_eq _ _ _ canary_path, show (File.empty cp : Option (Node Int)) = none from if_neg (by decide)]
  show File.createDataSet _ _ _ = _
  unfold File.createDataSet
  simp only [canary_path]
  exact if_neg (by simp [cp, File.empty])

/-- A file made with `ACC_EXCL` has no group for the values: all numbers are lost, and `close` throws. -/
theorem excl_fails (n : Name) (hn : Good n) (ty : Ty) (x : Num α) (m : Mode) :
    ∃ f : File α, openExcl = .ok f ∧ writeScalar f n.text ty x m = f ∧ writeCanary f = throwOut := by
  refine ⟨File.empty, rfl, ?_, ?_⟩
  · have hp := path_inDef n hn.1 hn.parts
    have hd : (File.empty ("Def".toList :: n).dropLast : Option (Node α)) ≠ some .group := by
      rw [cons_dropLast _ n hn.1, show (File.empty ("Def".toList :: n.dropLast) : Option (Node α)) = none from if_neg (by simp)]
      simp
    unfold writeScalar
    rw [put_eq _ m _ _ _ hp (by simp) (by simp [File.empty]) (by simp [File.empty])]
    exact if_neg (fun h => hd h.1)
  · unfold writeCanary
    rw [openDataSet_eq _ _ _ canary_path, show (File.empty cp : Option (Node α)) = none from if_neg (by decide)]
    show File.createDataSet _ _ _ = _
    unfold File.createDataSet
    simp only [canary_path]
    exact if_neg (by simp [cp, File.empty])

/-- A value stored under the name of the canary makes the file of a dead program acceptable. -/
theorem canary_name_fails : readerGets [.op (.write ["Canary".toList] (.scalar .uchar (.int 170)) .no),
    .op (.write ["a".toList] (.scalar .int (.int 5)) .no)] ["a".toList] (.scalar .int) =
    .ok (.scalar .int (.int 5)) := by decide +kernel

end Verif.IoNg
