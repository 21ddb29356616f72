import Verif.IoNg.SpecLife
import Verif.IoNg.PropsCanary

/-!
# C151: the life of an object that writes or reads a file
-/

namespace Verif.IoNg.Life

variable {α : Type} [DecidableEq α] [Zero α]

/-- The right canary. -/
def alive : Option (Node α) := some (.data ⟨.uchar, [canary]⟩)

/-- A file holds a store, and has the canary if the store is finished. -/
def Keeps (kindOf : Name → Option LeafKind) (f : File α) (s : Store α) (fin : Bool) : Prop :=
  Holds kindOf f s ∧ f cp = if fin then alive else none

/-- The disk holds the stores. -/
def DiskHolds (K : Str → Name → Option LeafKind) (d : Disk α) (files : Str → Option (Store α × Bool)) : Prop :=
  ∀ n, match files n with
    | none => d n = none
    | some (s, fin) => ∃ f, d n = some f ∧ Keeps (K n) f s fin

/-- The object is in the state. -/
def ObjIs (files : Str → Option (Store α × Bool)) : Option Obj → State → Prop
  | o, .gone => o = none
  | o, .shut wr => ∃ name m, o = some ⟨none, name, m⟩ ∧ (m ≠ .rdonly ↔ wr = true)
  | o, .opened wr n => ∃ m, o = some ⟨some ⟨n, wr⟩, n, m⟩ ∧ (m ≠ .rdonly ↔ wr = true) ∧ files n ≠ none

/-- The world is as expected. -/
structure Related (K : Str → Name → Option LeafKind) (w : World α) (a : Abs α) : Prop where
  disk : DiskHolds K w.disk a.files
  obj : ObjIs a.files w.obj a.obj

omit [Zero α] in
theorem disk_set (K : Str → Name → Option LeafKind) (d : Disk α) (a : Abs α) (h : DiskHolds K d a.files) (n : Str)
    (f : File α) (s : Store α) (fin : Bool) (o : State) (hf : Keeps (K n) f s fin) :
    DiskHolds K (d.set n f) (a.put n s fin o).files := by
  intro m
  by_cases hm : m = n
  · subst hm
    simp only [Abs.put, Disk.set, if_true]
    exact ⟨f, rfl, hf⟩
  · simp only [Abs.put, Disk.set, if_neg hm]
    exact h m

omit [Zero α] in
theorem disk_some {K : Str → Name → Option LeafKind} {d : Disk α} {files : Str → Option (Store α × Bool)}
    (h : DiskHolds K d files) {n : Str} {s : Store α} {fin : Bool} (hn : files n = some (s, fin)) :
    ∃ f, d n = some f ∧ Keeps (K n) f s fin := by
  have := h n
  rw [hn] at this
  exact this

omit [Zero α] in
theorem disk_none {K : Str → Name → Option LeafKind} {d : Disk α} {files : Str → Option (Store α × Bool)}
    (h : DiskHolds K d files) {n : Str} (hn : files n = none) : d n = none := by
  have := h n
  rw [hn] at this
  exact this

omit [Zero α] in
theorem keeps_canary (kindOf : Name → Option LeafKind) (f : File α) (s : Store α) (fin : Bool) (h : Keeps kindOf f s fin) :
    ∃ f', writeCanary f = .ok f' ∧ Keeps kindOf f' s true := by
  refine ⟨_, writeCanary_holds kindOf f s h.1 ?_, canary_holds kindOf f s h.1 _, set_same _ _ _⟩
  rw [h.2]
  cases fin
  · exact .inl rfl
  · exact .inr rfl

omit [Zero α] in
/-- The canary is written when an open object was made to write. -/
theorem canary_step (K : Str → Name → Option LeafKind) (d : Disk α) (a : Abs α) (h : DiskHolds K d a.files) (n : Str)
    (wr : Bool) (m : Acc) (hm : m ≠ .rdonly ↔ wr = true) (hn : a.files n ≠ none) (fn : Str) (o : State) :
    ∃ d', canaryIf d ⟨some ⟨n, wr⟩, fn, m⟩ = .ok d' ∧ DiskHolds K d' (a.finish wr n o).files ∧
      (a.finish wr n o).files n ≠ none ∧ (a.finish wr n o).obj = o := by
  obtain ⟨⟨s, fin⟩, hs⟩ := Option.ne_none_iff_exists'.1 hn
  cases wr with
  | false =>
    have hm' : m = .rdonly := by
      by_contra h'
      exact absurd (hm.1 h') (by simp)
    refine ⟨d, by simp [canaryIf, hm'], ?_⟩
    simp only [Abs.finish, Abs.now]
    exact ⟨h, hn, trivial⟩
  | true =>
    have hm' : m ≠ .rdonly := hm.2 rfl
    obtain ⟨f, h1, h2⟩ := disk_some h hs
    obtain ⟨f', h3, h4⟩ := keeps_canary _ f s fin h2
    refine ⟨d.set n f', ?_, ?_⟩
    · simp only [canaryIf, if_neg hm', change, h1, h3, Except.map]
    · simp only [Abs.finish, hs]
      exact ⟨disk_set K d a h n f' s true o h4, by simp [Abs.put], rfl⟩

omit [Zero α] in
theorem init_keeps (kindOf : Name → Option LeafKind) : ∃ f0 : File α, openTrunc = .ok f0 ∧ Keeps kindOf f0 Store.init false := by
  obtain ⟨f0, h1, h2⟩ := holds_init (α := α) kindOf
  refine ⟨f0, h1, h2, ?_⟩
  have hp : h5path (inDef []) = ["Def".toList] := by decide
  simp only [openTrunc, createGroup, File.createGroup, hp] at h1
  split at h1
  · cases h1
    rw [set_other _ _ _ _ (by decide)]
    exact if_neg (by decide)
  · cases h1

omit [Zero α] in
theorem keeps_read (h5 : H5 α) (kindOf : Name → Option LeafKind) (f : File α) (s : Store α) (fin : Bool)
    (h : Keeps kindOf f s fin) : readCanary h5 f = if fin then .ok () else throwOut := by
  have h2 := h.2
  cases fin with
  | true =>
    have := openRead_some h5 f h2
    unfold openRead at this
    cases hr : readCanary h5 f with
    | ok u => rfl
    | error e => rw [hr] at this; simp [bind, Except.bind] at this
  | false =>
    unfold readCanary
    rw [openDataSet_eq f _ _ canary_path, h2]
    rfl

omit [Zero α] in
theorem keeps_op (kindOf : Name → Option LeafKind) (f : File α) (s : Store α) (fin : Bool) (h : Keeps kindOf f s fin)
    (o : Op α) (ho : o.Ok kindOf) : if s.throws o = true then o.run f = throwOut
      else ∃ f', o.run f = .ok f' ∧ Keeps kindOf f' (s.step o) fin := by
  have hgood : o.Kept := by
    cases o with
    | group n => exact ho.1
    | write n v m => exact ⟨ho.1, ho.2.2.2⟩
  have hstep : if s.throws o = true then o.run f = throwOut
      else ∃ f', o.run f = .ok f' ∧ Holds kindOf f' (s.step o) := by
    cases o with
    | group n => exact createGroup_holds kindOf f s h.1 n ho.1 ho.2
    | write n v m => exact write_holds kindOf f s h.1 n v m ho
  by_cases ht : s.throws o = true
  · rw [if_pos ht] at hstep ⊢; exact hstep
  · rw [if_neg ht] at hstep ⊢
    obtain ⟨f', h1, h2⟩ := hstep
    exact ⟨f', h1, h2, by rw [op_keeps f f' o h1 hgood]; exact h.2⟩

theorem keeps_value (h5 : H5 α) (kindOf : Name → Option LeafKind) (f : File α) (s : Store α) (fin : Bool)
    (h : Keeps kindOf f s fin) (n : Name) (hn : Good n) (k : LeafKind) (hk : kindOf n = some k) :
    Leaf.read h5 f n.text k = match s.vals n with
      | some v => .ok v
      | none => throwOut := by
  have hng := holds_none h.1 (n := n) (by rw [hk]; simp)
  have hnode := h.1.node n hn
  rw [if_neg hng] at hnode
  have hlet := h.1.letter n hn
  cases hv : s.vals n with
  | none =>
    rw [hv] at hnode
    exact leaf_read_none h5 f n hn.1 hn.parts k hnode
  | some v =>
    rw [hv] at hnode hlet
    obtain ⟨_, h5', h6, _⟩ := h.1.vals n v hv
    rw [hk] at h5'
    cases h5'
    exact leaf_read h5 f n hn.1 hn.parts v h6 hnode hlet

omit [Zero α] in
theorem keeps_group (kindOf : Name → Option LeafKind) (f : File α) (s : Store α) (fin : Bool)
    (h : Keeps kindOf f s fin) (n : Name) (hn : Good n) :
    f (h5path (inDef n.text)) = some .group ↔ n ∈ s.groups := by
  rw [path_inDef n hn.1 hn.parts, h.1.node n hn]
  by_cases hg : n ∈ s.groups
  · simp [hg]
  · simp only [if_neg hg, hg, iff_false]
    cases s.vals n <;> simp

/-- One call. -/
theorem step_refines (h5 : H5 α) (K : Str → Name → Option LeafKind) (w : World α) (a : Abs α) (h : Related K w a)
    (c : Call α) (hc : Legal K a c) :
    ∃ w', step h5 w c = some (w', (a.step c).2) ∧ Related K w' (a.step c).1 := by
  obtain ⟨d, ob⟩ := w
  obtain ⟨files, st⟩ := a
  obtain ⟨hd, hob⟩ := h
  simp only at hd hob
  cases c with
  | construct n m =>
    obtain ⟨h1, h2⟩ := hc
    simp only at h1
    subst h1
    cases (show ob = none from hob)
    cases m with
    | excl => exact absurd rfl h2
    | trunc =>
      obtain ⟨f0, h3, h4⟩ := init_keeps (α := α) (K n)
      refine ⟨⟨(d.set n File.empty).set n f0, some ⟨some ⟨n, true⟩, n, .trunc⟩⟩, ?_, ?_, ?_⟩
      · have h3' : createGroup (File.empty : File α) [] = .ok f0 := h3
        simp only [step, construct, h5open, prepare, change, Disk.set, if_true, h3', Except.map, Abs.step]
      · intro k
        have := disk_set K d ⟨files, .gone⟩ hd n f0 Store.init false (.opened true n) h4 k
        have e : ((d.set n File.empty).set n f0) k = d.set n f0 k := by
          unfold Disk.set; split <;> rfl
        simp only [Abs.step, e]
        exact this
      · exact ⟨.trunc, rfl, by simp, by simp [Abs.step, Abs.put]⟩
    | rdw =>
      cases hf : files n with
      | none =>
        refine ⟨⟨d, none⟩, ?_, ?_⟩
        · simp only [step, construct, h5open, disk_none hd hf, throwOut, Abs.step, hf]
        · simp only [Abs.step, hf]; exact ⟨hd, rfl⟩
      | some sf =>
        obtain ⟨f, h3, h4⟩ := disk_some hd hf
        refine ⟨⟨d, some ⟨some ⟨n, true⟩, n, .rdw⟩⟩, ?_, ?_⟩
        · simp only [step, construct, h5open, h3, prepare, Abs.step, hf]
        · simp only [Abs.step, hf, Abs.now]
          exact ⟨hd, .rdw, rfl, by simp, by simp [hf]⟩
    | rdonly =>
      cases hf : files n with
      | none =>
        refine ⟨⟨d, none⟩, ?_, ?_⟩
        · simp only [step, construct, h5open, disk_none hd hf, throwOut, Abs.step, hf]
        · simp only [Abs.step, hf]; exact ⟨hd, rfl⟩
      | some sf =>
        obtain ⟨s, fin⟩ := sf
        obtain ⟨f, h3, h4⟩ := disk_some hd hf
        have hr := keeps_read h5 (K n) f s fin h4
        cases fin with
        | true =>
          rw [if_pos rfl] at hr
          refine ⟨⟨d, some ⟨some ⟨n, false⟩, n, .rdonly⟩⟩, ?_, ?_⟩
          · simp only [step, construct, h5open, h3, prepare, hr, Except.map, Abs.step, hf]
          · simp only [Abs.step, hf, Abs.now]
            exact ⟨hd, .rdonly, rfl, by simp, by simp [hf]⟩
        | false =>
          rw [if_neg (by simp)] at hr
          refine ⟨⟨d, none⟩, ?_, ?_⟩
          · simp only [step, construct, h5open, h3, prepare, hr, throwOut, Except.map, Abs.step, hf]
          · simp only [Abs.step, hf]; exact ⟨hd, rfl⟩
  | «open» n m =>
    rcases hc with ⟨wr, fn, h1⟩ | hc
    · simp only at h1
      subst h1
      obtain ⟨md, h2, h3, h4⟩ := hob
      subst h2
      exact ⟨⟨d, some ⟨some ⟨fn, wr⟩, fn, md⟩⟩, rfl, hd, md, rfl, h3, h4⟩
    · have key : ∃ wr, st = .shut wr ∧ m = (if wr then .rdw else .rdonly) := by
        rcases hc with ⟨h1, h2⟩ | ⟨h1, h2⟩
        · exact ⟨true, h1, h2⟩
        · exact ⟨false, h1, h2⟩
      obtain ⟨wr, h1, h2⟩ := key
      subst h1
      obtain ⟨nm, md, h3, h4⟩ := hob
      subst h3
      cases hf : files n with
      | none =>
        have hdn := disk_none hd hf
        have he : h5open d n m = throwOut := by
          cases wr <;> simp only [h2, if_true, Bool.false_eq_true, if_false, h5open, hdn]
        refine ⟨⟨d, some ⟨none, n, md⟩⟩, ?_, ?_⟩
        · simp only [step, openFile, he, throwOut, Abs.step, hf]
        · simp only [Abs.step, hf]
          exact ⟨hd, n, md, rfl, h4⟩
      | some sf =>
        obtain ⟨f, h5', h6⟩ := disk_some hd hf
        have he : h5open d n m = .ok (d, ⟨n, wr⟩) := by
          cases wr <;> simp only [h2, if_true, Bool.false_eq_true, if_false, h5open, h5']
        obtain ⟨d', h7, h8, h9, h10⟩ := canary_step K d ⟨files, .shut wr⟩ hd n wr md h4 (by simp [hf]) n (.opened wr n)
        refine ⟨⟨d', some ⟨some ⟨n, wr⟩, n, md⟩⟩, ?_, ?_⟩
        · simp only [step, openFile, he, h7, Abs.step, hf]
        · simp only [Abs.step, hf]
          refine ⟨h8, ?_⟩
          rw [h10]
          exact ⟨md, rfl, h4, h9⟩
  | close =>
    obtain ⟨wr, fn, h1⟩ := hc
    simp only at h1
    subst h1
    obtain ⟨md, h2, h3, h4⟩ := hob
    subst h2
    obtain ⟨d', h7, h8, h9, h10⟩ := canary_step K d ⟨files, .opened wr fn⟩ hd fn wr md h3 h4 fn (.shut wr)
    refine ⟨⟨d', some ⟨none, [], md⟩⟩, ?_, h8, ?_⟩
    · simp only [step, close, h7, Abs.step]
    · simp only [Abs.step]
      rw [h10]
      exact ⟨[], md, rfl, h3⟩
  | flush =>
    obtain ⟨wr, fn, h1⟩ := hc
    simp only at h1
    subst h1
    obtain ⟨md, h2, h3, h4⟩ := hob
    subst h2
    obtain ⟨d', h7, h8, h9, h10⟩ := canary_step K d ⟨files, .opened wr fn⟩ hd fn wr md h3 h4 fn (.opened wr fn)
    refine ⟨⟨d', some ⟨some ⟨fn, wr⟩, fn, md⟩⟩, ?_, h8, ?_⟩
    · simp only [step, flush, h7, Abs.step]
    · simp only [Abs.step]
      rw [h10]
      exact ⟨md, rfl, h3, h9⟩
  | filename =>
    obtain ⟨wr, fn, h1⟩ := hc
    simp only at h1
    subst h1
    obtain ⟨md, h2, h3, h4⟩ := hob
    subst h2
    exact ⟨⟨d, some ⟨some ⟨fn, wr⟩, fn, md⟩⟩, rfl, hd, md, rfl, h3, h4⟩
  | op o =>
    obtain ⟨fn, h1, ho⟩ := hc
    simp only at h1
    subst h1
    obtain ⟨md, h2, h3, h4⟩ := hob
    subst h2
    obtain ⟨⟨s, fin⟩, hs⟩ := Option.ne_none_iff_exists'.1 h4
    obtain ⟨f, h5', h6⟩ := disk_some hd hs
    have hop := keeps_op (K fn) f s fin h6 o ho
    by_cases ht : s.throws o = true
    · rw [if_pos ht] at hop
      refine ⟨⟨d, some ⟨some ⟨fn, true⟩, fn, md⟩⟩, ?_, ?_⟩
      · simp only [step, change1, change, h5', hop, throwOut, Except.map, Abs.step, hs, ht, if_true]
      · simp only [Abs.step, hs, ht, if_true]
        exact ⟨hd, md, rfl, h3, h4⟩
    · rw [if_neg ht] at hop
      obtain ⟨f', h7, h8⟩ := hop
      refine ⟨⟨d.set fn f', some ⟨some ⟨fn, true⟩, fn, md⟩⟩, ?_, ?_⟩
      · simp only [step, change1, change, h5', h7, Except.map, Abs.step, hs, ht, if_true]
        simp
      · simp only [Abs.step, hs, ht, Bool.false_eq_true, if_false]
        exact ⟨disk_set K d ⟨files, _⟩ hd fn f' _ fin _ h8, md, rfl, h3, by simp [Abs.put]⟩
  | «exists» g =>
    obtain ⟨wr, fn, n, h1, hg, hn⟩ := hc
    simp only at h1
    subst h1
    obtain ⟨md, h2, h3, h4⟩ := hob
    subst h2
    obtain ⟨⟨s, fin⟩, hs⟩ := Option.ne_none_iff_exists'.1 h4
    obtain ⟨f, h5', h6⟩ := disk_some hd hs
    have hk := keeps_group (K fn) f s fin h6 n hn
    refine ⟨⟨d, some ⟨some ⟨fn, wr⟩, fn, md⟩⟩, ?_, ?_⟩
    · simp only [step, groupExists, h5', Abs.step, hs, hg, h5path_text n hn.parts, hk, bind, Option.bind, pure]
    · simp only [Abs.step, hs]
      exact ⟨hd, md, rfl, h3, h4⟩
  | read g k =>
    obtain ⟨wr, fn, n, h1, hg, hn, hk⟩ := hc
    simp only at h1
    subst h1
    obtain ⟨md, h2, h3, h4⟩ := hob
    subst h2
    obtain ⟨⟨s, fin⟩, hs⟩ := Option.ne_none_iff_exists'.1 h4
    obtain ⟨f, h5', h6⟩ := disk_some hd hs
    have hv := keeps_value h5 (K fn) f s fin h6 n hn k hk
    refine ⟨⟨d, some ⟨some ⟨fn, wr⟩, fn, md⟩⟩, ?_, ?_⟩
    · cases hx : s.vals n with
      | none =>
        rw [hx] at hv
        simp only [step, readValue, h5', Abs.step, hs, hg, h5path_text n hn.parts, hv, hx, bind, Option.bind, pure, throwOut]
      | some v =>
        rw [hx] at hv
        simp only [step, readValue, h5', Abs.step, hs, hg, h5path_text n hn.parts, hv, hx, bind, Option.bind, pure]
    · have : (Abs.step ⟨files, .opened wr fn⟩ (.read g k)).1 = (⟨files, .opened wr fn⟩ : Abs α) := by
        simp only [Abs.step, hs]
        cases s.vals (h5path g) <;> rfl
      rw [this]
      exact ⟨hd, md, rfl, h3, h4⟩
  | destroy =>
    cases st with
    | gone => exact absurd rfl hc
    | shut wr =>
      obtain ⟨nm, md, h3, h4⟩ := hob
      subst h3
      exact ⟨⟨d, none⟩, rfl, hd, rfl⟩
    | opened wr fn =>
      obtain ⟨md, h2, h3, h4⟩ := hob
      subst h2
      obtain ⟨d', h7, h8, h9, h10⟩ := canary_step K d ⟨files, .opened wr fn⟩ hd fn wr md h3 h4 fn .gone
      refine ⟨⟨d', none⟩, ?_, h8, ?_⟩
      · simp only [step, destroy, h7, Abs.step]
      · simp only [Abs.step]
        rw [h10]
        rfl

/-- **C151** Any number of objects, one after the other, over any number of files: whatever calls are made, with the exceptions
that `Legal` names, every call answers and does what is expected, nothing is undefined and no destructor throws. -/
theorem life_refines (h5 : H5 α) (K : Str → Name → Option LeafKind) (calls : List (Call α)) (w : World α) (a : Abs α)
    (h : Related K w a) (hc : LegalAll K a calls) :
    ∃ w', run h5 w calls = some (w', (a.run calls).2) ∧ Related K w' (a.run calls).1 := by
  induction calls generalizing w a with
  | nil => exact ⟨w, rfl, h⟩
  | cons c cs ih =>
    obtain ⟨w1, h1, h2⟩ := step_refines h5 K w a h c hc.1
    obtain ⟨w2, h3, h4⟩ := ih w1 _ h2 hc.2
    exact ⟨w2, by simp only [run, h1, h3, bind, Option.bind, pure, Abs.run], h4⟩

/-- A disk without files and no object. -/
def World.start : World α := ⟨fun _ => none, none⟩

/-- The same for stores. -/
def Abs.start : Abs α := ⟨fun _ => none, .gone⟩

omit [Zero α] in
theorem related_start (K : Str → Name → Option LeafKind) : Related K (World.start : World α) Abs.start :=
  ⟨fun _ => rfl, rfl⟩

/-- **C151** The same from a disk without files: the answers are those that are expected. -/
theorem life_answers (h5 : H5 α) (K : Str → Name → Option LeafKind) (calls : List (Call α))
    (hc : LegalAll K (Abs.start : Abs α) calls) :
    ∃ w', run h5 World.start calls = some (w', (Abs.start.run calls).2) := by
  obtain ⟨w', h1, _⟩ := life_refines h5 K calls _ _ (related_start K) hc
  exact ⟨w', h1⟩

/-- The files that a call may change: the one that is named, and the one that is open. -/
def May (w : World α) (n : Str) : Call α → Prop
  | .construct k _ => k = n
  | .open k _ => k = n
  | _ => ∃ o h, w.obj = some o ∧ o.file = some h ∧ h.name = n

omit [DecidableEq α] [Zero α] in
theorem change_other (d d' : Disk α) (h : Handle) (c : File α → Out (File α)) (n : Str) (hn : h.name ≠ n)
    (he : change d h c = .ok d') : d' n = d n := by
  unfold change at he
  split at he
  · rename_i f h1 h2
    cases hc : c f with
    | error e => rw [hc] at he; cases he
    | ok f' =>
      rw [hc] at he
      cases he
      exact if_neg hn.symm
  · cases he

omit [Zero α] in
theorem canaryIf_other (d d' : Disk α) (o : Obj) (n : Str) (hn : ∀ h, o.file = some h → h.name ≠ n)
    (he : canaryIf d o = .ok d') : d' n = d n := by
  unfold canaryIf at he
  split at he
  · cases he; rfl
  · rename_i h hf
    split at he
    · cases he; rfl
    · exact change_other d d' h _ n (hn h hf) he

omit [DecidableEq α] [Zero α] in
theorem h5open_other (d : Disk α) (k : Str) (m : Acc) (r : Disk α × Handle) (n : Str) (hn : k ≠ n)
    (he : h5open d k m = .ok r) : r.1 n = d n ∧ r.2.name = k := by
  cases m <;> simp only [h5open] at he
  · cases he; exact ⟨if_neg hn.symm, rfl⟩
  all_goals
    split at he
    all_goals first
      | (cases he; exact ⟨if_neg hn.symm, rfl⟩)
      | (cases he; exact ⟨rfl, rfl⟩)
      | (simp [throwOut] at he)

/-- **C151** No call, in any state, changes another file than the one that it names or that is open. -/
theorem others_untouched (h5 : H5 α) (w w' : World α) (c : Call α) (r : Ans α) (n : Str) (hn : ¬ May w n c)
    (h : step h5 w c = some (w', r)) : w'.disk n = w.disk n := by
  obtain ⟨d, ob⟩ := w
  have hfile : ∀ o, ob = some o → (¬ ∃ o h, ob = some o ∧ o.file = some h ∧ h.name = n) →
      ∀ h, o.file = some h → h.name ≠ n := fun o ho hx h hf he => hx ⟨o, h, ho, hf, he⟩
  cases c with
  | construct k m =>
    cases ob with
    | some o => simp [step] at h
    | none =>
      simp only [step, Option.some.injEq] at h
      have hk : k ≠ n := hn
      unfold construct at h
      split at h
      · cases h; rfl
      · rename_i r1 hr
        obtain ⟨h1, h2⟩ := h5open_other d k m r1 n hk hr
        split at h
        · cases h; exact h1
        · rename_i d2 hp
          cases h
          show d2 n = d n
          rw [← h1]
          cases m <;> simp only [prepare] at hp
          · exact change_other _ _ _ _ n (by rw [h2]; exact hk) hp
          · cases hp; rfl
          · split at hp
            · cases hp
            · rename_i f hf
              cases hc : readCanary h5 f with
              | error e => rw [hc] at hp; cases hp
              | ok u => rw [hc] at hp; cases hp; rfl
          · cases hp; rfl
  | «open» k m =>
    cases ob with
    | none => simp [step] at h
    | some o =>
      simp only [step, Option.some.injEq] at h
      have hk : k ≠ n := hn
      unfold openFile at h
      split at h
      · cases h; rfl
      · split at h
        · cases h; rfl
        · rename_i r1 hr
          obtain ⟨h1, h2⟩ := h5open_other d k m r1 n hk hr
          split at h
          · cases h; exact h1
          · rename_i d2 hp
            cases h
            show d2 n = d n
            rw [← h1]
            exact canaryIf_other _ _ _ n (by intro h hh; cases hh; rw [h2]; exact hk) hp
  | close =>
    cases ob with
    | none => simp [step] at h
    | some o =>
      simp only [step, close] at h
      split at h
      · cases h
      · split at h
        · cases h; rfl
        · rename_i hc
          cases h
          exact canaryIf_other _ _ _ n (hfile o rfl hn) hc
  | flush =>
    cases ob with
    | none => simp [step] at h
    | some o =>
      simp only [step, flush] at h
      split at h
      · cases h
      · split at h
        · cases h; rfl
        · rename_i hc
          cases h
          exact canaryIf_other _ _ _ n (hfile o rfl hn) hc
  | filename =>
    cases ob with
    | none => simp [step] at h
    | some o => cases h; rfl
  | op c =>
    cases ob with
    | none => simp [step] at h
    | some o =>
      simp only [step, change1] at h
      split at h
      · cases h
      · rename_i hd hf
        split at h
        · split at h
          · cases h
          · cases h; rfl
          · rename_i hc
            cases h
            exact change_other _ _ _ _ n (hfile o rfl hn hd hf) hc
        · split at h <;> (cases h; rfl)
  | «exists» g =>
    cases ob with
    | none => simp [step] at h
    | some o =>
      simp only [step, groupExists, Option.bind_eq_bind, Option.bind_eq_some_iff] at h
      obtain ⟨_, _, _, _, h⟩ := h
      cases h; rfl
  | read g k =>
    cases ob with
    | none => simp [step] at h
    | some o =>
      simp only [step, readValue, Option.bind_eq_bind, Option.bind_eq_some_iff] at h
      obtain ⟨_, _, f, _, h⟩ := h
      split at h
      · cases h; rfl
      · cases h; rfl
      · cases h
  | destroy =>
    cases ob with
    | none => simp [step] at h
    | some o =>
      simp only [step, Option.some.injEq, destroy] at h
      split at h
      · cases h; rfl
      · rename_i hc
        cases h
        exact canaryIf_other _ _ _ n (hfile o rfl hn) hc

/-- **C151** `open` on an object that is open throws and changes nothing, in every state. -/
theorem open_twice (h5 : H5 α) (d : Disk α) (o : Obj) (hd : Handle) (ho : o.file = some hd) (n : Str) (m : Acc) :
    step h5 ⟨d, some o⟩ (.open n m) = some (⟨d, some o⟩, .thrown) := by
  simp only [step, openFile, ho]

/-- **C151** An object that was closed is destroyed without touching a file. -/
theorem closed_destroyed (h5 : H5 α) (d : Disk α) (o : Obj) (ho : o.file = none) :
    step h5 ⟨d, some o⟩ .destroy = some (⟨d, none⟩, .done) := by
  simp only [step, destroy, canaryIf, ho]

/-! ## What does not work -/

/-- Every use of a closed object other than `open`, `filename` and the destructor is undefined: a null pointer is used. -/
theorem shut_fails (h5 : H5 α) (d : Disk α) (o : Obj) (ho : o.file = none) :
    step h5 ⟨d, some o⟩ .close = none ∧ step h5 ⟨d, some o⟩ .flush = none ∧
    (∀ c, step h5 ⟨d, some o⟩ (.op c) = none) ∧ (∀ g, step h5 ⟨d, some o⟩ (.exists g) = none) ∧
    ∀ g k, step h5 ⟨d, some o⟩ (.read g k) = none := by
  refine ⟨?_, ?_, ?_, ?_, ?_⟩ <;> intros <;>
    simp only [step, close, flush, change1, groupExists, readValue, ho, bind, Option.bind]

/-- The answers to a list of calls, on a disk without files. -/
def answers (calls : List (Call Int)) : Option (List (Ans Int)) := (run h5id World.start calls).map (·.2)

/-- An object made to write, closed and opened again to make a new file: `open` throws, and the destructor ends the program. -/
theorem reopen_new_fails : answers [.construct ['a'] .trunc, .close, .open ['b'] .trunc, .destroy] =
    some [.done, .done, .thrown, .terminated] := by decide +kernel

/-- An object made to write, closed and opened again to read its own file: the same. -/
theorem reopen_read_fails : answers [.construct ['a'] .trunc, .close, .open ['a'] .rdonly, .destroy] =
    some [.done, .done, .thrown, .terminated] := by decide +kernel

/-- An object made to read, closed and opened again to make a file: all calls succeed, the value is lost, and the file is refused. -/
theorem reopen_write_fails : answers [.construct ['a'] .trunc, .destroy, .construct ['a'] .rdonly, .close,
    .open ['b'] .trunc, .op (.write [['x']] (.scalar .int (.int 5)) .no), .read ['x'] (.scalar .int), .destroy,
    .construct ['b'] .rdonly] =
    some [.done, .done, .done, .done, .done, .done, .thrown, .done, .thrown] := by decide +kernel

/-- An object made to read, closed and opened again, accepts a file whose writer has not finished. -/
theorem reopen_unfinished_fails (h5 : H5 α) (d : Disk α) (o : Obj) (ho : o.file = none) (hm : o.mode = .rdonly) (n : Str)
    (f : File α) (hf : d n = some f) :
    step h5 ⟨d, some o⟩ (.open n .rdonly) = some (⟨d, some ⟨some ⟨n, false⟩, n, .rdonly⟩⟩, .done) := by
  simp only [step, openFile, ho, h5open, hf, canaryIf, hm, if_true]

/-- An object made with `ACC_EXCL` on a free name ends the program when it is destroyed. -/
theorem excl_destroy_fails : answers [.construct ['a'] .excl, .destroy] = some [.done, .terminated] := by decide +kernel

/-- A number written through an object made with `ACC_RDONLY` is lost without notice. -/
theorem reader_writes_fails (h5 : H5 α) (d : Disk α) (o : Obj) (k : Str) (ho : o.file = some ⟨k, false⟩) (nm : Name)
    (ty : Ty) (x : Num α) (m : Mode) :
    step h5 ⟨d, some o⟩ (.op (.write nm (.scalar ty x) m)) = some (⟨d, some o⟩, .done) := by
  simp [step, change1, ho, Leaf.kind]

/-! ## Examples -/

/-- Uses of the names. -/
def kinds : Str → Name → Option LeafKind := fun _ n => if n = [['x']] then some (.scalar .int) else none

/-- Two sessions that write and one that reads. -/
def script : List (Call Int) := [.construct ['a'] .trunc, .op (.group [['g']]), .op (.write [['x']] (.scalar .int (.int 5)) .no),
  .open ['b'] .trunc, .close, .destroy, .construct ['a'] .rdw, .op (.write [['x']] (.scalar .int (.int 6)) .allow), .flush, .destroy,
  .construct ['a'] .rdonly, .exists ['g'], .exists ['h'], .read ['x'] (.scalar .int), .filename, .close, .destroy]

example : answers script = some [.done, .done, .done, .thrown, .done, .done, .done, .done, .done, .done,
    .done, .answer true, .answer false, .value (.scalar .int (.int 6)), .name ['a'], .done, .done] := by decide +kernel

theorem good_one (c : Char) (hc : c ≠ '/') : Good [[c]] := by
  refine ⟨by simp, ?_⟩
  intro w hw
  rw [List.mem_singleton] at hw
  subst hw
  refine ⟨⟨by simp, by simpa using hc.symm⟩, ?_, ?_⟩
  · intro h
    have := congrArg List.length h
    simp at this
  · intro h
    have := h.length_le
    simp at this

example : LegalAll kinds (Abs.start : Abs Int) script := by
  have hx := good_one 'x' (by decide)
  have hg := good_one 'g' (by decide)
  have hh := good_one 'h' (by decide)
  refine ⟨⟨rfl, (by decide)⟩, ⟨_, rfl, hg, by decide⟩, ⟨_, rfl, hx, rfl, (by simp [Leaf.Ok, Num.Fits]), (by intro h; cases h)⟩,
    .inl ⟨_, _, rfl⟩, ⟨_, _, rfl⟩, (by intro h; cases h), ⟨rfl, (by decide)⟩,
    ⟨_, rfl, hx, rfl, (by simp [Leaf.Ok, Num.Fits]), (by intro h; cases h)⟩, ⟨_, _, rfl⟩, (by intro h; cases h), ⟨rfl, (by decide)⟩,
    ⟨_, _, _, rfl, rfl, hg⟩, ⟨_, _, _, rfl, rfl, hh⟩, ⟨_, _, _, rfl, rfl, hx, rfl⟩, ⟨_, _, rfl⟩, ⟨_, _, rfl⟩, (by intro h; cases h),
    trivial⟩

end Verif.IoNg.Life
