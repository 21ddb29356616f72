import Verif.Copy.Model
import Mathlib.Data.List.Nodup

/-!
# C149: copies that live as long as the object that made them
-/

namespace Verif.Copy

variable {V : Type}

/-! ## Specification -/

/-- What the program does with its own objects, as if there were no `DeepCopyOrNot`. -/
def own (h : Heap V) : List (Event V) → Heap V
  | [] => h
  | .call _ _ :: l => own h l
  | .make a v :: l => own (fun b => if b = a then some v else h b) l
  | .change a v :: l => own (fun b => if b = a then some v else h b) l
  | .drop a :: l => own (fun b => if b = a then none else h b) l

/-- A proper history, where `h` are the objects of the program and `c` the copies: memory that is new was free, arguments are there
(an argument may be a copy), and the program changes and deletes only objects of its own. -/
def Proper (isDeep : Bool) (h : Heap V) (c : Heap V) : List (Event V) → Prop
  | [] => True
  | .call fresh x :: l => ((h x).isSome ∨ (c x).isSome) ∧
      (if isDeep then h fresh = none ∧ c fresh = none ∧ Proper isDeep h (fun b => if b = fresh then (h x).or (c x) else c b) l
        else Proper isDeep h c l)
  | .make a v :: l => h a = none ∧ c a = none ∧ Proper isDeep (fun b => if b = a then some v else h b) c l
  | .change a v :: l => (h a).isSome ∧ Proper isDeep (fun b => if b = a then some v else h b) c l
  | .drop a :: l => (h a).isSome ∧ Proper isDeep (fun b => if b = a then none else h b) c l

/-! ## Deep -/

/-- The objects of the program, the copies and the record fit. -/
structure Fits (s : State V) (h c : Heap V) : Prop where
  deep : s.obj.isDeep = true
  heap : ∀ a, s.heap a = (h a).or (c a)
  apart : ∀ a, (c a).isSome → h a = none
  garbage : s.obj.garbage = s.log.map fun e => e.2.1
  nodup : s.obj.garbage.Nodup
  copies : ∀ a, (c a).isSome ↔ a ∈ s.obj.garbage
  values : ∀ e ∈ s.log, c e.2.1 = e.2.2 ∧ e.2.2.isSome

theorem deep_run : ∀ (evs : List (Event V)) (s : State V) (h c : Heap V), Fits s h c → Proper true h c evs →
    ∃ s' c', evs.foldlM step s = (.ok s' : Out (State V)) ∧ Fits s' (own h evs) c' := by
  intro evs
  induction evs with
  | nil => intro s h c hf _; exact ⟨s, c, rfl, hf⟩
  | cons e evs ih =>
    intro s h c hf hp
    rw [List.foldlM_cons]
    cases e with
    | call fresh x =>
      obtain ⟨hx, hp⟩ := hp
      simp only [if_true] at hp
      obtain ⟨h1, h2, hp⟩ := hp
      have hx' : (s.heap x).isSome := by
        rw [hf.heap]
        cases hh : h x with
        | some v => simp
        | none => rw [hh] at hx; simpa using hx
      obtain ⟨v, hv⟩ := Option.isSome_iff_exists.1 hx'
      have hv2 : (h x).or (c x) = some v := by rw [← hf.heap, hv]
      have hng : fresh ∉ s.obj.garbage := by
        intro hm
        have := (hf.copies fresh).2 hm
        rw [h2] at this
        cases this
      have : step s (.call fresh x) = .ok ⟨⟨true, s.obj.garbage ++ [fresh]⟩, s.heap.put fresh (some v), s.log ++ [(x, fresh, some v)]⟩ := by
        simp [step, Obj.call, hv, hf.deep, bind, Except.bind, pure, Except.pure]
      rw [this]
      simp only [bind, Except.bind]
      refine ih _ h _ ⟨rfl, ?_, ?_, ?_, ?_, ?_, ?_⟩ hp
      · intro a
        simp only [Heap.put]
        by_cases ha : a = fresh
        · subst ha; simp [h1, hv2]
        · simp [ha, hf.heap]
      · intro a hc
        by_cases ha : a = fresh
        · rw [ha]; exact h1
        · simp only [ha, if_false] at hc; exact hf.apart a hc
      · simp [hf.garbage]
      · simp only
        rw [List.nodup_append]
        refine ⟨hf.nodup, by simp, ?_⟩
        intro a ha b hb
        simp only [List.mem_singleton] at hb
        rw [hb]
        rintro rfl
        exact hng ha
      · intro a
        simp only [List.mem_append, List.mem_singleton]
        by_cases ha : a = fresh
        · subst ha; simp [hv2]
        · simp [ha, hf.copies]
      · intro e he
        simp only [List.mem_append, List.mem_singleton] at he
        rcases he with he | rfl
        · have hne : e.2.1 ≠ fresh := by
            intro hc
            refine hng ?_
            rw [hf.garbage, ← hc]
            exact List.mem_map_of_mem he
          simp only [hne, if_false]
          exact hf.values e he
        · simp [hv2]
    | make a v =>
      obtain ⟨h1, h2, hp⟩ := hp
      refine ih _ _ c ⟨hf.deep, ?_, ?_, hf.garbage, hf.nodup, hf.copies, hf.values⟩ hp
      · intro b
        simp only [Heap.put]
        by_cases hb : b = a
        · subst hb; simp
        · simp [hb, hf.heap]
      · intro b hc
        by_cases hb : b = a
        · subst hb; rw [h2] at hc; cases hc
        · simp only [hb, if_false]; exact hf.apart b hc
    | change a v =>
      obtain ⟨h1, hp⟩ := hp
      have hs : (s.heap a).isSome := by rw [hf.heap]; cases hh : h a <;> simp_all
      have hca : c a = none := by
        cases hc : c a with
        | none => rfl
        | some w => rw [hf.apart a (by simp [hc])] at h1; cases h1
      have : step s (.change a v) = .ok { s with heap := s.heap.put a (some v) } := by simp [step, hs]
      rw [this]
      refine ih _ _ c ⟨hf.deep, ?_, ?_, hf.garbage, hf.nodup, hf.copies, hf.values⟩ hp
      · intro b
        simp only [Heap.put]
        by_cases hb : b = a
        · subst hb; simp
        · simp [hb, hf.heap]
      · intro b hc
        by_cases hb : b = a
        · subst hb; rw [hca] at hc; cases hc
        · simp only [hb, if_false]; exact hf.apart b hc
    | drop a =>
      obtain ⟨h1, hp⟩ := hp
      obtain ⟨w, hw⟩ := Option.isSome_iff_exists.1 h1
      have hca : c a = none := by
        cases hc : c a with
        | none => rfl
        | some w => rw [hf.apart a (by simp [hc])] at h1; cases h1
      have : step s (.drop a) = .ok { s with heap := s.heap.put a none } := by
        simp [step, delete, hf.heap, hw, bind, Except.bind, pure, Except.pure]
      rw [this]
      refine ih _ _ c ⟨hf.deep, ?_, ?_, hf.garbage, hf.nodup, hf.copies, hf.values⟩ hp
      · intro b
        simp only [Heap.put]
        by_cases hb : b = a
        · subst hb; simp [hca]
        · simp [hb, hf.heap]
      · intro b hc
        by_cases hb : b = a
        · simp [hb]
        · simp only [hb, if_false]; exact hf.apart b hc

theorem delete_all : ∀ (l : List Nat) (h : Heap V), l.Nodup → (∀ a ∈ l, (h a).isSome) →
    l.foldlM delete h = (.ok (fun a => if a ∈ l then none else h a) : Out (Heap V)) := by
  intro l
  induction l with
  | nil => intro h _ _; simp [pure, Except.pure]
  | cons a l ih =>
    intro h hn ha
    rw [List.nodup_cons] at hn
    obtain ⟨v, hv⟩ := Option.isSome_iff_exists.1 (ha a List.mem_cons_self)
    have : delete h a = .ok (h.put a none) := by simp [delete, hv]
    rw [List.foldlM_cons, this]
    simp only [bind, Except.bind]
    rw [ih _ hn.2 ?_]
    · refine congrArg Except.ok ?_
      funext b
      simp only [Heap.put, List.mem_cons]
      by_cases hb : b = a
      · simp [hb]
      · simp [hb]
    · intro b hb
      have : b ≠ a := by rintro rfl; exact hn.1 hb
      simp only [Heap.put, this, if_false]
      exact ha b (List.mem_cons_of_mem _ hb)

/-- **C149** An object that copies, in any proper history: nothing undefined happens; every result is there until the object is destroyed, in
a place of its own, with the value that the argument had at the time of the call, whatever has been done to the argument since; the
program's own objects are as without the copies; and the destructor deletes each copy once and nothing else. -/
theorem deep_copies (h0 : Heap V) (evs : List (Event V)) (hp : Proper true h0 (fun _ => none) evs) :
    ∃ s, run true h0 evs = .ok s ∧
      (∀ e ∈ s.log, e.2.2.isSome ∧ s.heap e.2.1 = e.2.2 ∧ own h0 evs e.2.1 = none) ∧
      (s.log.map fun e => e.2.1).Nodup ∧
      (∀ a, (own h0 evs a).isSome → s.heap a = own h0 evs a) ∧
      s.obj.destroy s.heap = .ok (own h0 evs) := by
  obtain ⟨s, c, h1, hf⟩ := deep_run evs ⟨.make true, h0, []⟩ h0 (fun _ => none)
    ⟨rfl, fun a => by simp, fun a h => (by cases h), rfl, List.nodup_nil, fun a => (by simp [Obj.make]), fun e he => (by cases he)⟩ hp
  refine ⟨s, h1, ?_, hf.garbage ▸ hf.nodup, ?_, ?_⟩
  · intro e he
    obtain ⟨v1, v2⟩ := hf.values e he
    have := hf.apart e.2.1 (by rw [v1]; exact v2)
    refine ⟨v2, ?_, this⟩
    rw [hf.heap, this, Option.none_or, v1]
  · intro a ha
    rw [hf.heap]
    obtain ⟨v, hv⟩ := Option.isSome_iff_exists.1 ha
    rw [hv, Option.some_or]
  · unfold Obj.destroy
    rw [delete_all _ _ hf.nodup ?_]
    · refine congrArg Except.ok ?_
      funext a
      by_cases ha : a ∈ s.obj.garbage
      · rw [if_pos ha, hf.apart a ((hf.copies a).2 ha)]
      · rw [if_neg ha, hf.heap]
        have : c a = none := by
          cases hc : c a with
          | none => rfl
          | some v => exact absurd ((hf.copies a).1 (by simp [hc])) ha
        rw [this, Option.or_none]
    · intro a ha
      have h2 := (hf.copies a).2 ha
      rw [hf.heap, hf.apart a h2, Option.none_or]
      exact h2

/-- What the record says of a call: the value of the argument then, and where the result is. -/
theorem call_recorded (s s' : State V) (fresh x : Nat) (h : step s (.call fresh x) = .ok s') :
    ∃ r, s'.log = s.log ++ [(x, r, s.heap x)] ∧ (s.obj.isDeep = true → r = fresh) ∧ (s.obj.isDeep = false → r = x) := by
  unfold step Obj.call at h
  cases hv : s.heap x with
  | none => simp [hv, bind, Except.bind, ubOut] at h
  | some v =>
    cases hd : s.obj.isDeep with
    | true =>
      simp only [hv, hd, if_true, bind, Except.bind, pure, Except.pure, Except.ok.injEq] at h
      exact ⟨fresh, by rw [← h], fun _ => rfl, fun h => (by cases h)⟩
    | false =>
      simp only [hv, hd, Bool.false_eq_true, if_false, bind, Except.bind, pure, Except.pure, Except.ok.injEq] at h
      exact ⟨x, by rw [← h], fun h => (by cases h), fun _ => rfl⟩

/-! ## Not deep -/

theorem shallow_run : ∀ (evs : List (Event V)) (s : State V) (h : Heap V), s.obj = .make false → s.heap = h →
    (∀ e ∈ s.log, e.2.1 = e.1) → Proper false h (fun _ => none) evs →
    ∃ s', evs.foldlM step s = (.ok s' : Out (State V)) ∧ s'.obj = .make false ∧ s'.heap = own h evs ∧ ∀ e ∈ s'.log, e.2.1 = e.1 := by
  intro evs
  induction evs with
  | nil => intro s h h1 h2 h3 _; exact ⟨s, rfl, h1, h2, h3⟩
  | cons e evs ih =>
    intro s h h1 h2 h3 hp
    rw [List.foldlM_cons]
    subst h2
    cases e with
    | call fresh x =>
      obtain ⟨hx, hp⟩ := hp
      simp only [Bool.false_eq_true, if_false] at hp
      have hx : (s.heap x).isSome := by simpa using hx
      obtain ⟨v, hv⟩ := Option.isSome_iff_exists.1 hx
      have : step s (.call fresh x) = .ok ⟨.make false, s.heap, s.log ++ [(x, x, some v)]⟩ := by
        simp [step, Obj.call, hv, h1, Obj.make, bind, Except.bind, pure, Except.pure]
      rw [this]
      refine ih _ s.heap rfl rfl ?_ hp
      intro e he
      simp only [List.mem_append, List.mem_singleton] at he
      rcases he with he | rfl
      · exact h3 e he
      · rfl
    | make a v => exact ih _ _ h1 rfl h3 hp.2.2
    | change a v =>
      have : step s (.change a v) = .ok { s with heap := s.heap.put a (some v) } := by simp [step, hp.1]
      rw [this]
      exact ih _ _ h1 rfl h3 hp.2
    | drop a =>
      obtain ⟨w, hw⟩ := Option.isSome_iff_exists.1 hp.1
      have : step s (.drop a) = .ok { s with heap := s.heap.put a none } := by
        simp [step, delete, hw, bind, Except.bind, pure, Except.pure]
      rw [this]
      exact ih _ _ h1 rfl h3 hp.2

/-- **C149** An object that does not copy: every result is the argument itself, nothing is allocated, and the destructor deletes nothing. -/
theorem shallow_same (h0 : Heap V) (evs : List (Event V)) (hp : Proper false h0 (fun _ => none) evs) :
    ∃ s, run false h0 evs = .ok s ∧ (∀ e ∈ s.log, e.2.1 = e.1) ∧ s.heap = own h0 evs ∧ s.obj.destroy s.heap = .ok (own h0 evs) := by
  obtain ⟨s, h1, h2, h3, h4⟩ := shallow_run evs ⟨.make false, h0, []⟩ h0 rfl rfl (fun e he => by cases he) hp
  refine ⟨s, h1, h4, h3, ?_⟩
  rw [h2, h3]
  rfl

theorem delete_none : ∀ (l : List Nat) (h : Heap V) (a : Nat), a ∈ l → h a = none → (∀ b ∈ l, b = a ∨ (h b).isSome) → l.Nodup →
    l.foldlM delete h = (ubOut : Out (Heap V)) := by
  intro l
  induction l with
  | nil => intro h a ha; cases ha
  | cons b l ih =>
    intro h a ha hn hs hd
    rw [List.nodup_cons] at hd
    rw [List.foldlM_cons]
    by_cases hb : b = a
    · subst hb
      simp [delete, hn, bind, Except.bind, ubOut]
    · obtain ⟨v, hv⟩ := Option.isSome_iff_exists.1 ((hs b List.mem_cons_self).resolve_left hb)
      have e : delete h b = .ok (h.put b none) := by simp [delete, hv]
      rw [e]
      simp only [bind, Except.bind]
      have hal : a ∈ l := (List.mem_cons.1 ha).resolve_left (fun e => hb e.symm)
      refine ih _ a hal ?_ ?_ hd.2
      · simp only [Heap.put]
        rw [if_neg (fun e => hb e.symm)]
        exact hn
      · intro c hc
        have : c ≠ b := by rintro rfl; exact hd.1 hc
        simp only [Heap.put, this, if_false]
        exact hs c (List.mem_cons_of_mem _ hc)

/-- **C149** The copies are the object's: if the program deletes one of them after a proper history, the destructor is undefined
behaviour. -/
theorem copy_deleted_fails (h0 : Heap V) (evs : List (Event V)) (hp : Proper true h0 (fun _ => none) evs) (s : State V)
    (hs : run true h0 evs = .ok s) (e : Nat × Nat × Option V) (he : e ∈ s.log) :
    ∃ s', step s (.drop e.2.1) = .ok s' ∧ s'.obj.destroy s'.heap = ubOut := by
  obtain ⟨s1, c, h1, hf⟩ := deep_run evs ⟨.make true, h0, []⟩ h0 (fun _ => none)
    ⟨rfl, fun a => by simp, fun a h => (by cases h), rfl, List.nodup_nil, fun a => (by simp [Obj.make]), fun e he => (by cases he)⟩ hp
  have : s1 = s := by
    have := h1.symm.trans hs
    exact Except.ok.inj this
  subst this
  obtain ⟨v1, v2⟩ := hf.values e he
  have hc : (c e.2.1).isSome := by rw [v1]; exact v2
  have hg : e.2.1 ∈ s1.obj.garbage := (hf.copies _).1 hc
  have hh : ∀ a ∈ s1.obj.garbage, (s1.heap a).isSome := by
    intro a ha
    have := (hf.copies a).2 ha
    rw [hf.heap, hf.apart a this, Option.none_or]
    exact this
  obtain ⟨v, hv⟩ := Option.isSome_iff_exists.1 (hh _ hg)
  refine ⟨{ s1 with heap := s1.heap.put e.2.1 none }, ?_, ?_⟩
  · simp [step, delete, hv, bind, Except.bind, pure, Except.pure]
  · refine delete_none _ _ e.2.1 hg ?_ ?_ hf.nodup
    · simp [Heap.put]
    · intro b hb
      by_cases h : b = e.2.1
      · exact Or.inl h
      · right
        simp only [Heap.put, h, if_false]
        exact hh b hb

/-! ## Examples -/

/-- An object is copied, changed, copied again, its copy is copied, and it is deleted. -/
def exEvents : List (Event Nat) := [.make 1 10, .call 2 1, .change 1 20, .call 3 1, .call 4 2, .drop 1]

example : Proper true (fun _ => none) (fun _ => none) exEvents := by simp [exEvents, Proper]

example : ∃ s, run true (fun _ => none) exEvents = .ok s ∧ s.log = [(1, 2, some 10), (1, 3, some 20), (2, 4, some 10)] ∧
    s.heap 2 = some 10 ∧ s.heap 3 = some 20 ∧ s.heap 4 = some 10 ∧ s.heap 1 = none := ⟨_, rfl, rfl, rfl, rfl, rfl, rfl⟩

example (s : State Nat) (hs : run true (fun _ => none) exEvents = .ok s) :
    ∃ s', step s (.drop 3) = .ok s' ∧ s'.obj.destroy s'.heap = ubOut :=
  copy_deleted_fails _ exEvents (by simp [exEvents, Proper]) s hs (1, 3, some 20) (by cases hs; simp; rfl)

example : Proper false (fun _ => none) (fun _ => none) ([.make 1 10, .call 2 1, .change 1 20] : List (Event Nat)) := by simp [Proper]

end Verif.Copy
