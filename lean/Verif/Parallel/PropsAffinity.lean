import Verif.Parallel.ModelAffinity

/-!
# C111: CPUs and stacks of the threads
-/

namespace Verif.Parallel

/-- The CPUs of the set in ascending order. -/
def CpuSet.cpus (s : CpuSet) : List Nat := (List.range maxCpus).filter s

theorem getOneCpu_eq (s : CpuSet) : getOneCpu s = s.cpus[0]? := by
  rw [getOneCpu, CpuSet.cpus, ← List.head?_eq_getElem?, List.head?_filter]

theorem cpus_nodup (s : CpuSet) : s.cpus.Nodup := List.nodup_range.filter _

theorem clear_cpus {s : CpuSet} {c : Nat} {rest : List Nat} (h : s.cpus = c :: rest) : (s.clear c).cpus = rest := by
  have h1 : (s.clear c).cpus = s.cpus.filter (· ≠ c) := by
    rw [CpuSet.cpus, CpuSet.cpus, List.filter_filter]
    refine List.filter_congr fun i _ => ?_
    unfold CpuSet.clear
    by_cases hi : i = c <;> simp [hi]
  have hn := cpus_nodup s
  rw [h] at hn
  rw [h1, h, List.filter_cons, if_neg (by simp), List.filter_eq_self]
  intro a ha
  have : c ∉ rest := (List.nodup_cons.1 hn).1
  simp only [ne_eq, decide_eq_true_eq]
  rintro rfl
  exact this ha

theorem prepare_stack (n : Nat) (aff : Bool) (acc : Nat → Bool) (s : CpuSet) : prepare n aff acc s = prepare 0 aff acc s := by
  unfold prepare attrInit
  rfl

theorem prepareAll_length (n : Nat) (aff : Bool) (acc : Nat → Nat → Bool) : ∀ (k j : Nat) (s : CpuSet),
    (prepareAll n aff acc k j s).length = k := by
  intro k
  induction k with
  | zero => intro _ _; rfl
  | succ k ih => intro j s; rw [prepareAll, List.length_cons, ih]

theorem prepareAll_cpus (n : Nat) (acc : Nat → Nat → Bool) (hacc : ∀ j c, acc j c = true) : ∀ (k j : Nat) (s : CpuSet),
    ∀ i < k, (prepareAll n true acc k j s)[i]? = some (some ⟨none, s.cpus[i]?⟩) := by
  intro k
  induction k with
  | zero => intro _ _ i hi; omega
  | succ k ih =>
    intro j s i hi
    rw [prepareAll]
    have hp : prepare n true (acc j) s = match s.cpus with
        | [] => (some ⟨none, none⟩, s)
        | c :: _ => (some ⟨none, some c⟩, s.clear c) := by
      rw [prepare_stack]
      unfold prepare setAffinity
      rw [getOneCpu_eq]
      cases hc : s.cpus with
      | nil => rfl
      | cons c rest => simp [hacc, setCpu, attrInit]
    rw [hp]
    cases hc : s.cpus with
    | nil =>
      cases i with
      | zero => rfl
      | succ i =>
        simp only [List.getElem?_cons_succ]
        rw [ih (j + 1) s i (by omega), hc]
        rfl
    | cons c rest =>
      cases i with
      | zero => rfl
      | succ i =>
        simp only [List.getElem?_cons_succ]
        rw [ih (j + 1) _ i (by omega), clear_cpus hc]

/-- **C111** With affinities, if the system accepts the CPUs: thread `i` is bound to CPU number `i` of those that the process may
use, in ascending order, and threads for which there is none left are not bound. -/
theorem affinity_spec (nthreads ntasks stackSize : Nat) (s : CpuSet) (acc : Nat → Nat → Bool) (hacc : ∀ j c, acc j c = true) :
    ∃ l, launch nthreads ntasks stackSize true (some s) acc (fun _ => true) = .ok l ∧ l.length = min nthreads ntasks ∧
      ∀ i < min nthreads ntasks, ∃ a, l[i]? = some (some a) ∧ a.cpu = s.cpus[i]? := by
  refine ⟨_, ?_, prepareAll_length _ _ _ _ _ _, fun i hi => ⟨_, prepareAll_cpus stackSize acc hacc _ 0 (pidAffinity (some s)) i hi, rfl⟩⟩
  unfold launch
  simp only
  rw [if_pos (by simp)]

theorem prepare_cases (n : Nat) (aff : Bool) (acc : Nat → Bool) (s : CpuSet) :
    prepare n aff acc s = (some ⟨none, none⟩, s) ∨
      ∃ c rest, s.cpus = c :: rest ∧ prepare n aff acc s = (some ⟨none, some c⟩, s.clear c) := by
  rw [prepare_stack]
  unfold prepare
  cases aff with
  | false => exact Or.inl rfl
  | true =>
    unfold setAffinity
    rw [getOneCpu_eq]
    cases hc : s.cpus with
    | nil => exact Or.inl rfl
    | cons c rest =>
      cases ha : acc c with
      | false => left; simp [ha, attrInit]
      | true => exact Or.inr ⟨c, rest, rfl, by simp [ha, attrInit, setCpu]⟩

theorem prepareAll_mem (n : Nat) (aff : Bool) (acc : Nat → Nat → Bool) : ∀ (k j : Nat) (s : CpuSet) (i : Nat) (a : AttrObj),
    (prepareAll n aff acc k j s)[i]? = some a → ∃ c, a = some ⟨none, c⟩ ∧ ∀ x, c = some x → x ∈ s.cpus := by
  intro k
  induction k with
  | zero => intro _ _ i a h; simp [prepareAll] at h
  | succ k ih =>
    intro j s i a h
    rw [prepareAll] at h
    rcases prepare_cases n aff (acc j) s with hp | ⟨c, rest, hc, hp⟩
    · rw [hp] at h
      cases i with
      | zero =>
        simp only [List.getElem?_cons_zero, Option.some.injEq] at h
        exact ⟨none, h.symm, fun x hx => by simp at hx⟩
      | succ i => exact ih (j + 1) s i a (by simpa using h)
    · rw [hp] at h
      cases i with
      | zero =>
        simp only [List.getElem?_cons_zero, Option.some.injEq] at h
        refine ⟨some c, h.symm, fun x hx => ?_⟩
        obtain rfl := Option.some.inj hx
        rw [hc]; exact List.mem_cons_self
      | succ i =>
        obtain ⟨d, h1, h2⟩ := ih (j + 1) (s.clear c) i a (by simpa using h)
        refine ⟨d, h1, fun x hx => ?_⟩
        rw [hc]
        have := h2 x hx
        rw [clear_cpus hc] at this
        exact List.mem_cons_of_mem _ this

theorem prepareAll_distinct (n : Nat) (aff : Bool) (acc : Nat → Nat → Bool) : ∀ (k j : Nat) (s : CpuSet) (i i' x : Nat) (a a' : Attr),
    i < i' → (prepareAll n aff acc k j s)[i]? = some (some a) → (prepareAll n aff acc k j s)[i']? = some (some a') →
    a.cpu = some x → a'.cpu ≠ some x := by
  intro k
  induction k with
  | zero => intro _ _ i i' x a a' _ h; simp [prepareAll] at h
  | succ k ih =>
    intro j s i i' x a a' hlt h h' hx hx'
    rw [prepareAll] at h h'
    obtain ⟨i'', rfl⟩ : ∃ m, i' = m + 1 := ⟨i' - 1, by omega⟩
    simp only [List.getElem?_cons_succ] at h'
    cases i with
    | succ i =>
      simp only [List.getElem?_cons_succ] at h
      exact ih (j + 1) _ i i'' x a a' (by omega) h h' hx hx'
    | zero =>
      simp only [List.getElem?_cons_zero, Option.some.injEq] at h
      rcases prepare_cases n aff (acc j) s with hp | ⟨c, rest, hc, hp⟩
      · rw [hp] at h
        obtain rfl := Option.some.inj h
        simp at hx
      · rw [hp] at h h'
        obtain rfl := Option.some.inj h
        obtain rfl := Option.some.inj hx
        obtain ⟨d, h1, h2⟩ := prepareAll_mem n aff acc k (j + 1) _ i'' _ h'
        obtain rfl := Option.some.inj h1
        have hm := h2 _ hx'
        rw [clear_cpus hc] at hm
        have hn := cpus_nodup s
        rw [hc] at hn
        exact (List.nodup_cons.1 hn).1 hm

/-- **C111** Whatever the system answers, no two threads are bound to the same CPU, and they are only bound to CPUs that the
process may use. -/
theorem affinity_distinct (nthreads ntasks stackSize : Nat) (aff : Bool) (answer : Option CpuSet) (acc : Nat → Nat → Bool)
    (created : Nat → Bool) {l : List AttrObj} (h : launch nthreads ntasks stackSize aff answer acc created = .ok l) {i i' x : Nat}
    {a a' : Attr} (hi : l[i]? = some (some a)) (hi' : l[i']? = some (some a')) (hx : a.cpu = some x) (hx' : a'.cpu = some x) :
    i = i' ∧ ∃ s, answer = some s ∧ s x = true := by
  unfold launch at h
  simp only at h
  split at h
  case isFalse => exact absurd h (by simp [ubOut])
  case isTrue =>
    obtain rfl := Except.ok.inj h
    refine ⟨?_, ?_⟩
    · rcases Nat.lt_trichotomy i i' with hl | he | hl
      · exact absurd hx' (prepareAll_distinct _ _ _ _ _ _ i i' x a a' hl hi hi' hx)
      · exact he
      · exact absurd hx (prepareAll_distinct _ _ _ _ _ _ i' i x a' a hl hi' hi hx')
    · obtain ⟨c, h1, h2⟩ := prepareAll_mem _ _ _ _ _ _ i _ hi
      obtain rfl := Option.some.inj h1
      have hm := h2 x hx
      cases answer with
      | none => simp [pidAffinity, CpuSet.cpus] at hm
      | some s => exact ⟨s, rfl, (List.mem_filter.1 hm).2⟩

/-- **C111** (finding) If the system refuses the lowest CPU for every thread, no thread is bound, however many other CPUs there
are. -/
theorem affinity_refused_fails (nthreads ntasks stackSize : Nat) (s : CpuSet) (c : Nat) (rest : List Nat) (hc : s.cpus = c :: rest)
    (acc : Nat → Nat → Bool) (hacc : ∀ j, acc j c = false) :
    launch nthreads ntasks stackSize true (some s) acc (fun _ => true) =
      .ok (List.replicate (min nthreads ntasks) (some ⟨none, none⟩)) := by
  have key : ∀ k j, prepareAll stackSize true acc k j s = List.replicate k (some ⟨none, none⟩) := by
    intro k
    induction k with
    | zero => intro j; rfl
    | succ k ih =>
      intro j
      rw [prepareAll]
      have hp : prepare stackSize true (acc j) s = (some ⟨none, none⟩, s) := by
        rw [prepare_stack]
        unfold prepare setAffinity
        rw [getOneCpu_eq, hc]
        simp [hacc, attrInit]
      rw [hp, ih, List.replicate_succ]
  unfold launch
  simp only
  rw [if_pos (by simp)]
  exact congrArg _ (key _ 0)

/-- **C111** (finding) The size of the stack that was asked for is never used: threads are created with the default, because the
attributes are initialized after it is set. -/
theorem stack_fails (nthreads ntasks stackSize : Nat) (aff : Bool) (answer : Option CpuSet) (acc : Nat → Nat → Bool)
    (created : Nat → Bool) :
    (∀ l, launch nthreads ntasks stackSize aff answer acc created = .ok l → ∀ a ∈ l, ∃ c, a = some ⟨none, c⟩) ∧
    (∀ l, launch2 nthreads stackSize created = .ok l → ∀ a ∈ l, ∃ c, a = some ⟨none, c⟩) := by
  constructor
  · intro l h a ha
    unfold launch at h
    simp only at h
    split at h
    case isFalse => exact absurd h (by simp [ubOut])
    case isTrue =>
      obtain rfl := Except.ok.inj h
      obtain ⟨i, hi⟩ := List.mem_iff_getElem?.1 ha
      obtain ⟨c, h1, _⟩ := prepareAll_mem _ _ _ _ _ _ i a hi
      exact ⟨c, h1⟩
  · intro l h a ha
    unfold launch2 at h
    split at h
    case isFalse => exact absurd h (by simp [ubOut])
    case isTrue =>
      obtain rfl := Except.ok.inj h
      obtain ⟨i, hi⟩ := List.mem_iff_getElem?.1 ha
      obtain ⟨c, h1, _⟩ := prepareAll_mem _ _ _ _ _ _ i a hi
      exact ⟨c, h1⟩

/-- **C111** (finding) If one thread cannot be created, a thread that does not exist is joined. -/
theorem create_fails (nthreads ntasks stackSize : Nat) (aff : Bool) (answer : Option CpuSet) (acc : Nat → Nat → Bool)
    (created : Nat → Bool) (j : Nat) (hj : j < nthreads) (hj' : j < ntasks) (hc : created j = false) :
    launch nthreads ntasks stackSize aff answer acc created = ubOut ∧ launch2 nthreads stackSize created = ubOut := by
  constructor
  · unfold launch
    simp only
    rw [if_neg]
    intro h
    have := List.all_eq_true.1 h j (List.mem_range.2 (by omega))
    rw [hc] at this
    cases this
  · unfold launch2
    rw [if_neg]
    intro h
    have := List.all_eq_true.1 h j (List.mem_range.2 hj)
    rw [hc] at this
    cases this

/-! ## Examples -/

/-- The process may use the CPUs 2, 3 and 5. -/
def someCpus : CpuSet := fun i => i = 2 ∨ i = 3 ∨ i = 5

example : someCpus.cpus = [2, 3, 5] := by decide +kernel

/-- Four threads and ten tasks: three threads are bound. -/
example : launch 4 10 65536 true (some someCpus) (fun _ _ => true) (fun _ => true) =
    .ok [some ⟨none, some 2⟩, some ⟨none, some 3⟩, some ⟨none, some 5⟩, some ⟨none, none⟩] := by decide +kernel

end Verif.Parallel
