import Verif.Whole.ModelBools
import Verif.Whole.PropsRange
import Verif.IoNg.PropsCanary
import Verif.Random.Props48

/-!
# C141: vectors stored by a whole program are read back as they were
-/

namespace Verif.Whole.Bools

open Verif.IoNg

variable {α : Type} [DecidableEq α]

/-! ## Spec -/

/-- The vector `v` is made of the numbers of `drand48` after the first `k` from state `x`: an entry is true when the
number (48 bits of the generator as a fraction) is less than one half. -/
def Flips (x k n : Nat) (v : List Bool) : Prop :=
  v.length = n ∧ ∀ i < n, v[i]? = some (decide (Random.lcg^[k + i + 1] x < 2 ^ 47))

/-- A reader that opens the file finds the vector under the name. -/
def FileHas (h : H5 α) (f : File α) (name : Str) (v : List Bool) : Prop :=
  openRead h f = .ok f ∧ readBools h f name = .ok v

/-! ## Comparing -/

theorem compare_go (v w : List Bool) (n : Nat) (hv : n ≤ v.length) (hw : n ≤ w.length) (s : Str) :
    ∃ t, (List.range n).foldlM (compareAt v w) s = .ok (s ++ t) ∧ (t = [] ↔ v.take n = w.take n) := by
  induction n with
  | zero => exact ⟨[], by simp [pure, Except.pure], by simp⟩
  | succ n ih =>
    obtain ⟨t, h1, h2⟩ := ih (by omega) (by omega)
    have h3 : compareAt v w (s ++ t) n = .ok (if v[n]'(by omega) = w[n]'(by omega) then s ++ t
        else (s ++ t) ++ "DIFFER!!!\n".toList) := by
      unfold compareAt
      rw [List.getElem?_eq_getElem (show n < v.length by omega), List.getElem?_eq_getElem (show n < w.length by omega)]
    rw [List.range_succ, List.foldlM_append, h1]
    simp only [List.foldlM_cons, List.foldlM_nil, bind, Except.bind, h3, pure, Except.pure]
    have ht : (v.take (n + 1) = w.take (n + 1)) ↔ v.take n = w.take n ∧ v[n]'(by omega) = w[n]'(by omega) := by
      rw [List.take_succ_eq_append_getElem (show n < v.length by omega),
        List.take_succ_eq_append_getElem (show n < w.length by omega)]
      constructor
      · intro e
        have := List.append_inj e (by simp; omega)
        exact ⟨this.1, by simpa using this.2⟩
      · rintro ⟨a, b⟩
        rw [a, b]
    by_cases he : v[n]'(by omega) = w[n]'(by omega)
    · refine ⟨t, by rw [if_pos he], ?_⟩
      rw [h2, ht]; simp [he]
    · refine ⟨t ++ "DIFFER!!!\n".toList, by rw [if_neg he, List.append_assoc], ?_⟩
      rw [ht]; simp [he]

/-- **C141** When two vectors of the same length are compared, only `OK` is printed exactly when they are equal. -/
theorem compare_iff (v w : List Bool) (h : v.length = w.length) : compare v w = .ok "OK\n".toList ↔ v = w := by
  unfold compare
  obtain ⟨t, h1, h2⟩ := compare_go v w v.length (le_refl _) (by omega) []
  rw [if_neg (by simp [h])]
  simp only [h1, bind, Except.bind, pure, Except.pure, List.nil_append]
  rw [List.take_length, h, List.take_length] at h2
  rw [← h2]
  constructor
  · intro e
    have := congrArg List.length (Except.ok.inj e)
    simp only [List.length_append] at this
    exact List.length_eq_zero_iff.1 (by omega)
  · rintro rfl; rfl

example : compare [true, false, true] [true, true, true] = .ok "DIFFER!!!\nOK\n".toList := by decide
example : compare [true] [true, true] = .ok "DIFFER on SIZE!!!\nOK\n".toList := by decide

/-- **C141** The last line is `OK` also when the vectors differ, and a second vector that is shorter is read out of
range. -/
theorem compare_ok_fails : (∀ v w s, compare v w = .ok s → "OK\n".toList <:+ s) ∧
    compare [true] [false] = .ok "DIFFER!!!\nOK\n".toList ∧ compare [true] [] = ubOut := by
  refine ⟨?_, by decide, by decide⟩
  intro v w s h
  unfold compare at h
  simp only [bind, Except.bind] at h
  split at h
  · cases h
  · cases h
    exact List.suffix_append _ _

/-! ## Random vectors -/

theorem createVector_spec (n x : Nat) : Flips x 0 n (createVector n x).1 ∧ (createVector n x).2 = Random.lcg^[n] x := by
  have hs : ∀ n x, (Random.drands n x).2 = Random.lcg^[n] x := by
    intro n
    induction n with
    | zero => intro x; rfl
    | succ n ih =>
      intro x
      simp only [Random.drands, Random.drand48, ih, Function.iterate_succ, Function.comp]
  refine ⟨⟨by simp [createVector, Random.drands_length], ?_⟩, hs n x⟩
  intro i hi
  simp only [createVector, List.getElem?_map, Random.drands_get n x i hi, Option.map_some, zero_add]
  congr 1
  rw [decide_eq_decide, div_lt_div_iff₀ (by norm_num) (by norm_num)]
  rw [show (1 : ℚ) * 281474976710656 = ((2 ^ 47 * 2 : ℕ) : ℚ) by norm_num,
    show ((Random.lcg^[i + 1] x : ℕ) : ℚ) * 2 = ((Random.lcg^[i + 1] x * 2 : ℕ) : ℚ) by push_cast; rfl]
  rw [Nat.cast_lt]
  omega

/-! ## The file -/

/-- The types of the names of the program. -/
def kinds (n : Name) : Option LeafKind :=
  if n = ["myv1".toList] ∨ n = ["myv2".toList] then some .bools else none

/-- The session of the program. -/
def session (v1 v2 : List Bool) : List (Call α) :=
  [.op (.write ["myv1".toList] (.bools v1) .no), .op (.write ["myv2".toList] (.bools v2) .no)]

theorem good1 : Good ["myv1".toList] := by
  refine ⟨by simp, ?_⟩
  intro w hw
  rw [List.mem_singleton] at hw
  subst hw
  exact ⟨⟨by decide, by decide⟩, by decide, by decide⟩

theorem good2 : Good ["myv2".toList] := by
  refine ⟨by simp, ?_⟩
  intro w hw
  rw [List.mem_singleton] at hw
  subst hw
  exact ⟨⟨by decide, by decide⟩, by decide, by decide⟩

theorem session_ok (v1 v2 : List Bool) (h1 : v1.length < 2 ^ 32) (h2 : v2.length < 2 ^ 32) :
    ∀ o, Call.op o ∈ (session v1 v2 : List (Call α)) → o.Ok kinds := by
  intro o ho
  simp only [session, List.mem_cons, Call.op.injEq, List.not_mem_nil, or_false] at ho
  rcases ho with rfl | rfl
  · exact ⟨good1, by simp [kinds, Leaf.kind], h1, by intro h; cases h⟩
  · exact ⟨good2, by simp [kinds, Leaf.kind], h2, by intro h; cases h⟩

/-- The canary can be written at the end of a session. -/
theorem end_ok (kindOf : Name → Option LeafKind) (calls : List (Call α))
    (hops : ∀ o, Call.op o ∈ calls → o.Ok kindOf) (f0 f : File α) (h0 : openTrunc = .ok f0)
    (hr : runCalls f0 calls = .ok f) : ∃ g, writeCanary f = .ok g := by
  obtain ⟨f1, h1, h2⟩ := holds_init (α := α) kindOf
  rw [h0] at h1
  cases h1
  have hf0 : f0 cp = none := by
    have hp : h5path (inDef []) = ["Def".toList] := by decide
    simp only [openTrunc, createGroup, File.createGroup, hp] at h0
    split at h0
    · cases h0
      rw [set_other _ _ _ _ (by decide)]
      exact if_neg (by decide)
    · cases h0
  obtain ⟨f', h3, h4, h5⟩ := session_holds kindOf calls hops f0 _ h2 (.inl hf0)
  rw [hr] at h3
  cases h3
  refine ⟨_, writeCanary_holds kindOf f _ h4 ?_⟩
  rw [h5]
  split
  · exact .inr rfl
  · exact .inl hf0

theorem saveAll_session (v1 v2 : List Bool) (h1 : v1.length < 2 ^ 32) (h2 : v2.length < 2 ^ 32) (f0 f : File α)
    (h0 : openTrunc = .ok f0) (hr : runCalls f0 (session v1 v2 ++ [.flush]) = .ok f) :
    saveAll v1 "myv1".toList v2 "myv2".toList = .ok f := by
  have e1 : ∀ g : File α, ∃ g', writeBools g "myv1".toList v1 .no = .ok g' := by
    intro g; unfold writeBools; rw [(boolBytes_ne v1 h1).1]; exact ⟨_, rfl⟩
  have e2 : ∀ g : File α, ∃ g', writeBools g "myv2".toList v2 .no = .ok g' := by
    intro g; unfold writeBools; rw [(boolBytes_ne v2 h2).1]; exact ⟨_, rfl⟩
  obtain ⟨g1, hg1⟩ := e1 f0
  obtain ⟨g2, hg2⟩ := e2 g1
  have r1 : (Op.write ["myv1".toList] (.bools v1) .no : Op α).run f0 = .ok g1 := hg1
  have r2 : (Op.write ["myv2".toList] (.bools v2) .no : Op α).run g1 = .ok g2 := hg2
  obtain ⟨g, hg⟩ := end_ok kinds (session v1 v2) (session_ok v1 v2 h1 h2) f0 g2 h0
    (by simp only [session, runCalls, Call.run, r1, r2])
  simp only [session, List.cons_append, List.nil_append, runCalls, Call.run, r1, r2, hg] at hr
  simp only [saveAll, h0, bind, Except.bind, hg1, hg2, hg, hr]

theorem saveAll_spec [Zero α] (h : H5 α) (v1 v2 : List Bool) (h1 : v1.length < 2 ^ 32) (h2 : v2.length < 2 ^ 32) :
    ∃ f, saveAll v1 "myv1".toList v2 "myv2".toList = .ok f ∧ FileHas h f "myv1".toList v1 ∧
      FileHas h f "myv2".toList v2 := by
  obtain ⟨f0, f, h3, h4, h5, h6⟩ := closed_accepted h kinds (session v1 v2) (session_ok v1 v2 h1 h2)
  have a1 := h6 _ .bools good1 (by decide)
  have a2 := h6 _ .bools good2 (by decide)
  have s1 : (Store.init.run (ops (session v1 v2 : List (Call α)))).1.vals ["myv1".toList] = some (.bools v1) := by
    refine written_value _ _ _ _ (.inl rfl) (.inr rfl) (by simp) _ ?_
    intro op hop v e
    have hop' : op ∈ [Op.write ["myv2".toList] (Leaf.bools (α := α) v2) Mode.no] := hop
    rw [List.mem_singleton] at hop'
    rw [hop'] at e
    cases e
  have s2 : (Store.init.run (ops (session v1 v2 : List (Call α)))).1.vals ["myv2".toList] = some (.bools v2) := by
    have : (Store.init : Store α).throws (.write ["myv1".toList] (.bools v1) .no) = false := by
      simp [Store.throws]
    show (Store.run Store.init (_ :: _)).1.vals _ = _
    rw [Store.run]
    simp only [this]
    refine written_value _ _ _ _ (.inl rfl) (.inr ?_) (by simp) [] (by simp)
    simp only [Store.step]
    split
    · simp [Store.init]
    · rfl
  rw [s1] at a1
  rw [s2] at a2
  refine ⟨f, saveAll_session v1 v2 h1 h2 f0 f h3 h4, ⟨h5, ?_⟩, h5, ?_⟩
  · have : (readBools h f "myv1".toList).map (Leaf.bools (α := α)) = .ok (.bools v1) := a1
    cases hb : readBools h f "myv1".toList with
    | ok b => rw [hb] at this; cases this; rfl
    | error e => rw [hb] at this; cases this
  · have : (readBools h f "myv2".toList).map (Leaf.bools (α := α)) = .ok (.bools v2) := a2
    cases hb : readBools h f "myv2".toList with
    | ok b => rw [hb] at this; cases this; rfl
    | error e => rw [hb] at this; cases this

/-! ## The program -/

/-- **C141** Whatever the state of the generator and the length, the program ends well, says `OK` twice and nothing
else, and leaves a file in which every later reader finds the two random vectors, bit for bit. -/
theorem boolean_ok [Zero α] (h : H5 α) (x n : Nat) (hn : n < 2 ^ 31) (more : List Str) :
    ∃ f v1 v2, Flips x 0 n v1 ∧ Flips x n n v2 ∧
      boolean h x (Nat.toDigits 10 n :: more) = .ok ⟨0, "OK\nOK\n".toList, some f⟩ ∧
      FileHas h f "myv1".toList v1 ∧ FileHas h f "myv2".toList v2 := by
  obtain ⟨c1, c2⟩ := createVector_spec n x
  obtain ⟨c3, c4⟩ := createVector_spec n (createVector n x).2
  rw [c2] at c3
  have c5 : Flips x n n (createVector n (Random.lcg^[n] x)).1 := by
    refine ⟨c3.1, ?_⟩
    intro i hi
    rw [c3.2 i hi, ← Function.iterate_add_apply]
    congr 4
    omega
  obtain ⟨f, s1, s2, s3⟩ := saveAll_spec h (createVector n x).1 (createVector n (Random.lcg^[n] x)).1
    (by rw [c1.1]; omega) (by rw [c5.1]; omega)
  refine ⟨f, _, _, c1, c5, ?_, s2, s3⟩
  unfold boolean
  have hm : ¬ maxBools < n := by unfold maxBools; omega
  simp only [Range.number_digits n (by omega), bind, Except.bind, if_neg hm, c2, s1, s2.1, s2.2, s3.2,
    (compare_iff _ _ rfl).2 rfl, pure, Except.pure]
  rfl

/-- **C141** A negative length is refused, and without an argument nothing is done. -/
theorem boolean_refused (h : H5 α) (x : Nat) : boolean h x [] = .ok ⟨1, [], none⟩ ∧
    ∀ n more, 0 < n → n ≤ 2 ^ 31 → boolean h x (('-' :: Nat.toDigits 10 n) :: more) = throwOut := by
  refine ⟨rfl, ?_⟩
  intro n more h0 h1
  have hl : Host.leading ('-' :: Nat.toDigits 10 n) = - (n : Int) := by
    unfold Host.leading
    have : ('-' :: Nat.toDigits 10 n).dropWhile Host.isSpace = '-' :: Nat.toDigits 10 n := by
      rw [List.dropWhile_cons, if_neg (by decide)]
    have ht : (Nat.toDigits 10 n).takeWhile Str.isDigit = Nat.toDigits 10 n := by
      have := List.takeWhile_append_of_pos (l₂ := []) (Host.isDigit_digits n)
      simpa using this
    simp only [this, ht, IoSimple.ofDigitChars_toDigits]
  have hnum : Range.number ('-' :: Nat.toDigits 10 n) = .ok (2 ^ 64 - n) := by
    unfold Range.number Host.atoi
    rw [hl, if_pos (by omega)]
    refine congrArg Except.ok ?_
    unfold Range.toSize
    omega
  unfold boolean
  have hm : maxBools < 2 ^ 64 - n := by unfold maxBools; omega
  simp only [hnum, bind, Except.bind, if_pos hm]

/-- **C141** A program that dies while it saves, at any moment, leaves a file that no reader accepts. -/
theorem boolean_crash (h : H5 α) (v1 v2 : List Bool) (f0 disk : File α) (h0 : openTrunc = .ok f0)
    (hd : CrashDisk f0 (session v1 v2) disk) : openRead h disk = throwOut := by
  refine crash_refused h f0 h0 (session v1 v2) ?_ ?_ disk hd
  · intro o ho
    simp only [session, List.mem_cons, Call.op.injEq, List.not_mem_nil, or_false] at ho
    rcases ho with rfl | rfl
    · exact good1
    · exact good2
  · intro c hc
    simp only [session, List.mem_cons, List.not_mem_nil, or_false] at hc
    rcases hc with rfl | rfl <;> rfl

/-! ## Numbers -/

theorem reals_map (v : List α) : reals (v.map Num.real) = .ok v := by
  induction v with
  | nil => rfl
  | cons a v ih => simp only [List.map_cons, reals, ih, bind, Except.bind, pure, Except.pure]

theorem goodH : Good ["MyVector".toList] := by
  refine ⟨by simp, ?_⟩
  intro w hw
  rw [List.mem_singleton] at hw
  subst hw
  exact ⟨⟨by decide, by decide⟩, by decide, by decide⟩

/-- The types of the names of the other program. -/
def helloKinds (n : Name) : Option LeafKind := if n = ["MyVector".toList] then some (.vec .real) else none

/-- The session of the other program. -/
def helloSession (a : α) : List (Call α) :=
  [.op (.write ["MyVector".toList] (.vec .real ((List.replicate 10 a).map .real)) .no)]

/-- **C141** The other program prints the length and then the number ten times, as it was given, and a later reader
finds the vector. -/
theorem hello_prints [Zero α] (h : H5 α) (pr : α → Str) (a : α) :
    ∃ f, hello h pr a = .ok ("10\n".toList ++ (List.replicate 10 (pr a ++ "\n".toList)).flatten, f) ∧
      openRead h f = .ok f ∧ readVector h f "MyVector".toList .real = .ok (List.replicate 10 (.real a)) := by
  have hok : ∀ o, Call.op o ∈ helloSession a → o.Ok helloKinds := by
    intro o ho
    simp only [helloSession, List.mem_cons, Call.op.injEq, List.not_mem_nil, or_false] at ho
    subst ho
    refine ⟨goodH, by simp [Leaf.kind, helloKinds], ⟨by simp, ?_⟩, by intro h; cases h⟩
    intro x hx
    simp only [List.map_replicate, List.mem_replicate] at hx
    rw [hx.2]; trivial
  obtain ⟨f0, f, h3, h4, h5, h6⟩ := closed_accepted h helloKinds (helloSession a) hok
  have a1 := h6 _ (.vec .real) goodH (by simp [helloKinds])
  have s1 : (Store.init.run (ops (helloSession a))).1.vals
      ["MyVector".toList] = some (.vec .real ((List.replicate 10 a).map .real)) :=
    written_value _ _ _ _ (.inl rfl) (.inr rfl) (by simp) [] (by simp)
  rw [s1] at a1
  have hb : readVector h f "MyVector".toList .real = .ok ((List.replicate 10 a).map .real) := by
    have : (readVector h f "MyVector".toList .real).map (Leaf.vec (α := α) .real) =
      .ok (.vec .real ((List.replicate 10 a).map .real)) := a1
    cases hb : readVector h f "MyVector".toList .real with
    | ok b => rw [hb] at this; cases this; rfl
    | error e => rw [hb] at this; cases this
  have hs : writeCanary (writeVector f0 "MyVector".toList .real ((List.replicate 10 a).map .real) .no) = .ok f := by
    have r1 : (Op.write ["MyVector".toList] (.vec .real ((List.replicate 10 a).map .real)) .no : Op α).run f0 =
      .ok (writeVector f0 "MyVector".toList .real ((List.replicate 10 a).map .real) .no) := rfl
    obtain ⟨g, hg⟩ := end_ok helloKinds (helloSession a) hok f0 _ h3
      (by simp only [helloSession, runCalls, Call.run, r1]; rfl)
    simp only [helloSession, List.cons_append, List.nil_append, runCalls, Call.run, r1, hg] at h4
    rw [hg, h4]
  refine ⟨f, ?_, h5, by rw [hb, List.map_replicate]⟩
  simp only [hello, h3, bind, Except.bind, hs, h5, hb, reals_map, pure, Except.pure, printVector, List.length_replicate]
  rfl

/-- A case: numbers that are printed as `42`. -/
example : ∃ f, hello h5id (fun _ => "42".toList) 42 =
    .ok ("10\n42\n42\n42\n42\n42\n42\n42\n42\n42\n42\n".toList, f) := by
  obtain ⟨f, h, _⟩ := hello_prints h5id (fun _ => "42".toList) 42
  exact ⟨f, h⟩

/-- A case: the truth values from state 0. -/
example : (createVector 10 0).1 = [true, true, true, true, true, true, true, true, false, true] := by decide +kernel

end Verif.Whole.Bools
