import Verif.IoSimple.Lemmas
import Verif.StrUtil.Props
import Verif.Labels.Props

/-!
# Properties of `IoSimple` (C70)

`cwords` and `hits` (Lemmas.lean) are the vocabulary: the words of a text that white space follows, and those that begin
with a label.
-/

namespace Verif.IoSimple

theorem ofText_rest (s : Str) : (Stream.ofText s).rest = s := rfl

/-! ## Reading a labelled value -/

/-- **C70** `readline(x, label, k)` reads the value after the label in the word number `k` (from 0) of those that begin
with the label, and the file is then after that word. -/
theorem readline_level {X : Type} (parse : Str → X → X) (hp : ∀ t x y, parse t x = parse t y) (file : Str) (st : Stream)
    (hg : st.good = true) (x : X) (s : Str) (k : Nat) (hk : k < (hits s (cwords st.rest)).length) :
    ∃ before w after st', cwords st.rest = before ++ w :: after ∧ s <+: w ∧ (hits s before).length = k ∧
      readline parse file st x s k = .ok (st', parse (w.drop s.length) x, k) ∧ st'.good = true ∧ cwords st'.rest = after := by
  obtain ⟨pre, w, r, _, _, h3, before, h4, h5, h6⟩ := rlLoop_found parse s k (st.rest.length + 1) st [] x false 0 hg
    (Nat.lt_succ_self _) (Nat.zero_le _) (by simpa using hk)
  refine ⟨before, w, cwords r, ⟨r, false, false⟩, h4, h3, by simpa using h5, ?_, rfl, rfl⟩
  have e : readlineOnce parse st x s (k : Int) = .ok (⟨r, false, false⟩, parse (w.drop s.length) x, k) := by
    unfold readlineOnce
    simp only [hg, Bool.not_true, Bool.false_eq_true, if_false, h6, Bool.false_and, Bool.or_false]
    rw [hp _ (parseAll parse s (hits s before) x) x]
  unfold readline
  rw [e]
  simp only [bind, Except.bind]
  rw [if_neg (by omega)]
  rfl

/-- **C70** `readline` throws if there are not so many words that begin with the label. -/
theorem readline_missing {X : Type} (parse : Str → X → X) (file : Str) (st : Stream) (x : X) (s : Str) (k : Nat)
    (hk : (hits s (cwords st.rest)).length ≤ k) : readline parse file st x s k = throwOut := by
  have e : readlineOnce parse st x s (k : Int) = throwOut := by
    unfold readlineOnce
    by_cases hg : st.good = true
    · obtain ⟨st', _, h2⟩ := rlLoop_end parse s k (st.rest.length + 1) st [] x false 0 hg (Nat.lt_succ_self _)
        (Or.inr (by push_cast; omega))
      simp only [hg, Bool.not_true, Bool.false_eq_true, if_false, h2]
      rw [if_pos]
      simp
    · simp only [hg, Bool.not_false, if_true]
  unfold readline
  rw [e]
  rfl

/-- **C70** From the beginning of the file, `readline` with `LAST_INSTANCE` reads the value after the label in the last of the
words that begin with the label, and returns their number. -/
theorem readline_last {X : Type} (parse : Str → X → X) (hp : ∀ t x y, parse t x = parse t y) (file : Str) (x : X) (s : Str)
    (hk : hits s (cwords file) ≠ []) :
    ∃ w st', (hits s (cwords file)).getLast? = some w ∧
      readline parse file (.ofText file) x s (-1) = .ok (st', parse (w.drop s.length) x, (hits s (cwords file)).length) := by
  have hg : (Stream.ofText file).good = true := rfl
  obtain ⟨st1, _, h2⟩ := rlLoop_end parse s (-1) (file.length + 1) (.ofText file) [] x false 0 hg (Nat.lt_succ_self _)
    (Or.inl (by omega))
  have hpos : 0 < (hits s (cwords file)).length := List.length_pos_iff.mpr hk
  have e : readlineOnce parse (.ofText file) x s (-1) = .ok (st1, parseAll parse s (hits s (cwords file)) x,
      (hits s (cwords file)).length) := by
    unfold readlineOnce
    simp only [hg, Bool.not_true, Bool.false_eq_true, if_false]
    rw [ofText_rest] at h2 ⊢
    rw [h2]
    simp [List.isEmpty_eq_false_iff.mpr hk]
  obtain ⟨before, w, after, st', h3, h4, h5, h6, h7, h8⟩ := readline_level parse hp file (.ofText file) hg
    (parseAll parse s (hits s (cwords file)) x) s ((hits s (cwords file)).length - 1)
    (by rw [ofText_rest]; omega)
  rw [ofText_rest] at h3
  have hafter : hits s after = [] := by
    have : (hits s (cwords file)).length = (hits s before).length + ((hits s after).length + 1) := by
      rw [h3]
      unfold hits
      rw [List.filter_append, List.length_append]
      have := hits_cons_pos h4 after
      unfold hits at this
      rw [this, List.length_cons]
    exact List.length_eq_zero_iff.mp (by omega)
  refine ⟨w, st', ?_, ?_⟩
  · rw [h3]
    unfold hits
    rw [List.filter_append]
    have := hits_cons_pos h4 after
    unfold hits at this hafter
    rw [this, hafter]
    simp
  · unfold readline
    rw [e]
    simp only [bind, Except.bind, if_true]
    have e2 : (((hits s (cwords file)).length : Int) - 1) = (((hits s (cwords file)).length - 1 : Nat) : Int) := by omega
    rw [e2]
    unfold readline at h6
    rw [hp _ (parseAll parse s (hits s (cwords file)) x) x] at h6
    revert h6
    cases readlineOnce parse (.ofText file) (parseAll parse s (hits s (cwords file)) x) s
        ((((hits s (cwords file)).length - 1 : Nat)) : Int) with
    | error e => intro h6; cases h6
    | ok r =>
      simp only [bind, Except.bind]
      rw [if_neg (by omega)]
      intro h6
      have h6' : r = (st', parse (w.drop s.length) x, (hits s (cwords file)).length - 1) := by
        injection h6
      rw [h6']
      rfl

/-- Reading a number of one digit. -/
def digitParse (t : Str) (_ : Nat) : Nat := (t.head?.getD '0').toNat - 48

/-- **C70** Not from the beginning: after the first of two values, `LAST_INSTANCE` reads that first value again. -/
theorem readline_last_fails :
    readline digitParse "a=1 b=2 a=3\n".toList ⟨" b=2 a=3\n".toList, false, false⟩ 0 "a=".toList (-1) =
      .ok (⟨" b=2 a=3\n".toList, false, false⟩, 1, 1) := by
  decide +kernel

/-- **C70** A value at the very end of a file that does not end with white space is not found. -/
theorem readline_unterminated_fails : readline digitParse "a=1".toList (.ofText "a=1".toList) 0 "a=".toList 0 = throwOut := by
  decide +kernel

/-! ## Counting -/

theorem advance_zero (file : Str) (st : Stream) (s : Str) (hg : st.good = true) :
    (hits s (cwords st.rest) = [] ∧ advance file st s 0 = throwOut) ∨
    ∃ st' w c, advance file st s 0 = .ok (st', w, c) ∧ st'.good = true ∧
      (hits s (cwords st.rest)).length = (hits s (cwords st'.rest)).length + 1 := by
  by_cases h : hits s (cwords st.rest) = []
  · left
    refine ⟨h, ?_⟩
    obtain ⟨st', _, h2⟩ := advLoop_end s 0 (st.rest.length + 1) st notFound notFound 0 hg (Nat.lt_succ_self _)
      (Or.inr (by rw [h]; simp))
    unfold advance advanceTo
    rw [if_neg (by omega), h2]
    simp [h]
  · right
    obtain ⟨pre, w, r, _, _, h3, before, h4, h5, h6⟩ := advLoop_found s 0 (st.rest.length + 1) st notFound notFound 0 hg
      (Nat.lt_succ_self _) le_rfl (by simpa using List.length_pos_iff.mpr h)
    refine ⟨⟨r, false, false⟩, w, 0, ?_, rfl, ?_⟩
    · unfold advance advanceTo
      have h6' : advLoop s 0 (st.rest.length + 1) st notFound notFound 0 = some (⟨r, false, false⟩, w, true, 0) := h6
      rw [if_neg (by omega), h6']
      simp
    · rw [h4]
      have hb : hits s before = [] := List.length_eq_zero_iff.mp (by simpa using h5)
      unfold hits at hb ⊢
      rw [List.filter_append, hb]
      have := hits_cons_pos h3 (cwords r)
      unfold hits at this
      rw [this]
      rfl

theorem countLoop_spec (file s : Str) : ∀ (k : Nat) (st : Stream) (i : Nat), st.good = true →
    countLoop file s k st i = .ok (if (hits s (cwords st.rest)).length < k then some (i + (hits s (cwords st.rest)).length)
      else none) := by
  intro k
  induction k with
  | zero => intro st i _; rfl
  | succ k ih =>
    intro st i hg
    unfold countLoop
    rcases advance_zero file st s hg with ⟨h1, h2⟩ | ⟨st', w, c, h1, h2, h3⟩
    · rw [h2, h1]
      simp [throwOut]
    · rw [h1]
      simp only
      rw [ih st' (i + 1) h2, h3]
      by_cases h : (hits s (cwords st'.rest)).length < k
      · rw [if_pos h, if_pos (by omega)]
        congr 2
        omega
      · rw [if_neg h, if_neg (by omega)]

/-- **C70** `count` is the number of words that begin with the label, from where the file is; the file is then at its
beginning.  A thousand or more make it throw. -/
theorem count_spec (file : Str) (st : Stream) (s : Str) (hg : st.good = true) :
    count file st s = if (hits s (cwords st.rest)).length < 1000 then .ok ((hits s (cwords st.rest)).length, .ofText file)
      else throwOut := by
  unfold count
  rw [countLoop_spec file s 1000 st 0 hg]
  simp only [bind, Except.bind]
  by_cases h : (hits s (cwords st.rest)).length < 1000
  · simp only [h, if_true, Nat.zero_add]
    rfl
  · simp only [h, if_false]

/-! ## Writing and reading -/

/-- What is written to a file: a number with its label, a vector with its label, or a line. -/
inductive Item (α : Type)
  | scalar (label text : Str)
  | vector (label : Str) (xs : List α)
  | line (s : Str)

/-- Writing one item. -/
def Item.write {α : Type} (pr : α → Str) (rank : Nat) (file : Str) : Item α → Out Str
  | .scalar l t => writeScalar rank file l t
  | .vector l xs => writeOther rank file l (vectorText pr xs)
  | .line s => printline rank file s

/-- Writing items one after the other. -/
def writeAll {α : Type} (pr : α → Str) (rank : Nat) (file : Str) (items : List (Item α)) : Out Str :=
  items.foldlM (Item.write pr rank) file

/-- The text of an item. -/
def Item.text {α : Type} (pr : α → Str) : Item α → Str
  | .scalar l t => l ++ '=' :: t ++ ['\n']
  | .vector l xs => l ++ '\n' :: vectorText pr xs ++ ['\n']
  | .line s => s ++ ['\n']

theorem writeAll_eq {α : Type} (pr : α → Str) (items : List (Item α)) (file : Str) :
    writeAll pr 0 file items = .ok (file ++ items.flatMap (Item.text pr)) := by
  induction items generalizing file with
  | nil => simp [writeAll, pure, Except.pure]
  | cons it items ih =>
    unfold writeAll at ih ⊢
    rw [List.foldlM_cons]
    have e : it.write pr 0 file = .ok (file ++ it.text pr) := by
      cases it <;> simp [Item.write, Item.text, writeScalar, writeOther, printline]
    rw [e]
    simp only [bind, Except.bind]
    rw [ih, List.flatMap_cons, List.append_assoc]

theorem text_terminated {α : Type} (pr : α → Str) (items : List (Item α)) :
    items.flatMap (Item.text pr) = [] ∨ ∃ c, (items.flatMap (Item.text pr)).getLast? = some c ∧ isWs c = true := by
  rcases List.eq_nil_or_concat items with rfl | ⟨l, it, rfl⟩
  · left; rfl
  · right
    refine ⟨'\n', ?_, rfl⟩
    rw [List.concat_eq_append, List.flatMap_append]
    cases it <;> simp [Item.text, List.flatMap_cons, List.getLast?_append, List.getLast?_cons]

/-- The words of what was written. -/
def wordsOf {α : Type} (pr : α → Str) (items : List (Item α)) : List Str := cwords (items.flatMap (Item.text pr))

/-- **C70** A number written with a label, among other items, is read back by `readline(x, label + "=", k)` if there are `k`
words before it that begin so. -/
theorem scalar_roundtrip {α X : Type} (pr : α → Str) (parse : Str → X → X) (hp : ∀ t x y, parse t x = parse t y)
    (a b : List (Item α)) (label text : Str) (hl : ∀ c ∈ label, isWs c = false) (ht : ∀ c ∈ text, isWs c = false) (x : X) :
    ∃ file st', writeAll pr 0 [] (a ++ .scalar label text :: b) = .ok file ∧
      readline parse file (.ofText file) x (label ++ ['=']) (hits (label ++ ['=']) (wordsOf pr a)).length =
        .ok (st', parse text x, (hits (label ++ ['=']) (wordsOf pr a)).length) ∧
      cwords st'.rest = wordsOf pr b := by
  have hcw : cwords ((a ++ .scalar label text :: b).flatMap (Item.text pr)) =
      wordsOf pr a ++ (label ++ ['='] ++ text) :: wordsOf pr b := by
    rw [List.flatMap_append, cwords_append _ _ (text_terminated pr a), List.flatMap_cons]
    have : Item.text pr (.scalar label text : Item α) ++ b.flatMap (Item.text pr) =
        (label ++ ['='] ++ text) ++ '\n' :: b.flatMap (Item.text pr) := by
      simp [Item.text]
    rw [this, cwords_token _ '\n' _ (by simp) ?_ rfl, cwords_ws '\n' _ rfl]
    · rfl
    · intro c hc
      simp only [List.mem_append, List.mem_singleton] at hc
      rcases hc with (h | h) | h
      · exact hl c h
      · subst h; rfl
      · exact ht c h
  have hs : label ++ ['='] <+: label ++ ['='] ++ text := List.prefix_append _ _
  obtain ⟨before, w, after, st', h1, h2, h3, h4, _, h6⟩ := readline_level parse hp
    ((a ++ .scalar label text :: b).flatMap (Item.text pr))
    (.ofText ((a ++ .scalar label text :: b).flatMap (Item.text pr))) rfl x (label ++ ['='])
    (hits (label ++ ['=']) (wordsOf pr a)).length (by
      rw [ofText_rest, hcw]
      unfold hits
      rw [List.filter_append, List.length_append]
      have := hits_cons_pos hs (wordsOf pr b)
      unfold hits at this
      rw [this, List.length_cons]
      omega)
  rw [ofText_rest, hcw] at h1
  have huniq : ∀ (p q : List Str) (u v : Str) (p' q' : List Str), p ++ u :: p' = q ++ v :: q' → (label ++ ['=']) <+: u →
      (label ++ ['=']) <+: v → (hits (label ++ ['=']) p).length = (hits (label ++ ['=']) q).length → p = q ∧ u = v ∧ p' = q' := by
    intro p
    induction p with
    | nil =>
      intro q u v p' q' e hu hv hc
      rcases q with _ | ⟨z, q⟩
      · simpa using e
      · simp only [List.nil_append, List.cons_append, List.cons.injEq] at e
        rw [← e.1, hits_cons_pos hu] at hc
        simp [hits] at hc
    | cons y p ih =>
      intro q u v p' q' e hu hv hc
      rcases q with _ | ⟨z, q⟩
      · simp only [List.nil_append, List.cons_append, List.cons.injEq] at e
        rw [e.1, hits_cons_pos hv] at hc
        simp [hits] at hc
      · simp only [List.cons_append, List.cons.injEq] at e
        have hc' : (hits (label ++ ['=']) p).length = (hits (label ++ ['=']) q).length := by
          rw [e.1] at hc
          by_cases hz : (label ++ ['=']) <+: z
          · rw [hits_cons_pos hz, hits_cons_pos hz] at hc
            simpa using hc
          · rwa [hits_cons_neg hz, hits_cons_neg hz] at hc
        obtain ⟨r1, r2, r3⟩ := ih q u v p' q' e.2 hu hv hc'
        exact ⟨by rw [e.1, r1], r2, r3⟩
  obtain ⟨_, e2, e3⟩ := huniq _ _ _ _ _ _ h1 hs h2 h3.symm
  refine ⟨(a ++ .scalar label text :: b).flatMap (Item.text pr), st', by rw [writeAll_eq]; rfl, ?_, ?_⟩
  · rw [h4, ← e2]
    simp only [List.length_append, List.drop_left']
  · rw [h6, ← e3]

/-- An element type whose text can be read back. -/
def Reads {α : Type} (pr : α → Str) (rd : Stream → Stream × α) : Prop :=
  ∀ (a : α) (ws : Str) (c : Char) (r : Str), (∀ x ∈ ws, isWs x = true) → isWs c = true →
    rd ⟨ws ++ pr a ++ c :: r, false, false⟩ = (⟨c :: r, false, false⟩, a)

theorem dropWhile_ws (ws r : Str) (h : ∀ x ∈ ws, isWs x = true) : (ws ++ r).dropWhile isWs = r.dropWhile isWs := by
  induction ws with
  | nil => rfl
  | cons c ws ih =>
    rw [List.cons_append, List.dropWhile_cons, if_pos (h c List.mem_cons_self)]
    exact ih fun x hx => h x (List.mem_cons_of_mem _ hx)

theorem digit_ws {c : Char} (h : Str.isDigit c = true) : isWs c = false := by
  rw [StrUtil.isDigit_iff] at h
  simp only [List.mem_cons, List.not_mem_nil, or_false] at h
  rcases h with h | h | h | h | h | h | h | h | h | h <;> subst h <;> decide

theorem takeWhile_stop {p : Char → Bool} (l : Str) (c : Char) (r : Str) (h : ∀ x ∈ l, p x = true) (hc : p c = false) :
    (l ++ c :: r).takeWhile p = l ∧ (l ++ c :: r).dropWhile p = c :: r := by
  induction l with
  | nil => simp [hc]
  | cons a l ih =>
    obtain ⟨h1, h2⟩ := ih fun x hx => h x (List.mem_cons_of_mem _ hx)
    simp [h a List.mem_cons_self, h1, h2]

theorem ofDigitChars_toDigits (n : Nat) : Nat.ofDigitChars 10 (Nat.toDigits 10 n) 0 = n := by
  simp [Nat.ofDigitChars_toDigits]

/-- Reading a number that was printed. -/
theorem readInt_digits (n : Nat) (hn : n ≤ 2147483647) (ws : Str) (c : Char) (r : Str) (hw : ∀ x ∈ ws, isWs x = true)
    (hc : isWs c = true) :
    readInt ⟨ws ++ Nat.toDigits 10 n ++ c :: r, false, false⟩ = (⟨c :: r, false, false⟩, some (n : Int)) := by
  unfold readInt
  rw [if_pos (by rfl)]
  simp only
  rw [List.append_assoc, dropWhile_ws ws _ hw]
  rcases hd : Nat.toDigits 10 n with _ | ⟨d, ds⟩
  · have := Labels.toDigits_pos n
    rw [hd] at this
    simp at this
  · have hdig : ∀ x ∈ d :: ds, Str.isDigit x = true := by
      intro x hx
      rw [← hd] at hx
      exact StrUtil.isDigit_toDigits n x hx
    have hd0 := hdig d List.mem_cons_self
    rw [List.cons_append, List.dropWhile_cons, if_neg (by simp [digit_ws hd0])]
    have hcd : Str.isDigit c = false := by
      by_contra h
      have := digit_ws (by simpa using h)
      rw [this] at hc
      cases hc
    have hm : d ≠ '-' ∧ d ≠ '+' := by
      constructor <;> (rintro rfl; revert hd0; decide)
    simp only [hm.1, hm.2, or_self, if_false]
    obtain ⟨t1, t2⟩ := takeWhile_stop (d :: ds) c r hdig hcd
    rw [List.cons_append] at t1 t2
    rw [t1, t2]
    have hneg : (d == '-') = false := by simpa using hm.1
    rw [if_neg (List.cons_ne_nil _ _), hneg, ← hd, ofDigitChars_toDigits]
    simp only [Bool.false_eq_true, if_false]
    rw [if_neg (by omega), if_neg (by omega)]
    rfl

theorem readElems_written {α : Type} {pr : α → Str} {rd : Stream → Stream × α} (h : Reads pr rd) (xs : List α) (tail : Str) :
    ∃ c, isWs c = true ∧ ∃ r, readElems rd xs.length ⟨'\n' :: (xs.flatMap fun x => pr x ++ ['\n']) ++ tail, false, false⟩ =
      (⟨c :: r, false, false⟩, xs) ∧ c :: r = '\n' :: tail := by
  refine ⟨'\n', rfl, tail, ?_, rfl⟩
  induction xs with
  | nil => rfl
  | cons x xs ih =>
    simp only [List.length_cons, readElems]
    have e : ('\n' :: ((x :: xs).flatMap fun x => pr x ++ ['\n'])) ++ tail =
        ['\n'] ++ pr x ++ '\n' :: ((xs.flatMap fun x => pr x ++ ['\n']) ++ tail) := by simp
    rw [e, h x ['\n'] '\n' _ (by simp; rfl) rfl]
    simp only
    rw [List.cons_append] at ih
    rw [ih]

/-- **C70** A vector that is not empty, written with a label among other items, is read back by `read(x, label, k)` if there
are `k` words before it that begin with the label. -/
theorem vector_roundtrip {α : Type} {pr : α → Str} {rd : Stream → Stream × α} (hr : Reads pr rd) (a b : List (Item α))
    (label : Str) (hl : ∀ c ∈ label, isWs c = false) (hne : label ≠ []) (xs : List α) (hx : xs ≠ [])
    (hlen : xs.length ≤ 2147483647) (x : List α) :
    ∃ file st', writeAll pr 0 [] (a ++ .vector label xs :: b) = .ok file ∧
      readVector rd file (.ofText file) x label (hits label (wordsOf pr a)).length = .ok (st', xs) := by
  refine ⟨(a ++ .vector label xs :: b).flatMap (Item.text pr), ⟨'\n' :: '\n' :: b.flatMap (Item.text pr), false, false⟩,
    by rw [writeAll_eq]; rfl, ?_⟩
  have htext : (a ++ .vector label xs :: b).flatMap (Item.text pr) = a.flatMap (Item.text pr) ++ (label ++
      '\n' :: (vectorText pr xs ++ '\n' :: b.flatMap (Item.text pr))) := by
    rw [List.flatMap_append, List.flatMap_cons]
    simp [Item.text]
  have hadv : ∀ (k : Nat) (fuel : Nat) (t : Str) (temp saved : Str) (counter : Nat),
      (t = [] ∨ ∃ c, t.getLast? = some c ∧ isWs c = true) →
      (t ++ (label ++ '\n' :: (vectorText pr xs ++ '\n' :: b.flatMap (Item.text pr)))).length < fuel →
      k = counter + (hits label (cwords t)).length →
      advLoop label k fuel ⟨t ++ (label ++ '\n' :: (vectorText pr xs ++ '\n' :: b.flatMap (Item.text pr))), false, false⟩ temp
        saved counter = some (⟨'\n' :: (vectorText pr xs ++ '\n' :: b.flatMap (Item.text pr)), false, false⟩, label, true, k) := by
    intro k fuel
    generalize vectorText pr xs ++ '\n' :: b.flatMap (Item.text pr) = rest
    induction fuel with
    | zero => intro t temp saved counter _ h; omega
    | succ fuel ih =>
      intro t temp saved counter ht hf hk
      have hcw : cwords (t ++ (label ++ '\n' :: rest)) = cwords t ++ label :: cwords ('\n' :: rest) := by
        rw [cwords_append _ _ ht, cwords_token label '\n' rest hne hl rfl]
      unfold advLoop
      rw [if_neg (by simp)]
      -- the next word
      have e0 : t = t.takeWhile isWs ++ t.dropWhile isWs := (List.takeWhile_append_dropWhile).symm
      have hp : ∀ c ∈ t.takeWhile isWs, isWs c = true := by
        intro y hy
        exact (List.all_takeWhile (p := isWs) (l := t) |> List.all_eq_true.mp) y hy
      rcases hd : t.dropWhile isWs with _ | ⟨d, t'⟩
      · -- only white space is left before the label
        rw [hd, List.append_nil] at e0
        have ht0 : cwords t = [] := by
          have := cwords_wss t [] (by rw [e0]; exact hp)
          rw [List.append_nil] at this
          rw [this, cwords_nil]
        rw [ht0] at hk
        have hrw : readWord ⟨t ++ (label ++ '\n' :: rest), false, false⟩ temp = (⟨'\n' :: rest, false, false⟩, label) := by
          unfold readWord
          rw [if_pos (by rfl)]
          simp only
          rw [dropWhile_ws t _ (by rw [e0]; exact hp)]
          obtain ⟨t1, t2⟩ := takeWhile_stop (p := fun c => !isWs c) label '\n' rest (by
            intro y hy
            simp [hl y hy]) rfl
          rcases hlab : label with _ | ⟨l0, ls⟩
          · exact absurd hlab hne
          · have hl0 : isWs l0 = false := hl l0 (by rw [hlab]; exact List.mem_cons_self)
            rw [hlab] at t1 t2
            rw [List.cons_append] at t1 t2 ⊢
            rw [List.dropWhile_cons, if_neg (by simp [hl0])]
            simp only [t1, t2]
            rfl
        rw [hrw]
        simp only [Stream.good, Bool.not_false, Bool.and_self, Bool.not_true, Bool.false_eq_true, if_false, List.take_length,
          if_true]
        rw [if_pos ⟨by omega, by rw [hk]; simp [hits]⟩]
        congr 3
        rw [hk]
        simp [hits]
      · -- a word of `t`
        have hd' : isWs d = false := by
          have := List.head?_dropWhile_not isWs t
          rw [hd] at this
          simpa using this
        have e : d :: t' = (d :: t').takeWhile (fun c => !isWs c) ++ (d :: t').dropWhile fun c => !isWs c :=
          (List.takeWhile_append_dropWhile).symm
        have hwne : (d :: t').takeWhile (fun c => !isWs c) ≠ [] := by simp [List.takeWhile_cons, hd']
        have hwn : ∀ x ∈ (d :: t').takeWhile (fun c => !isWs c), isWs x = false := by
          intro y hy
          simpa using (List.all_takeWhile (p := fun c => !isWs c) (l := d :: t') |> List.all_eq_true.mp) y hy
        rw [hd] at e0
        generalize (d :: t').takeWhile (fun c => !isWs c) = w at *
        generalize t.takeWhile isWs = pre at *
        rcases hr2 : (d :: t').dropWhile (fun c => !isWs c) with _ | ⟨f, r⟩
        · -- impossible: `t` ends with white space
          exfalso
          rw [hr2, List.append_nil] at e
          rcases ht with ht | ⟨c, hc1, hc2⟩
          · rw [ht] at e0
            simp at e0
          · rw [e0, e, List.getLast?_append_of_ne_nil _ hwne] at hc1
            have := hwn c (List.mem_of_getLast? hc1)
            rw [this] at hc2
            cases hc2
        · have hf' : isWs f = true := by
            have := List.head?_dropWhile_not (fun c => !isWs c) (d :: t')
            rw [hr2] at this
            simpa using this
          rw [hr2] at e
          have hrw : readWord ⟨t ++ (label ++ '\n' :: rest), false, false⟩ temp =
              (⟨(f :: r) ++ (label ++ '\n' :: rest), false, false⟩, w) := by
            unfold readWord
            rw [if_pos (by rfl)]
            simp only
            rw [e0, List.append_assoc, dropWhile_ws pre _ hp, e]
            obtain ⟨t1, t2⟩ := takeWhile_stop (p := fun c => !isWs c) w f (r ++ (label ++ '\n' :: rest)) (by
              intro y hy
              simp [hwn y hy]) (by simp [hf'])
            rcases hw : w with _ | ⟨w0, ws⟩
            · exact absurd hw hwne
            · have hw0 : isWs w0 = false := hwn w0 (by rw [hw]; exact List.mem_cons_self)
              rw [hw] at t1 t2
              rw [List.append_assoc, List.cons_append] at *
              rw [List.cons_append] at *
              rw [List.dropWhile_cons, if_neg (by simp [hw0])]
              simp only [List.cons_append, t1, t2]
              rfl
          have hct : cwords t = w :: cwords (f :: r) := by
            rw [e0, cwords_wss pre _ hp, e, cwords_token w f r hwne hwn hf']
          have hterm : f :: r = [] ∨ ∃ c, (f :: r).getLast? = some c ∧ isWs c = true := by
            right
            rcases ht with ht | ⟨c, hc1, hc2⟩
            · rw [ht] at e0
              simp at e0
            · refine ⟨c, ?_, hc2⟩
              rw [e0, e, ← List.append_assoc, List.getLast?_append_of_ne_nil _ (List.cons_ne_nil _ _)] at hc1
              exact hc1
          have hlen2 : ((f :: r) ++ (label ++ '\n' :: rest)).length < fuel := by
            have h1 : 0 < w.length := List.length_pos_iff.mpr hwne
            rw [e0, e] at hf
            simp only [List.length_append, List.length_cons] at hf ⊢
            omega
          rw [hrw]
          simp only [Stream.good, Bool.not_false, Bool.and_self, Bool.not_true, Bool.false_eq_true, if_false, take_prefix]
          by_cases hs : label <+: w
          · rw [hct, hits_cons_pos hs, List.length_cons] at hk
            rw [if_pos hs, if_neg (by omega)]
            exact ih (f :: r) w w (counter + 1) hterm hlen2 (by omega)
          · rw [hct, hits_cons_neg hs] at hk
            rw [if_neg hs]
            exact ih (f :: r) w saved counter hterm hlen2 hk
  unfold readVector advance
  rw [if_neg (by omega)]
  unfold advanceTo
  have := hadv (hits label (wordsOf pr a)).length
    ((a ++ .vector label xs :: b).flatMap (Item.text pr)).length.succ (a.flatMap (Item.text pr)) notFound notFound 0
    (text_terminated pr a) (by rw [htext]; exact Nat.lt_succ_self _) (by simp [wordsOf])
  rw [← htext] at this
  rw [show (Stream.ofText ((a ++ .vector label xs :: b).flatMap (Item.text pr))) =
    ⟨(a ++ .vector label xs :: b).flatMap (Item.text pr), false, false⟩ from rfl]
  simp only
  rw [show ((a ++ .vector label xs :: b).flatMap (Item.text pr)).length + 1 =
    ((a ++ .vector label xs :: b).flatMap (Item.text pr)).length.succ from rfl, this]
  simp only [Bool.not_true, Bool.false_and, Bool.false_eq_true, if_false, bind, Except.bind]
  have hri := readInt_digits xs.length hlen ['\n'] '\n'
    ((xs.flatMap fun x => pr x ++ ['\n']) ++ '\n' :: b.flatMap (Item.text pr)) (by simp; rfl) rfl
  have e3 : '\n' :: (vectorText pr xs ++ '\n' :: b.flatMap (Item.text pr)) = ['\n'] ++ Nat.toDigits 10 xs.length ++
      '\n' :: ((xs.flatMap fun x => pr x ++ ['\n']) ++ '\n' :: b.flatMap (Item.text pr)) := by
    simp [vectorText]
  rw [e3, hri]
  have hpos : 0 < xs.length := List.length_pos_iff.mpr hx
  simp only
  rw [if_neg (by omega), if_neg (by omega)]
  obtain ⟨c, _, r, h1, h2⟩ := readElems_written hr xs ('\n' :: b.flatMap (Item.text pr))
  rw [List.cons_append] at h1
  rw [Int.toNat_natCast, h1, h2]
  rfl

/-- Numbers that fit. -/
abbrev Small := { n : Nat // n ≤ 2147483647 }

/-- The numbers can be read back: `Reads` is met. -/
theorem reads_nat : Reads (fun n : Small => Nat.toDigits 10 n.1) (fun st =>
    let r := readInt st
    (r.1, ⟨min (r.2.getD 0).toNat 2147483647, Nat.min_le_right _ _⟩)) := by
  intro a ws c r hw hc
  simp only
  rw [readInt_digits a.1 a.2 ws c r hw hc]
  congr 1
  apply Subtype.ext
  simp [a.2]

/-- **C70** The vector that `read` with `LAST_INSTANCE` returns is not the last: with two of them it is the first. -/
theorem vector_last_fails :
    readVector (fun st => let r := readInt st; (r.1, r.2.getD 0)) "v\n1\n5\n\nv\n1\n7\n\n".toList
      (.ofText "v\n1\n5\n\nv\n1\n7\n\n".toList) [] "v".toList (-1) = .ok (⟨"\n\nv\n1\n7\n\n".toList, false, false⟩, [5]) := by
  decide +kernel

/-- **C70** With a single instance the file is left at its beginning, where the label is taken for the size. -/
theorem vector_last_single_fails :
    readVector (fun st => let r := readInt st; (r.1, r.2.getD 0)) "v\n1\n5\n\n".toList (.ofText "v\n1\n5\n\n".toList) []
      "v".toList (-1) = .ok (⟨"v\n1\n5\n\n".toList, false, true⟩, []) := by
  decide +kernel

/-- **C70** An instance that does not exist is not refused if there is another: the size is then not initialized. -/
theorem vector_level_fails :
    readVector (fun st => let r := readInt st; (r.1, r.2.getD 0)) "v\n1\n5\n\n".toList (.ofText "v\n1\n5\n\n".toList) []
      "v".toList 1 = ubOut := by
  decide +kernel

/-- **C70** Reading an empty vector leaves the old elements. -/
theorem vector_empty_fails :
    writeAll (α := Nat) (Nat.toDigits 10) 0 [] [.vector "v".toList []] = .ok "v\n0\n\n".toList ∧
    readVector (fun st => let r := readInt st; (r.1, r.2.getD 0)) "v\n0\n\n".toList (.ofText "v\n0\n\n".toList) [3, 4]
      "v".toList 0 = .ok (⟨"\n\n".toList, false, false⟩, [3, 4]) := by
  decide +kernel

/-- **C70** Ranks other than 0 write nothing, except that writing a number follows a null pointer. -/
theorem write_rank {α : Type} (pr : α → Str) (rank : Nat) (h : rank ≠ 0) (file label text : Str) (xs : List α) :
    (Item.vector label xs).write pr rank file = .ok file ∧ (Item.line text : Item α).write pr rank file = .ok file := by
  simp [Item.write, writeOther, printline, h]

theorem write_rank_fails : writeScalar 1 [] "a".toList "1".toList = ubOut := by decide

/-! ## Instances -/

example : cwords "a=1 b\n  c".toList = ["a=1".toList, "b".toList] := by decide +kernel

example : hits "a=".toList (cwords "a=1 b=2 a=3\n".toList) = ["a=1".toList, "a=3".toList] := by decide +kernel

example : readline digitParse "a=1 b=2 a=3\n".toList (.ofText "a=1 b=2 a=3\n".toList) 0 "a=".toList 1 =
    .ok (⟨"\n".toList, false, false⟩, 3, 1) := by decide +kernel

example : count "a=1 b=2 a=3\n".toList (.ofText "a=1 b=2 a=3\n".toList) "a=".toList =
    .ok (2, .ofText "a=1 b=2 a=3\n".toList) := by decide +kernel

example : ∀ t x y, digitParse t x = digitParse t y := fun _ _ _ => rfl

end Verif.IoSimple
