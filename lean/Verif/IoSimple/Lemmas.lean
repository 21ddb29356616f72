import Verif.IoSimple.Model
import Verif.Util.Str

namespace Verif.IoSimple

/-! ## Vocabulary of the property theorems -/

/-- The words of a text that are followed by white space: those before its last white space. -/
def cwords (s : Str) : List Str := (s.splitOnP isWs).dropLast.filter (· ≠ [])

/-- The words that begin with `s`. -/
def hits (s : Str) (ws : List Str) : List Str := ws.filter fun w => decide (s <+: w)

/-! ## Words -/

theorem cwords_nil : cwords [] = [] := by simp [cwords]

/-- White space is the blank and the characters from tab to carriage return. -/
theorem isWs_iff (c : Char) : isWs c = true ↔ c.toNat = 32 ∨ (9 ≤ c.toNat ∧ c.toNat ≤ 13) := by
  have key : ∀ d : Char, c = d ↔ c.toNat = d.toNat := fun d => ⟨fun h => by rw [h], fun h => Char.toNat_inj.1 h⟩
  unfold isWs
  rw [decide_eq_true_eq]
  simp only [key]
  rw [show (' ' : Char).toNat = 32 by decide, show ('\t' : Char).toNat = 9 by decide, show ('\n' : Char).toNat = 10 by decide,
    show ('\x0b' : Char).toNat = 11 by decide, show ('\x0c' : Char).toNat = 12 by decide, show ('\r' : Char).toNat = 13 by decide]
  omega

theorem cwords_ws (c : Char) (s : Str) (h : isWs c = true) : cwords (c :: s) = cwords s := by
  unfold cwords
  have hne : s.splitOnP isWs ≠ [] := List.splitOnP_ne_nil _ _
  rw [List.splitOnP_cons, if_pos h, List.dropLast_cons_of_ne_nil hne]
  simp

theorem cwords_wss (pre s : Str) (h : ∀ c ∈ pre, isWs c = true) : cwords (pre ++ s) = cwords s := by
  induction pre with
  | nil => rfl
  | cons c pre ih =>
    rw [List.cons_append, cwords_ws c _ (h c List.mem_cons_self)]
    exact ih fun x hx => h x (List.mem_cons_of_mem _ hx)

theorem cwords_token (w : Str) (c : Char) (s : Str) (hw : w ≠ []) (hn : ∀ x ∈ w, isWs x = false) (hc : isWs c = true) :
    cwords (w ++ c :: s) = w :: cwords (c :: s) := by
  have hne : s.splitOnP isWs ≠ [] := List.splitOnP_ne_nil _ _
  rw [cwords_ws c s hc]
  unfold cwords
  rw [Str.splitOnP_token_delim isWs w hn c hc, List.dropLast_cons_of_ne_nil hne, List.filter_cons]
  simp [hw]

theorem cwords_token_end (w : Str) (hn : ∀ x ∈ w, isWs x = false) : cwords w = [] := by
  unfold cwords
  rw [Str.splitOnP_token isWs w hn]
  rfl

/-- A text of complete words followed by another. -/
theorem cwords_append (a b : Str) (h : a = [] ∨ ∃ c, a.getLast? = some c ∧ isWs c = true) :
    cwords (a ++ b) = cwords a ++ cwords b := by
  rcases h with rfl | ⟨c, hc, hw⟩
  · simp [cwords_nil]
  · obtain ⟨a', rfl⟩ : ∃ a', a = a' ++ [c] := by
      rw [List.getLast?_eq_some_iff] at hc
      exact hc
    clear hc
    have key : ∀ (n : Nat) (a' : Str), a'.length ≤ n → cwords (a' ++ c :: b) = cwords (a' ++ [c]) ++ cwords b := by
      intro n
      induction n with
      | zero =>
        intro a' hl
        have : a' = [] := List.length_eq_zero_iff.mp (by omega)
        subst this
        rw [List.nil_append, List.nil_append, cwords_ws c b hw, cwords_ws c [] hw, cwords_nil]
        rfl
      | succ n ih =>
        intro a' hl
        rcases a' with _ | ⟨d, a'⟩
        · rw [List.nil_append, List.nil_append, cwords_ws c b hw, cwords_ws c [] hw, cwords_nil]
          rfl
        · by_cases hd : isWs d = true
          · rw [List.cons_append, List.cons_append, cwords_ws d _ hd, cwords_ws d _ hd]
            exact ih a' (by simpa using hl)
          · have hd' : isWs d = false := by simpa using hd
            have e : d :: a' = (d :: a').takeWhile (fun c => !isWs c) ++ (d :: a').dropWhile fun c => !isWs c :=
              (List.takeWhile_append_dropWhile).symm
            have hwne : (d :: a').takeWhile (fun c => !isWs c) ≠ [] := by simp [List.takeWhile_cons, hd']
            have hwn : ∀ x ∈ (d :: a').takeWhile (fun c => !isWs c), isWs x = false := by
              intro x hx
              simpa using (List.all_takeWhile (p := fun c => !isWs c) (l := d :: a') |> List.all_eq_true.mp) x hx
            generalize (d :: a').takeWhile (fun c => !isWs c) = w at *
            rcases hr : (d :: a').dropWhile (fun c => !isWs c) with _ | ⟨f, r⟩
            · rw [hr, List.append_nil] at e
              rw [e, cwords_token w c b hwne hwn hw, cwords_token w c [] hwne hwn hw, cwords_ws c b hw, cwords_ws c [] hw,
                cwords_nil]
              rfl
            · have hf : isWs f = true := by
                have := List.head?_dropWhile_not (fun c => !isWs c) (d :: a')
                rw [hr] at this
                simpa using this
              rw [hr] at e
              have hlen : (f :: r).length ≤ n := by
                have := congrArg List.length e
                have h1 : 0 < w.length := List.length_pos_iff.mpr hwne
                simp only [List.length_cons, List.length_append] at this hl ⊢
                omega
              rw [e, List.append_assoc, List.append_assoc, List.cons_append, List.cons_append,
                cwords_token w f _ hwne hwn hf, cwords_token w f _ hwne hwn hf]
              have := ih (f :: r) hlen
              rw [List.cons_append, List.cons_append] at this
              rw [this]
              rfl
    rw [List.append_assoc]
    exact key a'.length a' le_rfl

theorem readWord_step (st : Stream) (temp : Str) (hg : st.good = true) :
    (cwords st.rest = [] ∧ (readWord st temp).1.eof = true) ∨
    ∃ pre w r, readWord st temp = (⟨r, false, false⟩, w) ∧ st.rest = pre ++ w ++ r ∧ cwords pre = [] ∧
      (∃ c r', r = c :: r' ∧ isWs c = true) ∧ cwords st.rest = w :: cwords r ∧ r.length < st.rest.length := by
  unfold readWord
  rw [if_pos hg]
  have e0 : st.rest = st.rest.takeWhile isWs ++ st.rest.dropWhile isWs := (List.takeWhile_append_dropWhile).symm
  have hp : ∀ c ∈ st.rest.takeWhile isWs, isWs c = true := by
    intro x hx
    exact (List.all_takeWhile (p := isWs) (l := st.rest) |> List.all_eq_true.mp) x hx
  have hcw : cwords (st.rest.takeWhile isWs) = [] := by
    have := cwords_wss (st.rest.takeWhile isWs) [] hp
    rw [List.append_nil] at this
    rw [this, cwords_nil]
  rcases hr : st.rest.dropWhile isWs with _ | ⟨d, a'⟩
  · left
    rw [hr, List.append_nil] at e0
    refine ⟨?_, rfl⟩
    rw [e0]
    exact hcw
  · have hd' : isWs d = false := by
      have := List.head?_dropWhile_not isWs st.rest
      rw [hr] at this
      simpa using this
    have e : d :: a' = (d :: a').takeWhile (fun c => !isWs c) ++ (d :: a').dropWhile fun c => !isWs c :=
      (List.takeWhile_append_dropWhile).symm
    have hwne : (d :: a').takeWhile (fun c => !isWs c) ≠ [] := by simp [List.takeWhile_cons, hd']
    have hwn : ∀ x ∈ (d :: a').takeWhile (fun c => !isWs c), isWs x = false := by
      intro x hx
      simpa using (List.all_takeWhile (p := fun c => !isWs c) (l := d :: a') |> List.all_eq_true.mp) x hx
    rw [hr] at e0
    simp only
    generalize (d :: a').takeWhile (fun c => !isWs c) = w at *
    generalize st.rest.takeWhile isWs = pre at *
    rcases hr2 : (d :: a').dropWhile (fun c => !isWs c) with _ | ⟨f, r⟩
    · left
      rw [hr2, List.append_nil] at e
      refine ⟨?_, rfl⟩
      rw [e0, cwords_wss pre _ hp, e, cwords_token_end w hwn]
    · right
      have hf : isWs f = true := by
        have := List.head?_dropWhile_not (fun c => !isWs c) (d :: a')
        rw [hr2] at this
        simpa using this
      rw [hr2] at e
      refine ⟨pre, w, f :: r, rfl, ?_, hcw, ⟨f, r, rfl, hf⟩, ?_, ?_⟩
      · rw [e0, e, List.append_assoc]
      · rw [e0, cwords_wss pre _ hp, e, cwords_token w f r hwne hwn hf]
      · have h1 : 0 < w.length := List.length_pos_iff.mpr hwne
        rw [e0, e]
        simp only [List.length_append, List.length_cons]
        omega

theorem take_prefix (s w : Str) : w.take s.length = s ↔ s <+: w := by
  rw [List.prefix_iff_eq_take]
  exact eq_comm

/-! ## The loops -/

/-- The value after the words `ws`. -/
def parseAll {X : Type} (parse : Str → X → X) (s : Str) (ws : List Str) (x : X) : X :=
  ws.foldl (fun x w => parse (w.drop s.length) x) x

theorem hits_cons_pos {s w : Str} (h : s <+: w) (ws : List Str) : hits s (w :: ws) = w :: hits s ws := by
  simp [hits, List.filter_cons, h]

theorem hits_cons_neg {s w : Str} (h : ¬ s <+: w) (ws : List Str) : hits s (w :: ws) = hits s ws := by
  simp [hits, List.filter_cons, h]

theorem rlLoop_found {X : Type} (parse : Str → X → X) (s : Str) (k : Nat) : ∀ (fuel : Nat) (st : Stream) (temp : Str) (x : X)
    (once : Bool) (counter : Nat), st.good = true → st.rest.length < fuel → counter ≤ k →
    k - counter < (hits s (cwords st.rest)).length →
    ∃ pre w r, st.rest = pre ++ w ++ r ∧ (∃ c r', r = c :: r' ∧ isWs c = true) ∧ s <+: w ∧
      (∃ before, cwords st.rest = before ++ w :: cwords r ∧ (hits s before).length = k - counter ∧
        rlLoop parse s k fuel st temp x once counter =
          some (⟨r, false, false⟩, parse (w.drop s.length) (parseAll parse s (hits s before) x), true, true, k)) := by
  intro fuel
  induction fuel with
  | zero => intro st temp x once counter _ h; omega
  | succ fuel ih =>
    intro st temp x once counter hg hf hk hh
    have hne : st.eof = false := by
      simp only [Stream.good, Bool.and_eq_true, Bool.not_eq_true'] at hg
      exact hg.1
    rcases readWord_step st temp hg with ⟨he, _⟩ | ⟨pre, w, r, hr, hsplit, hpre, hc, hcw, hlen⟩
    · rw [he] at hh
      simp [hits] at hh
    · by_cases hs : s <+: w
      · rw [hcw, hits_cons_pos hs] at hh
        by_cases hkc : counter = k
        · refine ⟨pre, w, r, hsplit, hc, hs, [], by rw [hcw]; rfl, by simp [hits, hkc], ?_⟩
          unfold rlLoop
          rw [if_neg (by simp [hne]), hr]
          simp only [Bool.false_eq_true, if_false, take_prefix, hs, if_true, hkc]
          rw [if_pos ⟨by omega, trivial⟩]
          rfl
        · obtain ⟨pre2, w2, r2, h1, h2, h3, before, h4, h5, h6⟩ := ih ⟨r, false, false⟩ w (parse (w.drop s.length) x) true
            (counter + 1) rfl (by simp only; omega) (by omega) (by simp only [List.length_cons] at hh; simp only; omega)
          refine ⟨pre ++ w ++ pre2, w2, r2, ?_, h2, h3, w :: before, ?_, ?_, ?_⟩
          · rw [hsplit]
            simp only at h1
            rw [h1]
            simp only [List.append_assoc]
          · rw [hcw, h4]; rfl
          · rw [hits_cons_pos hs, List.length_cons, h5]; omega
          · unfold rlLoop
            rw [if_neg (by simp [hne]), hr]
            simp only [Bool.false_eq_true, if_false, take_prefix, hs, if_true]
            rw [if_neg (by omega), h6, hits_cons_pos hs]
            rfl
      · rw [hcw, hits_cons_neg hs] at hh
        obtain ⟨pre2, w2, r2, h1, h2, h3, before, h4, h5, h6⟩ := ih ⟨r, false, false⟩ w x once counter rfl
          (by simp only; omega) hk hh
        refine ⟨pre ++ w ++ pre2, w2, r2, ?_, h2, h3, w :: before, ?_, ?_, ?_⟩
        · rw [hsplit]
          simp only at h1
          rw [h1]
          simp only [List.append_assoc]
        · rw [hcw, h4]; rfl
        · rw [hits_cons_neg hs, h5]
        · unfold rlLoop
          rw [if_neg (by simp [hne]), hr]
          simp only [Bool.false_eq_true, if_false, take_prefix, hs]
          rw [h6, hits_cons_neg hs]

theorem rlLoop_end {X : Type} (parse : Str → X → X) (s : Str) (level : Int) : ∀ (fuel : Nat) (st : Stream) (temp : Str) (x : X)
    (once : Bool) (counter : Nat), st.good = true → st.rest.length < fuel →
    (level < 0 ∨ counter + ((hits s (cwords st.rest)).length : Int) ≤ level) →
    ∃ st', st'.eof = true ∧ rlLoop parse s level fuel st temp x once counter =
      some (st', parseAll parse s (hits s (cwords st.rest)) x, false, once || !(hits s (cwords st.rest)).isEmpty,
        counter + (hits s (cwords st.rest)).length) := by
  intro fuel
  induction fuel with
  | zero => intro st temp x once counter _ h; omega
  | succ fuel ih =>
    intro st temp x once counter hg hf hl
    have hne : st.eof = false := by
      simp only [Stream.good, Bool.and_eq_true, Bool.not_eq_true'] at hg
      exact hg.1
    rcases readWord_step st temp hg with ⟨he, heof⟩ | ⟨pre, w, r, hr, hsplit, hpre, hc, hcw, hlen⟩
    · refine ⟨(readWord st temp).1, heof, ?_⟩
      unfold rlLoop
      rw [if_neg (by simp [hne])]
      simp only [heof, if_true, he]
      simp [hits, parseAll]
    · by_cases hs : s <+: w
      · rw [hcw, hits_cons_pos hs] at hl ⊢
        simp only [List.length_cons] at hl
        obtain ⟨st', h1, h2⟩ := ih ⟨r, false, false⟩ w (parse (w.drop s.length) x) true (counter + 1) rfl
          (by simp only; omega) (by rcases hl with h | h; exact Or.inl h; right; push_cast at h ⊢; omega)
        refine ⟨st', h1, ?_⟩
        unfold rlLoop
        rw [if_neg (by simp [hne]), hr]
        simp only [Bool.false_eq_true, if_false, take_prefix, hs, if_true]
        rw [if_neg (by rcases hl with h | h; omega; push_cast at h; omega), h2]
        simp only [Bool.true_or, List.isEmpty_cons, Bool.not_false, Bool.or_true, List.length_cons]
        rw [show counter + 1 + (hits s (cwords r)).length = counter + ((hits s (cwords r)).length + 1) by omega]
        rfl
      · rw [hcw, hits_cons_neg hs] at hl ⊢
        obtain ⟨st', h1, h2⟩ := ih ⟨r, false, false⟩ w x once counter rfl (by simp only; omega) hl
        refine ⟨st', h1, ?_⟩
        unfold rlLoop
        rw [if_neg (by simp [hne]), hr]
        simp only [Bool.false_eq_true, if_false, take_prefix, hs]
        rw [h2]

theorem advLoop_found (s : Str) (k : Nat) : ∀ (fuel : Nat) (st : Stream) (temp saved : Str) (counter : Nat),
    st.good = true → st.rest.length < fuel → counter ≤ k → k - counter < (hits s (cwords st.rest)).length →
    ∃ pre w r, st.rest = pre ++ w ++ r ∧ (∃ c r', r = c :: r' ∧ isWs c = true) ∧ s <+: w ∧
      (∃ before, cwords st.rest = before ++ w :: cwords r ∧ (hits s before).length = k - counter ∧
        advLoop s k fuel st temp saved counter = some (⟨r, false, false⟩, w, true, k)) := by
  intro fuel
  induction fuel with
  | zero => intro st temp saved counter _ h; omega
  | succ fuel ih =>
    intro st temp saved counter hg hf hk hh
    have hne : st.eof = false := by
      simp only [Stream.good, Bool.and_eq_true, Bool.not_eq_true'] at hg
      exact hg.1
    rcases readWord_step st temp hg with ⟨he, _⟩ | ⟨pre, w, r, hr, hsplit, hpre, hc, hcw, hlen⟩
    · rw [he] at hh
      simp [hits] at hh
    · by_cases hs : s <+: w
      · rw [hcw, hits_cons_pos hs] at hh
        by_cases hkc : counter = k
        · refine ⟨pre, w, r, hsplit, hc, hs, [], by rw [hcw]; rfl, by simp [hits, hkc], ?_⟩
          unfold advLoop
          rw [if_neg (by simp [hne]), hr]
          simp only [Stream.good, Bool.not_false, Bool.and_self, Bool.not_true, Bool.false_eq_true, if_false, take_prefix, hs,
            if_true, hkc]
          rw [if_pos ⟨by omega, trivial⟩]
        · obtain ⟨pre2, w2, r2, h1, h2, h3, before, h4, h5, h6⟩ := ih ⟨r, false, false⟩ w w
            (counter + 1) rfl (by simp only; omega) (by omega) (by simp only [List.length_cons] at hh; simp only; omega)
          refine ⟨pre ++ w ++ pre2, w2, r2, ?_, h2, h3, w :: before, ?_, ?_, ?_⟩
          · rw [hsplit]
            simp only at h1
            rw [h1]
            simp only [List.append_assoc]
          · rw [hcw, h4]; rfl
          · rw [hits_cons_pos hs, List.length_cons, h5]; omega
          · unfold advLoop
            rw [if_neg (by simp [hne]), hr]
            simp only [Stream.good, Bool.not_false, Bool.and_self, Bool.not_true, Bool.false_eq_true, if_false, take_prefix, hs,
              if_true]
            rw [if_neg (by omega), h6]
      · rw [hcw, hits_cons_neg hs] at hh
        obtain ⟨pre2, w2, r2, h1, h2, h3, before, h4, h5, h6⟩ := ih ⟨r, false, false⟩ w saved counter rfl
          (by simp only; omega) hk hh
        refine ⟨pre ++ w ++ pre2, w2, r2, ?_, h2, h3, w :: before, ?_, ?_, ?_⟩
        · rw [hsplit]
          simp only at h1
          rw [h1]
          simp only [List.append_assoc]
        · rw [hcw, h4]; rfl
        · rw [hits_cons_neg hs, h5]
        · unfold advLoop
          rw [if_neg (by simp [hne]), hr]
          simp only [Stream.good, Bool.not_false, Bool.and_self, Bool.not_true, Bool.false_eq_true, if_false, take_prefix, hs]
          rw [h6]

theorem advLoop_end (s : Str) (level : Int) : ∀ (fuel : Nat) (st : Stream) (temp saved : Str) (counter : Nat),
    st.good = true → st.rest.length < fuel → (level < 0 ∨ counter + ((hits s (cwords st.rest)).length : Int) ≤ level) →
    ∃ st', st'.good = false ∧ advLoop s level fuel st temp saved counter =
      some (st', ((hits s (cwords st.rest)).getLast?).getD saved, false, counter + (hits s (cwords st.rest)).length) := by
  intro fuel
  induction fuel with
  | zero => intro st temp saved counter _ h; omega
  | succ fuel ih =>
    intro st temp saved counter hg hf hl
    have hne : st.eof = false := by
      simp only [Stream.good, Bool.and_eq_true, Bool.not_eq_true'] at hg
      exact hg.1
    rcases readWord_step st temp hg with ⟨he, heof⟩ | ⟨pre, w, r, hr, hsplit, hpre, hc, hcw, hlen⟩
    · refine ⟨(readWord st temp).1, by simp [Stream.good, heof], ?_⟩
      unfold advLoop
      rw [if_neg (by simp [hne])]
      simp [Stream.good, heof, he, hits]
    · by_cases hs : s <+: w
      · rw [hcw, hits_cons_pos hs] at hl ⊢
        simp only [List.length_cons] at hl
        obtain ⟨st', h1, h2⟩ := ih ⟨r, false, false⟩ w w (counter + 1) rfl
          (by simp only; omega) (by rcases hl with h | h; exact Or.inl h; right; push_cast at h ⊢; omega)
        refine ⟨st', h1, ?_⟩
        unfold advLoop
        rw [if_neg (by simp [hne]), hr]
        simp only [Stream.good, Bool.not_false, Bool.and_self, Bool.not_true, Bool.false_eq_true, if_false, take_prefix, hs,
          if_true]
        rw [if_neg (by rcases hl with h | h; omega; push_cast at h; omega), h2]
        simp only [List.length_cons, List.getLast?_cons, Option.getD_some]
        rw [show counter + 1 + (hits s (cwords r)).length = counter + ((hits s (cwords r)).length + 1) by omega]
      · rw [hcw, hits_cons_neg hs] at hl ⊢
        obtain ⟨st', h1, h2⟩ := ih ⟨r, false, false⟩ w saved counter rfl (by simp only; omega) hl
        refine ⟨st', h1, ?_⟩
        unfold advLoop
        rw [if_neg (by simp [hne]), hr]
        simp only [Stream.good, Bool.not_false, Bool.and_self, Bool.not_true, Bool.false_eq_true, if_false, take_prefix, hs]
        rw [h2]

end Verif.IoSimple
