import Verif.Host.ModelMemory
import Verif.Predicate.Props
import Mathlib.Tactic.Ring

/-! # C89: entries of system files and time -/

namespace Verif.Host

open Verif.Str

/-- No line of the text is longer than `n`. -/
def ShortLines (n : Nat) (s : Str) : Prop := ∀ a l b, s = a ++ l ++ b → '\n' ∉ l → l.length ≤ n

theorem takeWhile_line (l : Str) (h : '\n' ∉ l) (r : Str) : (l ++ '\n' :: r).takeWhile (· != '\n') = l ∧
    (l ++ '\n' :: r).dropWhile (· != '\n') = '\n' :: r := by
  induction l with
  | nil => simp
  | cons c l ih =>
    simp only [List.mem_cons, not_or] at h
    obtain ⟨h1, h2⟩ := ih h.2
    have : (c != '\n') = true := by simpa using fun e => h.1 e.symm
    simp only [List.cons_append, List.takeWhile_cons, this, if_true, List.dropWhile_cons, h1, h2]
    exact ⟨trivial, trivial⟩

theorem takeWhile_last (l : Str) (h : '\n' ∉ l) : l.takeWhile (· != '\n') = l ∧ l.dropWhile (· != '\n') = [] := by
  induction l with
  | nil => simp
  | cons c l ih =>
    simp only [List.mem_cons, not_or] at h
    obtain ⟨h1, h2⟩ := ih h.2
    have : (c != '\n') = true := by simpa using fun e => h.1 e.symm
    simp only [List.takeWhile_cons, this, if_true, List.dropWhile_cons, h1, h2]
    exact ⟨trivial, trivial⟩

theorem split_line (s : Str) : '\n' ∉ s ∨ ∃ l r, '\n' ∉ l ∧ s = l ++ '\n' :: r := by
  induction s with
  | nil => exact .inl (by simp)
  | cons c s ih =>
    by_cases hc : c = '\n'
    · exact .inr ⟨[], s, by simp, by rw [hc]; rfl⟩
    · rcases ih with h | ⟨l, r, h, rfl⟩
      · refine .inl ?_
        simp only [List.mem_cons, not_or]
        exact ⟨fun e => hc e.symm, h⟩
      · refine .inr ⟨c :: l, r, ?_, rfl⟩
        simp only [List.mem_cons, not_or]
        exact ⟨fun e => hc e.symm, h⟩

theorem noNul (l : Str) (h : '\x00' ∉ l) : l.takeWhile (· != '\x00') = l := by
  induction l with
  | nil => rfl
  | cons c l ih =>
    simp only [List.mem_cons, not_or] at h
    have : (c != '\x00') = true := by simpa using fun e => h.1 e.symm
    rw [List.takeWhile_cons, if_pos this, ih h.2]

theorem updateLoop_spec (n : Nat) : ∀ (m : Nat) (s : Str), s.length ≤ m → ShortLines (n - 1) s → '\x00' ∉ s → ∀ fuel, s.length + 1 < fuel →
    ∀ data, updateLoop n fuel ⟨s, false, false⟩ data = some (data ++ s ++ ['\n']) := by
  intro m
  induction m with
  | zero =>
    intro s hm hs h0 fuel hf data
    have : s = [] := List.eq_nil_of_length_eq_zero (by omega)
    subst this
    obtain ⟨f, rfl⟩ : ∃ f, fuel = f + 2 := ⟨fuel - 2, by simp at hf; omega⟩
    simp [updateLoop, getlineN]
  | succ m ih =>
    intro s hm hs h0 fuel hf data
    obtain ⟨f, rfl⟩ : ∃ f, fuel = f + 2 := ⟨fuel - 2, by omega⟩
    rcases split_line s with h | ⟨l, r, hl, rfl⟩
    · have e : getlineN n ⟨s, false, false⟩ = (⟨[], true, s.isEmpty⟩, s) := by
        unfold getlineN
        simp only [Bool.or_self, Bool.false_eq_true, if_false, (takeWhile_last s h).1, (takeWhile_last s h).2]
        rw [if_pos (hs [] s [] (by simp) h)]
      rw [updateLoop, if_neg (by simp), e]
      simp only
      rw [updateLoop, if_pos rfl, noNul s h0]
    · have e : getlineN n ⟨l ++ '\n' :: r, false, false⟩ = (⟨r, false, false⟩, l) := by
        unfold getlineN
        simp only [Bool.or_self, Bool.false_eq_true, if_false, (takeWhile_line l hl r).1, (takeWhile_line l hl r).2]
        rw [if_pos (hs [] l ('\n' :: r) (by simp) hl)]
      rw [updateLoop, if_neg (by simp), e]
      simp only [List.length_append, List.length_cons] at hm hf
      simp only [List.mem_append, List.mem_cons, not_or] at h0
      simp only
      rw [ih r (by omega) (by
        intro a l' b h hl'
        exact hs (l ++ '\n' :: a) l' b (by simp [h]) hl') h0.2.2 (f + 1) (by omega), noNul l h0.1]
      simp

/-- **C89** The data are the text of the file, with an end of line after it, for all files whose lines have fewer than 40240
characters. -/
theorem update_spec (s data : Str) (hs : ShortLines 40239 s) (h0 : '\x00' ∉ s) (fuel : Nat) (hf : s.length + 1 < fuel) :
    update fuel (some s) data = some (s ++ ['\n']) := by
  show updateLoop 40240 fuel ⟨s, false, false⟩ [] = _
  rw [updateLoop_spec 40240 s.length s (Nat.le_refl _) hs h0 fuel hf []]
  rfl

/-- **C89** A file that cannot be read does not change the data. -/
theorem update_unreadable (fuel : Nat) (data : Str) : update fuel none data = some data := rfl

/-- A stream that failed never ends. -/
theorem updateLoop_stuck (n : Nat) : ∀ (fuel : Nat) (s data : Str), updateLoop n fuel ⟨s, false, true⟩ data = none := by
  intro fuel
  induction fuel with
  | zero => intro s data; rfl
  | succ f ih =>
    intro s data
    rw [updateLoop, if_neg (by simp)]
    have e : getlineN n ⟨s, false, true⟩ = (⟨s, false, true⟩, []) := rfl
    rw [e]
    exact ih _ _

/-- **C89** Finding: if a line is longer the loop does not end. -/
theorem update_long_fails (a l b data : Str) (ha : ShortLines 40239 (a ++ ['\n'])) (h0 : '\x00' ∉ a) (hl : '\n' ∉ l) (hlen : 40239 < l.length)
    (fuel : Nat) : update fuel (some (a ++ ['\n'] ++ l ++ b)) data = none := by
  have key : ∀ (m : Nat) (a : Str), a.length ≤ m → ShortLines 40239 (a ++ ['\n']) → ∀ fuel data,
      updateLoop 40240 fuel ⟨a ++ ['\n'] ++ l ++ b, false, false⟩ data = none := by
    have last : ∀ fuel data, updateLoop 40240 fuel ⟨l ++ b, false, false⟩ data = none := by
      intro fuel data
      cases fuel with
      | zero => rfl
      | succ f =>
        rw [updateLoop, if_neg (by simp)]
        have h : ((l ++ b).takeWhile (· != '\n')).length > 40239 := by
          rw [List.takeWhile_append_of_pos (by
            intro c hc
            simp only [bne_iff_ne, ne_eq]
            rintro rfl
            exact hl hc), List.length_append]
          omega
        have e : getlineN 40240 ⟨l ++ b, false, false⟩ = (⟨(l ++ b).drop 40239, false, true⟩, ((l ++ b).takeWhile (· != '\n')).take 40239) := by
          unfold getlineN
          simp only [Bool.or_self, Bool.false_eq_true, if_false]
          rw [if_neg (by omega)]
        rw [e]
        exact updateLoop_stuck _ _ _ _
    intro m
    induction m with
    | zero =>
      intro a hm ha fuel data
      have : a = [] := List.eq_nil_of_length_eq_zero (by omega)
      subst this
      cases fuel with
      | zero => rfl
      | succ f =>
        rw [updateLoop, if_neg (by simp)]
        exact last _ _
    | succ m ih =>
      intro a hm ha fuel data
      cases fuel with
      | zero => rfl
      | succ f =>
        rw [updateLoop, if_neg (by simp)]
        rcases split_line a with h | ⟨x, r, hx, rfl⟩
        · have e : getlineN 40240 ⟨a ++ ['\n'] ++ l ++ b, false, false⟩ = (⟨l ++ b, false, false⟩, a) := by
            unfold getlineN
            have hsp : a ++ ['\n'] ++ l ++ b = a ++ '\n' :: (l ++ b) := by simp
            simp only [Bool.or_self, Bool.false_eq_true, if_false, hsp, (takeWhile_line a h _).1, (takeWhile_line a h _).2]
            rw [if_pos (ha [] a ['\n'] (by simp) h)]
          rw [e]
          exact last _ _
        · have e : getlineN 40240 ⟨x ++ '\n' :: r ++ ['\n'] ++ l ++ b, false, false⟩ = (⟨r ++ ['\n'] ++ l ++ b, false, false⟩, x) := by
            unfold getlineN
            have hsp : x ++ '\n' :: r ++ ['\n'] ++ l ++ b = x ++ '\n' :: (r ++ ['\n'] ++ l ++ b) := by simp
            simp only [Bool.or_self, Bool.false_eq_true, if_false, hsp, (takeWhile_line x hx _).1, (takeWhile_line x hx _).2]
            rw [if_pos (ha [] x ('\n' :: r ++ ['\n']) (by simp) hx)]
          rw [e]
          simp only [List.length_append, List.length_cons] at hm
          exact ih r (by omega) (by
            intro a' l' b' h hl'
            exact ha (x ++ '\n' :: a') l' b' (by simp [h]) hl') _ _
  exact key a.length a (Nat.le_refl _) ha fuel []

/-! ## Entries -/

theorem find_at (s pat : Str) (pos i : Nat) (hi : pos ≤ i) (h1 : pat <+: s.drop i) (hn : ∀ j, pos ≤ j → j < i → ¬ pat <+: s.drop j)
    (hl : i ≤ s.length) : find s pat pos = some i := by
  rcases e : find s pat pos with _ | k
  · exact absurd h1 (find_none e i hi hl)
  · obtain ⟨a, b, c, d⟩ := find_some e
    congr 1
    rcases Nat.lt_trichotomy k i with h | h | h
    · exact absurd c (hn k a h)
    · exact h
    · exact absurd h1 (d i hi h)

theorem skip_blanks (ws : Str) (hw : ∀ c ∈ ws, c = ' ' ∨ c = '\t') (c : Char) (hc : c ≠ ' ' ∧ c ≠ '\t') (r : Str) :
    skipBlanks (ws ++ c :: r) = ws.length + 1 := by
  induction ws with
  | nil =>
    rw [List.nil_append, skipBlanks, if_neg (by tauto)]
    rfl
  | cons a ws ih =>
    rw [List.cons_append, skipBlanks, if_pos (hw a List.mem_cons_self), ih fun c h => hw c (List.mem_cons_of_mem _ h)]
    rfl

theorem skip_all (ws : Str) (hw : ∀ c ∈ ws, c = ' ' ∨ c = '\t') : skipBlanks ws = ws.length := by
  induction ws with
  | nil => rfl
  | cons a ws ih =>
    rw [skipBlanks, if_pos (hw a List.mem_cons_self), ih fun c h => hw c (List.mem_cons_of_mem _ h)]
    rfl

theorem entry_line (pre label x rest : Str) (hx : '\n' ∉ x)
    (hfirst : ∀ j < pre.length, ¬ label <+: (pre ++ label ++ x ++ '\n' :: rest).drop j) :
    findEntry (pre ++ label ++ x ++ '\n' :: rest) label =
      substr x (if skipBlanks x > 0 then skipBlanks x - 1 else skipBlanks x) (x.length - (if skipBlanks x > 0 then skipBlanks x - 1 else skipBlanks x)) := by
  unfold findEntry
  have h1 : find (pre ++ label ++ x ++ '\n' :: rest) label 0 = some pre.length := by
    refine find_at _ _ _ _ (Nat.zero_le _) ?_ (fun j _ h => hfirst j h) (by simp)
    rw [List.append_assoc, List.append_assoc, List.drop_left]
    exact List.prefix_append _ _
  rw [h1]
  have h2 : find (pre ++ label ++ x ++ '\n' :: rest) ['\n'] (pre.length + label.length) = some (pre.length + label.length + x.length) := by
    refine find_at _ _ _ _ (by omega) ?_ ?_ (by simp; omega)
    · rw [show pre.length + label.length + x.length = (pre ++ label ++ x).length by simp [Nat.add_assoc], List.drop_left]
      exact ⟨rest, rfl⟩
    · intro j h3 h4 ⟨t, h5⟩
      have : (pre ++ label ++ x ++ '\n' :: rest)[j]? = some '\n' := by
        have := congrArg (fun l => l[0]?) h5
        simpa using this.symm
      rw [List.getElem?_append_left (by simp; omega), List.getElem?_append_right (by simp; omega)] at this
      exact hx (List.mem_of_getElem? this)
  simp only [h2]
  have h3 : substr (pre ++ label ++ x ++ '\n' :: rest) (pre.length + label.length) (pre.length + label.length + x.length - (pre.length + label.length)) = some x := by
    unfold substr
    rw [if_pos (by simp), Nat.add_sub_cancel_left, show pre.length + label.length = (pre ++ label).length by simp,
      show pre ++ label ++ x ++ '\n' :: rest = (pre ++ label) ++ (x ++ '\n' :: rest) by simp, List.drop_left, List.take_left]
  rw [h3]
  rfl

/-- **C89** The entry of a label is what follows its first occurrence on its line, without the blanks before it. -/
theorem entry_spec (pre label ws v rest : Str) (hw : ∀ c ∈ ws, c = ' ' ∨ c = '\t') (hv : '\n' ∉ v)
    (hh : ∃ c t, v = c :: t ∧ c ≠ ' ' ∧ c ≠ '\t')
    (hfirst : ∀ j < pre.length, ¬ label <+: (pre ++ label ++ (ws ++ v) ++ '\n' :: rest).drop j) :
    findEntry (pre ++ label ++ (ws ++ v) ++ '\n' :: rest) label = some v := by
  have hx : '\n' ∉ ws ++ v := by
    intro h
    rcases List.mem_append.1 h with h | h
    · rcases hw _ h with h | h <;> exact absurd h (by decide)
    · exact hv h
  rw [entry_line pre label _ rest hx hfirst]
  obtain ⟨c, t, rfl, hc⟩ := hh
  rw [skip_blanks ws hw c hc t, if_pos (by omega), Nat.add_sub_cancel]
  unfold substr
  rw [if_pos (by simp), List.drop_left, List.take_of_length_le (by simp)]

/-- **C89** A label that does not occur is not found. -/
theorem entry_missing (data label : Str) (h : ¬ label <:+: data) : findEntry data label = some "NOT_FOUND".toList := by
  unfold findEntry
  rcases e : find data label 0 with _ | k
  · rfl
  · obtain ⟨-, -, ⟨t, ht⟩, -⟩ := find_some e
    refine absurd ⟨data.take k, t, ?_⟩ h
    rw [List.append_assoc, ht, List.take_append_drop]

/-- **C89** Finding: if there are only blanks after the label the entry is the last of them, not empty. -/
theorem entry_blank_fails (pre label ws rest : Str) (hw : ∀ c ∈ ws, c = ' ' ∨ c = '\t') (hne : ws ≠ [])
    (hfirst : ∀ j < pre.length, ¬ label <+: (pre ++ label ++ ws ++ '\n' :: rest).drop j) :
    findEntry (pre ++ label ++ ws ++ '\n' :: rest) label = some [ws.getLast hne] := by
  have hx : '\n' ∉ ws := by
    intro h
    rcases hw _ h with h | h <;> exact absurd h (by decide)
  have hl : 0 < ws.length := List.length_pos_of_ne_nil hne
  rw [entry_line pre label _ rest hx hfirst, skip_all ws hw, if_pos hl]
  unfold substr
  rw [if_pos (by omega), List.drop_length_sub_one hne, show ws.length - (ws.length - 1) = 1 by omega]
  rfl

/-- **C89** The entry of a file: reading it and looking for a label. -/
theorem entry_of_file (pre label ws v rest data : Str) (hw : ∀ c ∈ ws, c = ' ' ∨ c = '\t') (hv : '\n' ∉ v)
    (hh : ∃ c t, v = c :: t ∧ c ≠ ' ' ∧ c ≠ '\t') (hs : ShortLines 40239 (pre ++ label ++ (ws ++ v) ++ '\n' :: rest))
    (h0 : '\x00' ∉ pre ++ label ++ (ws ++ v) ++ '\n' :: rest)
    (hfirst : ∀ j < pre.length, ¬ label <+: (pre ++ label ++ (ws ++ v) ++ '\n' :: (rest ++ ['\n'])).drop j) :
    ∃ fuel d, update fuel (some (pre ++ label ++ (ws ++ v) ++ '\n' :: rest)) data = some d ∧ findEntry d label = some v := by
  refine ⟨_, _, update_spec _ data hs h0 _ (Nat.lt_succ_self _), ?_⟩
  have := entry_spec pre label ws v (rest ++ ['\n']) hw hv hh hfirst
  rw [← this]
  simp

example : findEntry "Name:\tx\nVmPeak:\t  12 kB\nVmSize:\t10 kB\n\n".toList "VmPeak:".toList = some "12 kB".toList := by decide +kernel

/-! ## Time -/

/-- The seconds of a time. -/
def TimeHandle.value (a : TimeHandle) : Rat := a.sec + a.usec / 1000000

/-- **C89** Differences and sums of times are those of their seconds, also when the microseconds are negative, and `millis` gives
seconds. -/
theorem time_spec (a b : TimeHandle) : (a.sub b).value = a.value - b.value ∧ (a.add b).value = a.value + b.value ∧ a.millis = a.value := by
  unfold TimeHandle.value TimeHandle.sub TimeHandle.add TimeHandle.millis
  refine ⟨?_, ?_, ?_⟩
  · push_cast; ring
  · push_cast; ring
  · ring

/-- **C89** Finding: `millis` does not give milliseconds. -/
theorem millis_fails : (⟨1, 0⟩ : TimeHandle).millis ≠ 1000 := by
  rw [(time_spec ⟨1, 0⟩ ⟨0, 0⟩).2.2]
  unfold TimeHandle.value
  norm_num

example : ((⟨5, 100000⟩ : TimeHandle).sub ⟨3, 600000⟩).millis = 3 / 2 := by
  rw [(time_spec _ ⟨0, 0⟩).2.2]
  unfold TimeHandle.value TimeHandle.sub
  norm_num

/-! ## Vendor of the processor -/

/-- A text in two parts with a character in between that the pattern does not have. -/
theorem infix_parts (pat a b : Str) (c : Char) (hc : c ∉ pat) : pat <:+: a ++ c :: b ↔ pat <:+: a ∨ pat <:+: b := by
  constructor
  · rintro ⟨x, y, h⟩
    have hlen : x.length + pat.length + y.length = a.length + 1 + b.length := by
      have := congrArg List.length h
      simp at this
      omega
    rcases Nat.lt_or_ge a.length (x.length + pat.length) with h1 | h1
    · rcases Nat.lt_or_ge a.length x.length with h2 | h2
      · right
        have e : x = a ++ c :: (x.drop (a.length + 1)) := by
          have h3 : x <+: a ++ c :: b := ⟨pat ++ y, by rw [← h]; simp⟩
          have h4 : a ++ [c] <+: x := by
            refine List.prefix_of_prefix_length_le (l₃ := a ++ c :: b) ⟨b, by simp⟩ h3 (by simp; omega)
          obtain ⟨t, ht⟩ := h4
          rw [← ht]
          simp
        refine ⟨x.drop (a.length + 1), y, ?_⟩
        rw [e] at h
        have h5 : a ++ c :: (x.drop (a.length + 1) ++ pat ++ y) = a ++ c :: b := by rw [← h]; simp
        exact (List.cons.inj (List.append_cancel_left h5)).2
      · exfalso
        have h3 : (x ++ pat ++ y)[a.length]? = some c := by rw [h]; simp
        rw [List.getElem?_append_left (by simp; omega), List.getElem?_append_right h2] at h3
        exact hc (List.mem_of_getElem? h3)
    · left
      have h3 : x ++ pat <+: a := List.prefix_of_prefix_length_le (l₃ := a ++ c :: b) ⟨y, h⟩ ⟨c :: b, rfl⟩ (by simp; omega)
      obtain ⟨t, ht⟩ := h3
      exact ⟨x, t, ht⟩
  · rintro (⟨x, y, rfl⟩ | ⟨x, y, rfl⟩)
    · exact ⟨x, y ++ c :: b, by simp⟩
    · exact ⟨a ++ c :: x, y, by simp⟩

theorem find_iff (s pat : Str) : (find s pat 0).isSome = true ↔ pat <:+: s := by
  constructor
  · intro h
    obtain ⟨k, e⟩ := Option.isSome_iff_exists.1 h
    obtain ⟨-, -, ⟨t, ht⟩, -⟩ := find_some e
    exact ⟨s.take k, t, by rw [List.append_assoc, ht, List.take_append_drop]⟩
  · intro h
    obtain ⟨i, hi⟩ := Predicate.find_isSome s pat h
    rw [hi]
    rfl

theorem infix_blanks (pat ws b : Str) (hw : ∀ c ∈ ws, c ∉ pat) (hne : pat ≠ []) : pat <:+: ws ++ b ↔ pat <:+: b := by
  induction ws with
  | nil => rfl
  | cons c ws ih =>
    have := infix_parts pat [] (ws ++ b) c (hw c List.mem_cons_self)
    rw [List.nil_append] at this
    rw [List.cons_append, this, ih fun c hc => hw c (List.mem_cons_of_mem _ hc), List.infix_nil]
    exact or_iff_right hne

/-- **C89** The vendor is read from the first line with that label; names with `Intel` or `AMD` in them are made short, others are given as
they are. -/
theorem vendor_spec (before after : List Str) (hb : ∀ l ∈ before, ¬ "vendor_id".toList <:+: l) (ws1 ws2 name : Str)
    (h1 : ∀ c ∈ ws1, c = ' ' ∨ c = '\t') (h2 : ∀ c ∈ ws2, c = ' ' ∨ c = '\t') (hn : ∀ c, name.head? = some c → c ≠ ' ' ∧ c ≠ '\t') :
    vendorId (some (before ++ ("vendor_id".toList ++ ws1 ++ ':' :: (ws2 ++ name)) :: after)) =
      some (if "Intel".toList <:+: name then "Intel".toList else if "AMD".toList <:+: name then "AMD".toList else name) := by
  have hread : readLabel (some (before ++ ("vendor_id".toList ++ ws1 ++ ':' :: (ws2 ++ name)) :: after)) "vendor_id".toList =
      "vendor_id".toList ++ ws1 ++ ':' :: (ws2 ++ name) := by
    unfold readLabel
    simp only
    rw [List.find?_append, List.find?_eq_none.2 (by
      intro l hl
      rw [find_iff]
      exact hb l hl), List.find?_cons_of_pos (by
      rw [find_iff]
      exact ⟨[], ws1 ++ ':' :: (ws2 ++ name), by simp⟩)]
    rfl
  have hinf : ∀ pat : Str, pat ≠ [] → ':' ∉ pat → ' ' ∉ pat → '\t' ∉ pat → (∃ c ∈ pat, c ∉ "vendor_id".toList) →
      (pat <:+: "vendor_id".toList ++ ws1 ++ ':' :: (ws2 ++ name) ↔ pat <:+: name) := by
    intro pat hne hcol hb1 hb2 ⟨c, hc1, hc2⟩
    rw [infix_parts _ _ _ _ hcol, infix_blanks pat ws2 name (by
      intro d hd
      rcases h2 d hd with rfl | rfl
      · exact hb1
      · exact hb2) hne]
    refine or_iff_right ?_
    intro h
    rcases List.mem_append.1 (h.subset hc1) with h3 | h3
    · exact hc2 h3
    · rcases h1 c h3 with rfl | rfl
      · exact hb1 hc1
      · exact hb2 hc1
  have hi := hinf "Intel".toList (by decide) (by decide) (by decide) (by decide) ⟨'I', by decide, by decide⟩
  have ha := hinf "AMD".toList (by decide) (by decide) (by decide) (by decide) ⟨'A', by decide, by decide⟩
  unfold vendorId
  simp only [hread, find_iff, hi, ha]
  split_ifs with q1 q2
  · rfl
  · rfl
  · unfold extractOther
    have hf : find ("vendor_id".toList ++ ws1 ++ ':' :: (ws2 ++ name)) [':'] 0 = some ("vendor_id".toList ++ ws1).length := by
      refine find_at _ _ _ _ (Nat.zero_le _) ?_ ?_ (by simp)
      · rw [List.drop_left]
        exact ⟨ws2 ++ name, rfl⟩
      · rintro j - hj ⟨t, ht⟩
        have h3 : ("vendor_id".toList ++ ws1 ++ ':' :: (ws2 ++ name))[j]? = some ':' := by
          have := congrArg (fun l => l[0]?) ht
          simpa using this.symm
        rw [List.getElem?_append_left hj] at h3
        rcases List.mem_append.1 (List.mem_of_getElem? h3) with h4 | h4
        · exact absurd h4 (by decide)
        · rcases h1 _ h4 with h5 | h5 <;> exact absurd h5 (by decide)
    rw [hf]
    have hd : ("vendor_id".toList ++ ws1 ++ ':' :: (ws2 ++ name)).drop (("vendor_id".toList ++ ws1).length + 1) = ws2 ++ name := by
      rw [List.drop_append, List.drop_eq_nil_of_le (by omega), Nat.add_sub_cancel_left]
      rfl
    have ht : (ws2 ++ name).takeWhile (fun c => c == ' ' || c == '\t') = ws2 := by
      rw [List.takeWhile_append_of_pos (by
        intro c hc
        rcases h2 c hc with rfl | rfl <;> rfl)]
      cases name with
      | nil => simp
      | cons c name =>
        obtain ⟨h3, h4⟩ := hn c rfl
        rw [List.takeWhile_cons, if_neg (by simp [h3, h4]), List.append_nil]
    simp only [hd, ht]
    unfold substr
    rw [if_pos (by simp; omega), ← List.drop_drop, hd, List.drop_left, List.take_of_length_le]
    simp
    omega

/-- **C89** Without such a line the vendor is empty. -/
theorem vendor_missing (lines : List Str) (h : ∀ l ∈ lines, ¬ "vendor_id".toList <:+: l) : vendorId (some lines) = some [] := by
  have : readLabel (some lines) "vendor_id".toList = [] := by
    unfold readLabel
    simp only
    rw [List.find?_eq_none.2 (by
      intro l hl
      rw [find_iff]
      exact h l hl)]
    rfl
  unfold vendorId
  rw [this]
  rfl

example : vendorId (some ["processor\t: 0".toList, "vendor_id\t: GenuineIntel".toList]) = some "Intel".toList := by decide +kernel
example : vendorId (some ["vendor_id\t: IBM/S390".toList]) = some "IBM/S390".toList := by decide +kernel

end Verif.Host
