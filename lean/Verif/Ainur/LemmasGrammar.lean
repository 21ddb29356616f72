import Verif.Ainur.SpecGrammar

/-!
# Facts on the grammar of Ainur files
-/

namespace Verif.Ainur

open Verif.Str

theorem isSpace_white (c : Char) : isSpace c = white c := by
  simp only [isSpace, white, List.mem_cons, List.not_mem_nil, or_false]

theorem eol_len {s t : Str} (h : eol s = some t) : t.length < s.length := by
  unfold eol at h
  split at h <;> simp at h <;> subst h <;> simp <;> omega

theorem mem_take {p : Char → Bool} {s : Str} {c : Char} (h : c ∈ s.takeWhile p) : p c = true := by
  induction s with
  | nil => cases h
  | cons d s ih =>
    rw [List.takeWhile_cons] at h
    split at h
    · rename_i hd
      rcases List.mem_cons.1 h with rfl | h
      · exact hd
      · exact ih h
    · cases h

theorem skipOne_len {s t : Str} (h : skipOne s = some t) : t.length < s.length := by
  unfold skipOne at h
  cases h1 : comment s with
  | some u =>
    rw [h1] at h
    simp at h; subst h
    unfold comment at h1
    split at h1
    · rename_i r
      have := eol_len h1
      have h2 : (r.dropWhile fun c => ! (c = '\r' ∨ c = '\n')).length ≤ r.length := (List.dropWhile_sublist _).length_le
      simp only [List.length_cons]
      omega
    · cases h1
  | none =>
    rw [h1] at h
    cases h2 : eol s with
    | some u => rw [h2] at h; simp at h; subst h; exact eol_len h2
    | none =>
      rw [h2] at h
      simp at h
      unfold oneSpace at h
      split at h
      · split at h
        · cases h; simp
        · cases h
      · cases h

theorem skipN_enough (n : Nat) (s : Str) (h : s.length ≤ n) : skipN n s = skip s := by
  unfold skip
  induction hl : s.length using Nat.strong_induction_on generalizing n s with
  | _ k ih =>
    cases hs : skipOne s with
    | none =>
      have : ∀ m, skipN m s = s := by intro m; cases m <;> simp [skipN, hs]
      rw [this, this]
    | some t =>
      have ht := skipOne_len hs
      obtain ⟨n', rfl⟩ : ∃ n', n = n' + 1 := ⟨n - 1, by omega⟩
      obtain ⟨k', rfl⟩ : ∃ k', k = k' + 1 := ⟨k - 1, by omega⟩
      simp only [skipN, hs]
      rw [ih t.length (by omega) n' t (by omega) rfl, ih t.length (by omega) k' t (by omega) rfl]

theorem skip_some {s t : Str} (h : skipOne s = some t) : skip s = skip t := by
  have ht := skipOne_len h
  obtain ⟨k, hk⟩ : ∃ k, s.length = k + 1 := ⟨s.length - 1, by omega⟩
  conv_lhs => unfold skip
  rw [hk, skipN, h]
  exact skipN_enough _ _ (by omega)

theorem skip_none {s : Str} (h : skipOne s = none) : skip s = s := by
  unfold skip
  cases hl : s.length <;> simp [skipN, h]

theorem skip_nil : skip [] = [] := rfl

theorem skip_newline (s : Str) : skip ('\n' :: s) = skip s := skip_some (by simp [skipOne, comment, eol])

theorem skip_space (c : Char) (s : Str) (h : white c = true) : skip (c :: s) = skip s := by
  by_cases h1 : c = '\r'
  · subst h1
    match s with
    | '\n' :: u => rw [skip_newline]; exact skip_some (by simp [skipOne, comment, eol])
    | [] => exact skip_some (by simp [skipOne, comment, eol])
    | d :: u =>
      by_cases hd : d = '\n'
      · subst hd; rw [skip_newline]; exact skip_some (by simp [skipOne, comment, eol])
      · exact skip_some (by simp [skipOne, comment, eol, hd])
  · by_cases h2 : c = '\n'
    · subst h2; exact skip_newline s
    · have h3 : c ≠ '#' := by rintro rfl; exact absurd h (by decide)
      have : isSpace c = true := by rw [isSpace_white]; exact h
      exact skip_some (by simp [skipOne, comment, eol, oneSpace, h1, h2, h3, this])

theorem drop_comment (t : Str) (e : Char) (s : Str) (ht : ∀ c ∈ t, ¬ IsEol c) (he : IsEol e) :
    ((t ++ e :: s).dropWhile fun c => ! decide (c = '\r' ∨ c = '\n')) = e :: s := by
  induction t with
  | nil =>
    have : decide (e = '\r' ∨ e = '\n') = true := decide_eq_true he
    simp only [List.nil_append, List.dropWhile, this, Bool.not_true]
  | cons c t ih =>
    have : decide (c = '\r' ∨ c = '\n') = false := decide_eq_false (ht c (by simp))
    simp only [List.cons_append, List.dropWhile, this, Bool.not_false]
    exact ih fun c hc => ht c (by simp [hc])

theorem skip_comment (t : Str) (e : Char) (s : Str) (ht : ∀ c ∈ t, ¬ IsEol c) (he : IsEol e) :
    skip ('#' :: (t ++ e :: s)) = skip s := by
  have h1 : comment ('#' :: (t ++ e :: s)) = eol (e :: s) := by
    simp only [comment]
    rw [drop_comment t e s ht he]
  rcases he with rfl | rfl
  · match s with
    | [] => exact skip_some (by simp [skipOne, h1, eol])
    | d :: u =>
      by_cases hd : d = '\n'
      · subst hd; rw [skip_newline]; exact skip_some (by simp [skipOne, h1, eol])
      · exact skip_some (by simp [skipOne, h1, eol, hd])
  · exact skip_some (by simp [skipOne, h1, eol])

theorem skip_gap {g : Str} (hg : Gap g) (s : Str) : skip (g ++ s) = skip s := by
  induction hg with
  | nil => rfl
  | space c g hc _ ih => rw [List.cons_append, skip_space _ _ hc, ih]
  | comment t e g ht he _ ih =>
    rw [List.cons_append, List.append_assoc, List.cons_append, skip_comment _ _ _ ht he, ih]

theorem skip_stop (c : Char) (s : Str) (h1 : white c = false) (h2 : c ≠ '#') : skip (c :: s) = c :: s := by
  have h3 : c ≠ '\r' := by rintro rfl; exact absurd h1 (by decide)
  have h4 : c ≠ '\n' := by rintro rfl; exact absurd h1 (by decide)
  have : isSpace c = false := by rw [isSpace_white]; exact h1
  exact skip_none (by simp [skipOne, comment, eol, oneSpace, h2, h3, h4, this])

theorem gap_append {g h : Str} (hg : Gap g) (hh : Gap h) : Gap (g ++ h) := by
  induction hg with
  | nil => exact hh
  | space c g hc _ ih => exact .space c _ hc ih
  | comment t e g ht he _ ih =>
    rw [List.cons_append, List.append_assoc, List.cons_append]
    exact .comment t e _ ht he ih

/-- What the skipper leaves out is white space and comments. -/
theorem skip_split (s : Str) : ∃ g, Gap g ∧ s = g ++ skip s := by
  induction hl : s.length using Nat.strong_induction_on generalizing s with
  | _ k ih =>
    cases hs : skipOne s with
    | none => exact ⟨[], .nil, by rw [skip_none hs]; rfl⟩
    | some t =>
      obtain ⟨g, hg, e⟩ := ih t.length (by have := skipOne_len hs; omega) t rfl
      rw [skip_some hs]
      have eolg : ∀ u v, eol u = some v → ∃ x h, IsEol x ∧ Gap h ∧ u = x :: (h ++ v) := by
        intro u v h
        unfold eol at h
        split at h <;> simp at h <;> subst h
        · exact ⟨'\r', ['\n'], .inl rfl, .space _ _ (by decide) .nil, rfl⟩
        · exact ⟨'\r', [], .inl rfl, .nil, rfl⟩
        · exact ⟨'\n', [], .inr rfl, .nil, rfl⟩
      unfold skipOne at hs
      cases h1 : comment s with
      | some u =>
        rw [h1] at hs
        simp at hs; subst hs
        unfold comment at h1
        split at h1
        · rename_i r
          obtain ⟨x, h, hx, hh, e2⟩ := eolg _ _ h1
          have e3 := List.takeWhile_append_dropWhile (p := fun c => ! decide (c = '\r' ∨ c = '\n')) (l := r)
          refine ⟨'#' :: (r.takeWhile (fun c => ! decide (c = '\r' ∨ c = '\n')) ++ x :: (h ++ g)),
            .comment _ _ _ ?_ hx (gap_append hh hg), ?_⟩
          · intro c hc he
            have := mem_take hc
            simp at this
            rcases he with rfl | rfl
            · exact this.1 rfl
            · exact this.2 rfl
          · rw [List.cons_append, List.append_assoc, List.cons_append, List.append_assoc, ← e, ← e2, e3]
        · cases h1
      | none =>
        rw [h1] at hs
        cases h2 : eol s with
        | some u =>
          rw [h2] at hs
          simp at hs; subst hs
          obtain ⟨x, h, hx, hh, e2⟩ := eolg _ _ h2
          refine ⟨x :: (h ++ g), .space _ _ (by rcases hx with rfl | rfl <;> decide) (gap_append hh hg), ?_⟩
          rw [List.cons_append, List.append_assoc, ← e, ← e2]
        | none =>
          rw [h2] at hs
          simp at hs
          unfold oneSpace at hs
          split at hs
          · rename_i c r
            split at hs
            · rename_i hc
              cases hs
              refine ⟨c :: g, .space _ _ (by rw [← isSpace_white]; exact hc) hg, ?_⟩
              rw [List.cons_append, ← e]
            · cases hs
          · cases hs

/-! ## Classes of characters -/

theorem aToZ_iff (c : Char) : aToZ c = true ↔ Letter c := by simp [aToZ, Letter]

theorem typeChar_iff (c : Char) : typeChar c = true ↔ Letter c ∨ c = '.' ∨ c = '!' := by
  simp [typeChar, aToZ_iff]

theorem nameChar_iff (c : Char) : nameChar c = true ↔ Letter c ∨ ('0' ≤ c ∧ c ≤ '9') ∨ c = ':' ∨ c = '_' := by
  unfold nameChar zeroToNine
  rw [decide_eq_true_eq, aToZ_iff, decide_eq_true_eq]

theorem letter_plain {c : Char} (h : Letter c) : white c = false ∧ c ≠ '#' ∧ c ≠ '_' ∧ c ≠ '=' ∧ c ≠ ';' := by
  have h2 : ∀ d : Char, white d = true → ¬ Letter d := by
    intro d hd
    simp only [white, decide_eq_true_eq, List.mem_cons, List.not_mem_nil, or_false] at hd
    rcases hd with rfl | rfl | rfl | rfl | rfl | rfl <;> (unfold Letter; decide)
  refine ⟨?_, ?_, ?_, ?_, ?_⟩
  · by_contra hw; exact h2 c (by simpa using hw) h
  all_goals
    rintro rfl
    revert h; unfold Letter; decide

theorem lexical_iff (s : Str) : ((∀ c ∈ s, Allowed c) → lexical s = .ok ()) ∧ (¬ (∀ c ∈ s, Allowed c) → lexical s = throwOut) := by
  have key : ∀ c, allowedChar c = true ↔ Allowed c := by
    intro c
    unfold allowedChar Allowed isEmptyChar
    have : c = '`' ↔ c.toNat = 96 := by
      constructor
      · rintro rfl; rfl
      · intro h; exact Char.toNat_inj.1 (by rw [h]; rfl)
    by_cases h1 : c = ' ' ∨ c = '\t' ∨ c = '\n' ∨ c = '\r'
    · have h1' := h1
      simp only [decide_eq_true h1, if_true, true_iff]
      rcases h1 with h | h | h | h <;> simp [h]
    · simp only [decide_eq_false h1, Bool.false_eq_true, if_false]
      push Not at h1
      simp only [h1.1, h1.2.1, h1.2.2.1, h1.2.2.2, false_or, this, ne_eq]
      split
      · constructor
        · intro h; cases h
        · intro h; omega
      · constructor
        · intro _; omega
        · intro _; rfl
  have : s.all allowedChar = true ↔ ∀ c ∈ s, Allowed c := by simp [List.all_eq_true, key]
  unfold lexical
  exact ⟨fun h => if_pos (this.2 h), fun h => if_neg fun e => h (this.1 e)⟩

/-! ## Runs of characters -/

/-- The text ends, or goes on with a character outside of the class. -/
def Stops (p : Char → Bool) (s : Str) : Prop := ∀ c, s.head? = some c → p c = false

theorem take_run (p : Char → Bool) (a s : Str) (ha : ∀ c ∈ a, p c = true) (hs : Stops p s) :
    (a ++ s).takeWhile p = a ∧ (a ++ s).dropWhile p = s := by
  induction a with
  | nil =>
    cases s with
    | nil => exact ⟨rfl, rfl⟩
    | cons c s => simp [List.takeWhile, List.dropWhile, hs c rfl]
  | cons c a ih =>
    obtain ⟨h1, h2⟩ := ih fun c hc => ha c (by simp [hc])
    have := ha c (by simp)
    simp [List.takeWhile, List.dropWhile, this, h1, h2]

theorem plus_run (p : Char → Bool) (a s : Str) (h0 : a ≠ []) (ha : ∀ c ∈ a, p c = true) (hs : Stops p s) :
    plus p (a ++ s) = some (a, s) := by
  obtain ⟨h1, h2⟩ := take_run p a s ha hs
  unfold plus
  rw [h1, h2, if_neg h0]

theorem plus_none (p : Char → Bool) (s : Str) (hs : Stops p s) : plus p s = none := by
  have := take_run p [] s (by simp) hs
  unfold plus
  rw [show s = [] ++ s from rfl, this.1, if_pos (by rfl)]

theorem plus_inv {p : Char → Bool} {s a r : Str} (h : plus p s = some (a, r)) :
    s = a ++ r ∧ a ≠ [] ∧ (∀ c ∈ a, p c = true) ∧ Stops p r := by
  unfold plus at h
  split at h
  · cases h
  · rename_i h0
    cases h
    refine ⟨(List.takeWhile_append_dropWhile ..).symm, h0, fun c hc => mem_take hc, ?_⟩
    intro c hc
    have := List.head?_dropWhile_not p s
    rw [hc] at this
    simpa using this

/-! ## The parts of statements -/

theorem typeQualifier_run {d s : Str} (g : Str) (hg : Gap g) (hd : IsType d) (hs : Stops typeChar s) :
    typeQualifier (g ++ (d ++ s)) = some (d, s) := by
  obtain ⟨h0, h1⟩ := hd
  have hs0 : skip (d ++ s) = d ++ s := by
    cases d with
    | nil => exact absurd rfl h0
    | cons c d =>
      apply skip_stop
      · rcases h1 c (by simp) with h | rfl | rfl
        · exact (letter_plain h).1
        · decide
        · decide
      · rcases h1 c (by simp) with h | rfl | rfl
        · exact (letter_plain h).2.1
        · decide
        · decide
  unfold typeQualifier
  rw [skip_gap hg, hs0]
  exact plus_run _ _ _ h0 (fun c hc => (typeChar_iff c).2 (h1 c hc)) hs

theorem takeBars (u s : Str) (hu : ∀ c ∈ u, c = '_') (hs : s.head? ≠ some '_') :
    (u ++ s).takeWhile (· = '_') = u ∧ (u ++ s).dropWhile (· = '_') = s := by
  apply take_run
  · intro c hc; simpa using hu c hc
  · intro c hc
    have : c ≠ '_' := by rintro rfl; exact hs hc
    simpa using this

theorem keywords_run {n s : Str} (g : Str) (hg : Gap g) (hn : IsName n) (hs : Stops nameChar s) :
    keywords (g ++ (n ++ s)) = some (n, s) := by
  obtain ⟨u, l, r, rfl, hu, h0, hl, hr⟩ := hn
  obtain ⟨c, l', rfl⟩ : ∃ c l', l = c :: l' := by
    cases l with
    | nil => exact absurd rfl h0
    | cons c l => exact ⟨c, l, rfl⟩
  have hc := letter_plain (hl c (by simp))
  have hs0 : skip (u ++ (c :: l') ++ r ++ s) = u ++ (c :: l') ++ r ++ s := by
    cases u with
    | nil => exact skip_stop c _ hc.1 hc.2.1
    | cons x u =>
      rw [hu x (by simp)]
      exact skip_stop '_' _ (by decide) (by decide)
  have e : u ++ (c :: l') ++ r ++ s = u ++ ((c :: l') ++ (r ++ s)) := by simp
  obtain ⟨h1, h2⟩ := takeBars u ((c :: l') ++ (r ++ s)) hu (by simp [hc.2.2.1])
  -- the letters that are read may be more than those of the given form
  have hsplit : ∃ r1 r2, r = r1 ++ r2 ∧ (∀ c ∈ r1, aToZ c = true) ∧ Stops aToZ (r2 ++ s) := by
    refine ⟨r.takeWhile aToZ, r.dropWhile aToZ, (List.takeWhile_append_dropWhile ..).symm,
      fun c hc => mem_take hc, ?_⟩
    intro c hc
    cases hd : r.dropWhile aToZ with
    | nil =>
      rw [hd, List.nil_append] at hc
      have := hs c hc
      by_contra h
      rw [(nameChar_iff c).2 (.inl ((aToZ_iff c).1 (by simpa using h)))] at this
      cases this
    | cons x t =>
      rw [hd] at hc
      simp at hc; subst hc
      have := List.head?_dropWhile_not aToZ r
      rw [hd] at this
      simpa using this
  obtain ⟨r1, r2, rfl, hr1, hst⟩ := hsplit
  have hp : plus aToZ ((c :: l') ++ (r1 ++ r2 ++ s)) = some ((c :: l') ++ r1, r2 ++ s) := by
    rw [show (c :: l') ++ (r1 ++ r2 ++ s) = ((c :: l') ++ r1) ++ (r2 ++ s) by simp]
    refine plus_run _ _ _ (by simp) ?_ hst
    intro x hx
    rw [List.mem_append] at hx
    rcases hx with hx | hx
    · exact (aToZ_iff x).2 (hl x hx)
    · exact hr1 x hx
  obtain ⟨h3, h4⟩ := take_run nameChar r2 s (fun c hc => (nameChar_iff c).2 (hr c (by simp [hc]))) hs
  unfold keywords
  rw [skip_gap hg, hs0]
  simp only [e, h1, h2, hp, h3, h4]
  simp

theorem lit_run (c : Char) (g s : Str) (hg : Gap g) (h1 : white c = false) (h2 : c ≠ '#') :
    lit c (g ++ c :: s) = some s := by
  unfold lit
  rw [skip_gap hg, skip_stop c s h1 h2]
  simp

theorem lit_other (c d : Char) (g s : Str) (hg : Gap g) (h1 : white d = false) (h2 : d ≠ '#') (h : d ≠ c) :
    lit c (g ++ d :: s) = none := by
  unfold lit
  rw [skip_gap hg, skip_stop d s h1 h2]
  simp [h]

theorem value_run {v : Str} (g s : Str) (hg : Gap g) (hv : IsValue v) (hb : Begins v) :
    valueRule (g ++ (v ++ ';' :: s)) = some (v, ';' :: s) := by
  obtain ⟨h0, h1⟩ := hv
  have hs0 : skip (v ++ ';' :: s) = v ++ ';' :: s := by
    cases v with
    | nil => exact absurd rfl h0
    | cons c v => exact skip_stop c _ (hb c rfl).1 (hb c rfl).2
  unfold valueRule
  rw [skip_gap hg, hs0]
  refine plus_run _ _ _ h0 ?_ ?_
  · intro c hc
    have : c ≠ ';' := by rintro rfl; exact h1 hc
    simpa using this
  · intro c hc
    simp at hc; subst hc; decide

theorem gap_stops (p : Char → Bool) (hp : ∀ c, p c = true → white c = false ∧ c ≠ '#') {g s : Str} (hg : Gap g)
    (hs : Stops p s) : Stops p (g ++ s) := by
  intro c hc
  by_contra h
  have h' := hp c (by simpa using h)
  cases hg with
  | nil => exact h (hs c hc)
  | space d g hd _ => simp at hc; subst hc; rw [hd] at h'; exact absurd h'.1 (by decide)
  | comment t e g _ _ _ => simp at hc; exact h'.2 hc.symm

theorem nameChar_plain (c : Char) (h : nameChar c = true) : white c = false ∧ c ≠ '#' := by
  rcases (nameChar_iff c).1 h with h | h | rfl | rfl
  · exact ⟨(letter_plain h).1, (letter_plain h).2.1⟩
  · have hw : white c = false := by
      by_contra hw
      have hw : white c = true := by simpa using hw
      simp only [white, decide_eq_true_eq, List.mem_cons, List.not_mem_nil, or_false] at hw
      rcases hw with rfl | rfl | rfl | rfl | rfl | rfl <;> exact absurd h (by decide)
    refine ⟨hw, ?_⟩
    rintro rfl; exact absurd h (by decide)
  · decide
  · decide

theorem typeChar_plain (c : Char) (h : typeChar c = true) : white c = false ∧ c ≠ '#' := by
  rcases (typeChar_iff c).1 h with h | rfl | rfl
  · exact ⟨(letter_plain h).1, (letter_plain h).2.1⟩
  · decide
  · decide

/-- After a type comes a gap or an underscore. -/
theorem type_stops {g n s : Str} (hg : Gap g) (hn : IsName n) (h : g ≠ [] ∨ n.head? = some '_') :
    Stops typeChar (g ++ (n ++ s)) := by
  cases hg with
  | nil =>
    have h : n.head? = some '_' := by simpa using h
    intro c hc
    cases n with
    | nil => cases h
    | cons x n => simp at h hc; subst h; subst hc; decide
  | space c g hc hg =>
    intro x hx
    simp at hx; subst hx
    by_contra h'
    have := (typeChar_plain c (by simpa using h')).1
    rw [hc] at this; cases this
  | comment t e g _ _ _ => intro x hx; simp at hx; subst hx; decide

theorem name_ne_nil {n : Str} (hn : IsName n) : n ≠ [] := by
  obtain ⟨u, l, r, rfl, _, h0, _, _⟩ := hn
  cases l with
  | nil => exact absurd rfl h0
  | cons c l => simp

end Verif.Ainur
