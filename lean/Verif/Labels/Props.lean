import Verif.Labels.Spec
import Verif.StrUtil.Props

/-!
# Labels of operators (C39) and states (C64)
-/

namespace Verif.Labels

open Verif.Str Verif.StrUtil

/-! ## Operators -/

/-- What is done with the label once the quote is off. -/
theorem ctor_quote (body : List Char) (tr : Bool) (h : tr = false → body.getLast? ≠ some '\'') :
    OneOperatorSpec.ctor (body ++ quote tr) =
      (if body.findIdx (· == '?') = body.length then .ok ⟨0, body, tr⟩
       else if body.findIdx (· == '?') + 1 = body.length then throwOut
       else if !isAnInteger (body.drop (body.findIdx (· == '?') + 1)) then throwOut
       else ofNested (atoi (body.drop (body.findIdx (· == '?') + 1))) >>= fun n =>
        .ok ⟨n.toNat, body.take (body.findIdx (· == '?')), tr⟩) := by
  have hq : ((body ++ quote tr)[if (body ++ quote tr).length > 0 then (body ++ quote tr).length - 1 else
      (body ++ quote tr).length]? = some '\'') ↔ tr = true := by
    cases tr with
    | true => simp [quote]
    | false =>
      simp only [quote, Bool.false_eq_true, if_false, List.append_nil, iff_false]
      have := h rfl
      rw [List.getLast?_eq_getElem?] at this
      split_ifs with h0
      · exact this
      · simp
  unfold OneOperatorSpec.ctor
  simp only [hq]
  have hb : (if tr = true then List.take (if (body ++ quote tr).length > 0 then (body ++ quote tr).length - 1 else
      (body ++ quote tr).length) (body ++ quote tr) else body ++ quote tr) = body := by
    cases tr <;> simp [quote]
  rw [hb]
  simp only [Bool.decide_eq_true]
  have hle : body.findIdx (· == '?') ≤ body.length := List.findIdx_le_length
  generalize hi : body.findIdx (· == '?') = i at *
  split_ifs with h1 h2 h3
  · rfl
  · rfl
  · have e1 : substr body 0 i = some (body.take i) := by simp [substr]
    have e2 : substr body (i + 1) body.length = some (body.drop (i + 1)) := by
      unfold substr; rw [if_pos (by omega), List.take_of_length_le (by simp)]
    simp [e1, e2, ofThrow, h3, bind, Except.bind]
  · have e1 : substr body 0 i = some (body.take i) := by simp [substr]
    have e2 : substr body (i + 1) body.length = some (body.drop (i + 1)) := by
      unfold substr; rw [if_pos (by omega), List.take_of_length_le (by simp)]
    simp [e1, e2, ofThrow, h3, bind, Except.bind]

theorem quote_split (s : List Char) : ∃ body tr, s = body ++ quote tr ∧ (tr = false → body.getLast? ≠ some '\'') := by
  by_cases h : s.getLast? = some '\''
  · obtain ⟨b, hb⟩ := List.getLast?_eq_some_iff.1 h
    exact ⟨b, true, by simpa [quote] using hb, by simp⟩
  · exact ⟨s, false, by simp [quote], fun _ => h⟩

theorem findIdx_mark (a b : List Char) (h : '?' ∉ a) : (a ++ '?' :: b).findIdx (· == '?') = a.length := by
  induction a with
  | nil => simp [List.findIdx_cons]
  | cons x a ih =>
    have hx : x ≠ '?' := fun e => h (by simp [e])
    rw [List.cons_append, List.findIdx_cons, ih (fun hm => h (by simp [hm]))]
    have : (x == '?') = false := by simpa using hx
    rw [this]; simp

theorem mark_split (body : List Char) (h : '?' ∈ body) : ∃ a b, body = a ++ '?' :: b ∧ '?' ∉ a := by
  induction body with
  | nil => simp at h
  | cons x body ih =>
    by_cases hx : x = '?'
    · exact ⟨[], body, by simp [hx], by simp⟩
    · obtain ⟨a, b, h1, h2⟩ := ih (by simpa [Ne.symm hx] using h)
      exact ⟨x :: a, b, by simp [h1], by simp [h2, Ne.symm hx]⟩

theorem toDigits_integer (n : Nat) : isAnInteger (Nat.toDigits 10 n) = true := by
  rw [isAnInteger_spec]
  refine ⟨?_, fun c hc => (isDigit_iff c).1 (isDigit_toDigits n c hc)⟩
  intro h
  have := Nat.length_toDigits_pos (b := 10) (n := n)
  rw [h] at this; simp at this

theorem atoi_digits (n : Nat) (h : n ≤ 2147483647) : atoi (Nat.toDigits 10 n) = some (some (n : Int)) := by
  have := atoi_decimal n (by omega) (by omega)
  unfold decimal at this
  rw [if_neg (by omega)] at this
  simpa using this

/-- **C39** Label, degree of freedom and transpose mark are read back from the text. -/
theorem opspec_roundtrip (root : List Char) (dof : Option Nat) (tr : Bool) (hq : '?' ∉ root)
    (hl : dof = none → tr = false → root.getLast? ≠ some '\'') (hd : ∀ d, dof = some d → d ≤ 2147483647) :
    OneOperatorSpec.ctor (root ++ dofText dof ++ quote tr) = .ok ⟨dof.getD 0, root, tr⟩ := by
  cases dof with
  | none =>
    simp only [dofText, List.append_nil]
    rw [ctor_quote root tr (hl rfl)]
    have : root.findIdx (· == '?') = root.length := by
      rw [List.findIdx_eq_length]
      intro x hx
      simpa using fun e : x = '?' => hq (e ▸ hx)
    rw [if_pos this]; rfl
  | some d =>
    have hne : Nat.toDigits 10 d ≠ [] := by
      intro h
      have := Nat.length_toDigits_pos (b := 10) (n := d)
      rw [h] at this; simp at this
    have hpos := List.length_pos_iff.2 hne
    simp only [dofText]
    rw [ctor_quote]
    · rw [findIdx_mark _ _ hq, if_neg (by simp), if_neg (by simpa using hne)]
      have e : (root ++ '?' :: Nat.toDigits 10 d).drop (root.length + 1) = Nat.toDigits 10 d := by
        rw [List.drop_length_add_append]; rfl
      rw [e, toDigits_integer, atoi_digits d (hd d rfl)]
      simp [ofNested, bind, Except.bind]
    · intro _ h
      rw [List.getLast?_append, List.getLast?_cons] at h
      simp at h
      have hm : (Nat.toDigits 10 d).getLast?.getD '?' ∈ Nat.toDigits 10 d := by
        rw [List.getLast?_eq_some_getLast hne]; exact List.getLast_mem hne
      rw [h] at hm
      have := isDigit_toDigits d _ hm
      revert this; decide

/-- **C39** An exception is thrown exactly for a `?` that is not followed by an integer up to the quote or the
end. -/
theorem opspec_rejects (s : List Char) : OneOperatorSpec.ctor s = throwOut ↔
    ∃ root b tr, s = root ++ '?' :: b ++ quote tr ∧ '?' ∉ root ∧ (tr = false → s.getLast? ≠ some '\'') ∧
      (b = [] ∨ ∃ c ∈ b, ¬ DigitsOf [c]) := by
  obtain ⟨body, tr, rfl, hb⟩ := quote_split s
  rw [ctor_quote body tr hb]
  have huniq : ∀ body' tr', body ++ quote tr = body' ++ quote tr' →
      (tr' = false → (body ++ quote tr).getLast? ≠ some '\'') → body = body' ∧ tr = tr' := by
    intro body' tr' h hl
    cases tr <;> cases tr' <;> simp [quote] at h hl ⊢
    · exact h
    · exact hb rfl (by rw [h]; simp)
    · exact h
  by_cases hq : '?' ∈ body
  · obtain ⟨a, b, rfl, ha⟩ := mark_split body hq
    have e : (a ++ '?' :: b).drop (a.length + 1) = b := by
      rw [List.drop_length_add_append]; rfl
    rw [findIdx_mark _ _ ha, if_neg (by simp), e]
    have hR : (∃ root b' tr', a ++ '?' :: b ++ quote tr = root ++ '?' :: b' ++ quote tr' ∧ '?' ∉ root ∧
        (tr' = false → (a ++ '?' :: b ++ quote tr).getLast? ≠ some '\'') ∧ (b' = [] ∨ ∃ c ∈ b', ¬ DigitsOf [c])) ↔
        (b = [] ∨ ∃ c ∈ b, ¬ DigitsOf [c]) := by
      constructor
      · rintro ⟨root, b', tr', h1, h2, h3, h4⟩
        obtain ⟨h5, _⟩ := huniq _ _ h1 h3
        have h6 := congrArg (List.findIdx (· == '?')) h5
        rw [findIdx_mark _ _ ha, findIdx_mark _ _ h2] at h6
        have h7 := congrArg (List.drop (a.length + 1)) h5
        rw [e, h6, List.drop_length_add_append] at h7
        rw [h7]; exact h4
      · intro h
        refine ⟨a, b, tr, rfl, ha, ?_, h⟩
        rintro rfl
        simpa [quote] using hb rfl
    rw [hR]
    by_cases hbn : b = []
    · subst hbn; simp
    · have hpos := List.length_pos_iff.2 hbn
      rw [if_neg (by simp; omega)]
      by_cases hi : isAnInteger b = true
      · simp only [hi, Bool.not_true, Bool.false_eq_true, if_false, hbn, false_or]
        obtain ⟨_, hd⟩ := (isAnInteger_spec b).1 hi
        constructor
        · intro h
          cases hat : atoi b with
          | none => rw [hat] at h; simp [ofNested, bind, Except.bind, ubOut, throwOut] at h
          | some r =>
            cases r with
            | none => 
              obtain ⟨c, hc, h1, _⟩ := (atoi_throws b).1 hat
              exact ⟨c, hc, h1⟩
            | some n => rw [hat] at h; simp [ofNested, bind, Except.bind, throwOut] at h
        · rintro ⟨c, hc, hn⟩
          exact absurd (fun x hx => by simp at hx; subst hx; exact hd x hc) hn
      · simp only [hi, Bool.not_false, if_true, true_iff, hbn, false_or]
        by_contra hcon
        push Not at hcon
        apply hi
        rw [isAnInteger_spec]
        exact ⟨hbn, fun c hc => hcon c hc c (by simp)⟩
  · have : body.findIdx (· == '?') = body.length := by
      rw [List.findIdx_eq_length]
      intro x hx
      simpa using fun e : x = '?' => hq (e ▸ hx)
    rw [if_pos this]
    simp only [throwOut, reduceCtorEq, false_iff]
    rintro ⟨root, b', tr', h1, h2, h3, _⟩
    obtain ⟨h5, _⟩ := huniq _ _ h1 h3
    exact hq (by rw [h5]; simp)

example : OneOperatorSpec.ctor "c?12'".toList = .ok ⟨12, "c".toList, true⟩ ∧
    OneOperatorSpec.ctor "splus".toList = .ok ⟨0, "splus".toList, false⟩ ∧
    OneOperatorSpec.ctor "c?x".toList = throwOut := by decide +kernel

/-! ### Sites -/

theorem lastIndexOf_notMem (c : Char) : ∀ (s : List Char) (i : Nat) (acc : Option Nat), c ∉ s →
    lastIndexOf c s i acc = acc
  | [], _, _, _ => rfl
  | x :: xs, i, acc, h => by
    rw [lastIndexOf, if_neg (fun e : x = c => h (by simp [e])), lastIndexOf_notMem c xs _ _ (fun hm => h (by simp [hm]))]

theorem lastIndexOf_last (c : Char) (b : List Char) (hb : c ∉ b) : ∀ (a : List Char) (i : Nat) (acc : Option Nat),
    lastIndexOf c (a ++ c :: b) i acc = some (i + a.length)
  | [], i, acc => by
    rw [List.nil_append, lastIndexOf, if_pos rfl, lastIndexOf_notMem c b _ _ hb]; simp
  | x :: a, i, acc => by
    rw [List.cons_append, lastIndexOf, lastIndexOf_last c b hb a]; simp; omega

theorem last_split (c : Char) (s : List Char) (h : c ∈ s) : ∃ a b, s = a ++ c :: b ∧ c ∉ b := by
  induction s with
  | nil => simp at h
  | cons x s ih =>
    by_cases hs : c ∈ s
    · obtain ⟨a, b, rfl, hb⟩ := ih hs
      exact ⟨x :: a, b, rfl, hb⟩
    · have : c = x := by simpa [hs] using h
      exact ⟨[], s, by simp [this], hs⟩

/-- **C39** The site in brackets is taken out of the name. -/
theorem site_found (a site b : List Char) (x y : Char) (hxy : x ≠ y) (h1 : x ∉ site) (h2 : x ∉ b) (h3 : y ∉ b) :
    extractSiteIfAny (a ++ x :: site ++ y :: b) x y = .ok ⟨true, a ++ b, site⟩ := by
  have e1 : lastIndexOf x (a ++ x :: site ++ y :: b) 0 none = some a.length := by
    rw [List.append_assoc, List.cons_append, lastIndexOf_last x _ (by simp [h1, h2, hxy]) a]; simp
  have e2 : lastIndexOf y (a ++ x :: site ++ y :: b) 0 none = some (a.length + 1 + site.length) := by
    rw [lastIndexOf_last y b h3]; simp; omega
  unfold extractSiteIfAny
  rw [e1, e2]
  simp only
  have s1 : substr (a ++ x :: site ++ y :: b) 0 a.length = some a := by
    unfold substr; rw [if_pos (by simp), List.drop_zero, List.append_assoc, List.take_left]
  have s2 : substr (a ++ x :: site ++ y :: b) (a.length + 1 + site.length + 1)
      ((a ++ x :: site ++ y :: b).length - (a.length + 1 + site.length)) = some b := by
    unfold substr
    rw [if_pos (by simp; omega)]
    have : a.length + 1 + site.length + 1 = (a ++ x :: site).length + 1 := by simp; omega
    rw [this, List.drop_length_add_append]
    simp only [List.drop_succ_cons, List.drop_zero]
    rw [List.take_of_length_le]; simp; omega
  have s3 : substr (a ++ x :: site ++ y :: b) (a.length + 1) (a.length + 1 + site.length - a.length - 1) = some site := by
    unfold substr
    rw [if_pos (by simp), List.append_assoc, List.drop_length_add_append]
    simp only [List.cons_append, List.drop_succ_cons, List.drop_zero]
    rw [show a.length + 1 + site.length - a.length - 1 = site.length by omega, List.take_left]
  rw [s1, s2, if_pos (by omega), s3]
  rfl

/-- **C39** Without brackets the name is returned whole; with brackets of one kind only it is rejected. -/
theorem site_other (name : List Char) (x y : Char) :
    (extractSiteIfAny name x y = .ok ⟨false, name, []⟩ ↔ x ∉ name ∧ y ∉ name) ∧
    (extractSiteIfAny name x y = throwOut ↔ (x ∈ name ∧ y ∉ name) ∨ (x ∉ name ∧ y ∈ name)) := by
  unfold extractSiteIfAny
  by_cases hx : x ∈ name
  · obtain ⟨a, b, h, hb⟩ := last_split x name hx
    have e1 : lastIndexOf x name 0 none = some a.length := by rw [h, lastIndexOf_last x b hb]; simp
    by_cases hy : y ∈ name
    · obtain ⟨a', b', h', hb'⟩ := last_split y name hy
      have e2 : lastIndexOf y name 0 none = some a'.length := by rw [h', lastIndexOf_last y b' hb']; simp
      have l1 : a.length + b.length + 1 = name.length := by rw [h]; simp; omega
      have l2 : a'.length + b'.length + 1 = name.length := by rw [h']; simp; omega
      have s1 : ∀ i n, i ≤ name.length → ∃ r, substr name i n = some r := by
        intro i n hi; unfold substr; rw [if_pos hi]; exact ⟨_, rfl⟩
      obtain ⟨r1, g1⟩ := s1 0 a.length (by omega)
      obtain ⟨r2, g2⟩ := s1 (a'.length + 1) (name.length - a'.length) (by omega)
      obtain ⟨r3, g3⟩ := s1 (a.length + 1) (a'.length - a.length - 1) (by omega)
      have g4 : substrFrom name (a.length + 1) = some (name.drop (a.length + 1)) := by
        unfold substrFrom; rw [if_pos (by omega)]
      simp only [e1, e2, g1, g2, g3, g4, ofThrow, bind, Except.bind, hx, hy]
      split_ifs <;> simp [throwOut]
    · rw [e1, lastIndexOf_notMem y name _ _ hy]
      simp [throwOut, hx, hy]
  · rw [lastIndexOf_notMem x name _ _ hx]
    by_cases hy : y ∈ name
    · obtain ⟨a', b', h', hb'⟩ := last_split y name hy
      have e2 : lastIndexOf y name 0 none = some a'.length := by rw [h', lastIndexOf_last y b' hb']; simp
      rw [e2]; simp [throwOut, hx, hy]
    · rw [lastIndexOf_notMem y name _ _ hy]; simp [throwOut, hx, hy]

/-- **C39** Brackets in the wrong order are not rejected: the text between them is then returned twice as part of
the name, and the rest of the name as the site. -/
theorem site_reversed_fails : extractSiteIfAny "c]1[0".toList '[' ']' = .ok ⟨true, "c]11[0".toList, "0".toList⟩ := by
  decide +kernel

example : extractSiteIfAny "c?0[12]'".toList '[' ']' = .ok ⟨true, "c?0'".toList, "12".toList⟩ := by decide +kernel

/-! ## States -/

theorem stdAtoi_digits (n : Nat) (h : n ≤ 2147483647) : stdAtoi (Nat.toDigits 10 n) = some (n : Int) := by
  have := atoi_digits n h
  unfold atoi at this
  split_ifs at this with h
  · simpa using this
  · simp at this

theorem stdAtoi_nil : stdAtoi [] = some 0 := by decide

theorem getNumberFrom_digits (c : Char) (n : Nat) (h : n ≤ 2147483647) (rest : List Char)
    (hr : ∀ x, rest.head? = some x → isDigit x = false) :
    getNumberFrom (c :: (Nat.toDigits 10 n ++ rest)) 1 = .ok (n, rest) := by
  have ht : ((c :: (Nat.toDigits 10 n ++ rest)).drop 1).takeWhile isDigit = Nat.toDigits 10 n := by
    simp only [List.drop_succ_cons, List.drop_zero]
    rw [List.takeWhile_append_of_pos (isDigit_toDigits n)]
    cases rest with
    | nil => simp
    | cons x rest => simp [List.takeWhile_cons, hr x rfl]
  unfold getNumberFrom
  simp only [ht]
  have hs : substr (c :: (Nat.toDigits 10 n ++ rest)) (1 + (Nat.toDigits 10 n).length)
      ((c :: (Nat.toDigits 10 n ++ rest)).length - (1 + (Nat.toDigits 10 n).length)) = some rest := by
    unfold substr
    rw [if_pos (by simp; omega), Nat.add_comm 1, List.drop_succ_cons, List.drop_left, List.take_of_length_le]
    simp
  rw [hs, stdAtoi_digits n h]
  simp [ofThrow, bind, Except.bind]

theorem toDigits_pos (n : Nat) : 0 < (Nat.toDigits 10 n).length := Nat.length_toDigits_pos

theorem getKind_text (l : StateLabel) (h : l.fits) : getKind l.text = .ok l.meaning := by
  have hX : isDigit 'X' = false := by decide
  cases l with
  | gs => decide
  | time => decide
  | p n =>
    have h1 := getNumberFrom_digits 'P' n h [] (by simp)
    rw [List.append_nil] at h1
    have := toDigits_pos n
    simp only [StateLabel.text]
    unfold getKind
    rw [if_neg (by simp; omega), if_pos (by simp), h1]
    rfl
  | r n =>
    have h1 := getNumberFrom_digits 'R' n h [] (by simp)
    rw [List.append_nil] at h1
    have := toDigits_pos n
    simp only [StateLabel.text]
    unfold getKind
    rw [if_neg (by simp; omega), if_neg (by simp), if_neg (by simp), if_neg (by simp), if_neg (by simp), if_pos (by simp), h1]
    rfl
  | x n =>
    have h1 := getNumberFrom_digits 'X' n h [] (by simp)
    rw [List.append_nil] at h1
    have := toDigits_pos n
    simp only [StateLabel.text]
    unfold getKind
    rw [if_neg (by simp; omega), if_neg (by simp), if_neg (by simp), if_neg (by simp), if_neg (by simp), if_neg (by simp)]
    unfold getLevel
    rw [if_neg (by simp; omega), if_pos (by simp), h1]
    rfl
  | q n =>
    have h1 := getNumberFrom_digits 'Q' n h [] (by simp)
    rw [List.append_nil] at h1
    have := toDigits_pos n
    simp only [StateLabel.text]
    unfold getKind
    rw [if_neg (by simp; omega), if_neg (by simp), if_neg (by simp), if_neg (by simp), if_pos (by simp), h1]
    rfl
  | qx n l =>
    have h1 := getNumberFrom_digits 'Q' n h.1 ('X' :: Nat.toDigits 10 l) (by
      intro x hx; simp at hx; subst hx; exact hX)
    have h2 := getNumberFrom_digits 'X' l h.2 [] (by simp)
    rw [List.append_nil] at h2
    have := toDigits_pos n
    have := toDigits_pos l
    simp only [StateLabel.text]
    unfold getKind
    rw [if_neg (by simp; omega), if_neg (by simp), if_neg (by simp), if_neg (by simp), if_pos (by simp), h1]
    simp only [bind, Except.bind]
    unfold getLevel
    rw [if_neg (by simp; omega), if_pos (by simp), h2]
    rfl

theorem text_length (l : StateLabel) : 2 ≤ l.text.length := by
  cases l <;> simp only [StateLabel.text, List.length_cons, List.length_append]
  case gs => decide
  case time => decide
  all_goals first
    | (rename_i n; have := toDigits_pos n; omega)
    | (rename_i n m; have := toDigits_pos n; omega)

theorem text_head (l : StateLabel) : l.text.head? ≠ some '<' ∧ l.text.head? ≠ some '|' := by
  cases l <;> simp [StateLabel.text]

/-- **C64** Every documented label, bare, as a ket or as a bra, is recognised with its kind and numbers. -/
theorem braket_roundtrip (l : StateLabel) (h : l.fits) (w : Wrap) :
    ∃ isKet, BraOrKet.ctor (w.text l.text) = .ok ⟨isKet, l.text, l.meaning.1, l.meaning.2.1, l.meaning.2.2⟩ ∧
      (isKet = false ↔ w = .bra) := by
  have hl := text_length l
  obtain ⟨h1, h2⟩ := text_head l
  have hk := getKind_text l h
  cases w with
  | bare =>
    refine ⟨true, ?_, by simp⟩
    unfold BraOrKet.ctor Wrap.text
    simp only
    rw [if_neg (by omega)]
    have e : (if l.text.head? = some '|' ∧ l.text[l.text.length - 1]? = some '>' ∧ l.text.length > 2 then
        (l.text.drop 1).take (l.text.length - 2) else l.text) = l.text := if_neg (fun hc => h2 hc.1)
    rw [e, if_neg (fun hc => h1 hc.1)]
    have e2 : decide (l.text.head? = some '<' ∧ l.text[l.text.length - 1]? = some '|' ∧ l.text.length > 2) = false :=
      decide_eq_false (fun hc => h1 hc.1)
    simp [e2, hk, bind, Except.bind]
  | ket =>
    refine ⟨true, ?_, by simp⟩
    unfold BraOrKet.ctor Wrap.text
    simp only
    rw [if_neg (by simp)]
    have hlast : ('|' :: l.text ++ ['>'])[('|' :: l.text ++ ['>']).length - 1]? = some '>' := by simp
    have e : (if ('|' :: l.text ++ ['>']).head? = some '|' ∧ ('|' :: l.text ++ ['>'])[('|' :: l.text ++ ['>']).length - 1]? = some '>' ∧
        ('|' :: l.text ++ ['>']).length > 2 then
        (('|' :: l.text ++ ['>']).drop 1).take (('|' :: l.text ++ ['>']).length - 2) else ('|' :: l.text ++ ['>'])) = l.text := by
      rw [if_pos ⟨by simp, hlast, by simp; omega⟩]; simp
    rw [e, if_neg (fun hc => h1 hc.1)]
    simp [h1, hk, bind, Except.bind]
  | bra =>
    refine ⟨false, ?_, by simp⟩
    unfold BraOrKet.ctor Wrap.text
    simp only
    rw [if_neg (by simp)]
    have hlast : ('<' :: l.text ++ ['|'])[('<' :: l.text ++ ['|']).length - 1]? = some '|' := by simp
    have e : (if ('<' :: l.text ++ ['|']).head? = some '|' ∧ ('<' :: l.text ++ ['|'])[('<' :: l.text ++ ['|']).length - 1]? = some '>' ∧
        ('<' :: l.text ++ ['|']).length > 2 then
        (('<' :: l.text ++ ['|']).drop 1).take (('<' :: l.text ++ ['|']).length - 2) else ('<' :: l.text ++ ['|'])) = '<' :: l.text ++ ['|'] := by
      rw [if_neg]; rintro ⟨hc, _⟩; simp at hc
    rw [e, if_neg (by simp)]
    have e2 : decide (('<' :: l.text ++ ['|']).head? = some '<' ∧ ('<' :: l.text ++ ['|'])[('<' :: l.text ++ ['|']).length - 1]? = some '|' ∧
        ('<' :: l.text ++ ['|']).length > 2) = true := decide_eq_true ⟨by simp, hlast, by simp; omega⟩
    rw [e2]
    have e3 : (('<' :: l.text ++ ['|']).drop 1).take (('<' :: l.text ++ ['|']).length - 2) = l.text := by simp
    simp only [if_true, e3, hk, bind, Except.bind]
    rfl

/-- **C64** The queries answer for their own kind of vector only. -/
theorem braket_queries (b : BraOrKet) :
    (b.kind = .E → b.levelIndex = .ok b.second ∧ b.sectorIndex = .ok b.first ∧ b.pIndex = throwOut) ∧
    (b.kind ≠ .E → b.levelIndex = throwOut ∧ b.sectorIndex = throwOut ∧ b.pIndex = .ok b.first) ∧
    (b.isPvector = true ↔ b.kind = .P) ∧ (b.isRvector = true ↔ b.kind = .R) := by
  cases hk : b.kind <;> simp [BraOrKet.levelIndex, BraOrKet.sectorIndex, BraOrKet.pIndex, BraOrKet.isPvector, BraOrKet.isRvector, hk]

/-- **C64** A label that starts with none of the known letters and is neither `gs` nor `time` is rejected. -/
theorem braket_rejects (s : List Char) (h1 : ∀ c, s.head? = some c → c ∉ "PQRX|<".toList) (h2 : s ≠ "gs".toList)
    (h3 : s ≠ "time".toList) : BraOrKet.ctor s = throwOut := by
  unfold BraOrKet.ctor
  simp only
  by_cases hl : s.length < 2
  · rw [if_pos hl]
  · rw [if_neg hl]
    obtain ⟨c, t, rfl⟩ : ∃ c t, s = c :: t := by
      cases s with
      | nil => simp at hl
      | cons c t => exact ⟨c, t, rfl⟩
    have hc := h1 c rfl
    simp only [List.head?_cons, Option.some.injEq]
    have hc' : c ≠ 'P' ∧ c ≠ 'Q' ∧ c ≠ 'R' ∧ c ≠ 'X' ∧ c ≠ '|' ∧ c ≠ '<' := by simpa using hc
    simp only [hc'.2.2.2.2.1, false_and, if_false, List.head?_cons, Option.some.injEq, hc'.2.2.2.2.2, decide_false]
    have : getKind (c :: t) = throwOut := by
      unfold getKind
      rw [if_neg hl, if_neg (by simp [hc']), if_neg h2, if_neg h3, if_neg (by simp [hc']), if_neg (by simp [hc'])]
      unfold getLevel
      rw [if_neg hl, if_neg (by simp [hc'])]
    simp [this, bind, Except.bind, throwOut]

/-- **C64** A missing number is not rejected (the exception is built but not thrown), and text after the level
is ignored. -/
theorem braket_malformed_fails :
    (BraOrKet.ctor "Pz".toList = .ok ⟨true, "Pz".toList, .P, 0, 0⟩) ∧
    (BraOrKet.ctor "X1junk".toList = .ok ⟨true, "X1junk".toList, .E, 0, 1⟩) := by decide +kernel

/-- **C64** A ket around something that starts with `<` reads past the end of the string. -/
theorem braket_overrun_fails : BraOrKet.ctor "|<gs>".toList = ubOut := by decide +kernel

example : BraOrKet.ctor "<Q2X13|".toList = .ok ⟨false, "Q2X13".toList, .E, 2, 13⟩ := by decide +kernel
example : (StateLabel.qx 2 13).fits := by simp [StateLabel.fits]

end Verif.Labels
