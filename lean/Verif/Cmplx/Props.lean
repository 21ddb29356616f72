import Verif.Cmplx.Model
import Verif.Cmplx.Spec
import Verif.StrUtil.Props
import Mathlib.Tactic.Ring
import Mathlib.Tactic.FieldSimp
import Mathlib.Tactic.NormNum

/-!
# C71: how complex numbers are read
-/

namespace Verif.Cmplx

open Verif.StrUtil Verif.Str

/-! ## Decimal numbers -/

theorem digitsVal_eq (ds : Str) : digitsVal ds = natOf ds := rfl

theorem natOf_go (ds : Str) (k : Nat) :
    ds.foldl (fun n c => 10 * n + (c.toNat - '0'.toNat)) k = k * 10 ^ ds.length + natOf ds := by
  induction ds generalizing k with
  | nil => simp [natOf]
  | cons c ds ih =>
    have e : natOf (c :: ds) = ds.foldl (fun n c => 10 * n + (c.toNat - '0'.toNat)) (c.toNat - '0'.toNat) := by
      simp [natOf]
    rw [e, List.foldl_cons, ih, ih (c.toNat - '0'.toNat), List.length_cons, pow_succ]
    ring

theorem natOf_append (a b : Str) : natOf (a ++ b) = natOf a * 10 ^ b.length + natOf b := by
  conv_lhs => unfold natOf
  rw [List.foldl_append, natOf_go]
  rfl

/-- The text does not go on with what could belong to a number. -/
def Stop (s : Str) : Prop := ∀ c, s.head? = some c → isDigit c = false ∧ c ≠ '.' ∧ c ≠ 'e' ∧ c ≠ 'E'

theorem stop_nil : Stop [] := by simp [Stop]

theorem digits_iff (w : Str) : DigitsOf w ↔ ∀ c ∈ w, isDigit c = true := by
  simp only [DigitsOf, isDigit_iff]

theorem span_digits (w s : Str) (hw : DigitsOf w) (hs : ∀ c, s.head? = some c → isDigit c = false) :
    (w ++ s).takeWhile isDigit = w ∧ (w ++ s).dropWhile isDigit = s := by
  have hw := (digits_iff w).1 hw
  rw [List.takeWhile_append_of_pos hw, List.dropWhile_append_of_pos hw]
  cases s with
  | nil => simp
  | cons c s => simp [hs c rfl]

theorem takeSign_text (sg : Sign) (s : Str) (hs : ∀ c, s.head? = some c → c ≠ '+' ∧ c ≠ '-') :
    takeSign (sg.text ++ s) = (decide (sg = .minus), s) := by
  cases sg with
  | none =>
    simp only [Sign.text, List.nil_append]
    cases s with
    | nil => rfl
    | cons c s =>
      have := hs c rfl
      unfold takeSign
      split <;> simp_all
  | plus => rfl
  | minus => rfl

theorem takeFrac_text (f : Option Str) (s : Str) (hf : ∀ d, f = some d → DigitsOf d)
    (hs : ∀ c, s.head? = some c → isDigit c = false ∧ c ≠ '.') : takeFrac (fracText f ++ s) = (f.getD [], s) := by
  cases f with
  | none =>
    simp only [fracText, List.nil_append, Option.getD_none]
    cases s with
    | nil => rfl
    | cons c s =>
      have := hs c rfl
      unfold takeFrac
      split <;> simp_all
  | some d =>
    obtain ⟨h1, h2⟩ := span_digits d s (hf d rfl) (fun c hc => (hs c hc).1)
    simp only [fracText, List.cons_append, takeFrac, h1, h2, Option.getD_some]

theorem head_digit {d : Str} (h : DigitsOf d) (hne : d ≠ []) (s : Str) (c : Char) (hc : (d ++ s).head? = some c) :
    isDigit c = true := by
  cases d with
  | nil => exact absurd rfl hne
  | cons a d =>
    simp only [List.cons_append, List.head?_cons, Option.some.injEq] at hc
    subst hc
    exact (digits_iff _).1 h _ (by simp)

theorem digit_ne {c : Char} (h : isDigit c = true) : c ≠ '+' ∧ c ≠ '-' ∧ c ≠ '.' ∧ c ≠ 'e' ∧ c ≠ 'E' ∧ c ≠ 'i' ∧ c ≠ ',' ∧ c ≠ ')' ∧ c ≠ '(' := by
  have := (isDigit_iff c).1 h
  clear h
  revert c
  decide

theorem takeExpo_text (e : Option (Sign × Str)) (s : Str) (he : ∀ x, e = some x → DigitsOf x.2 ∧ x.2 ≠ [])
    (hs : Stop s) : takeExpo (expoText e ++ s) = (expoValue e, s) := by
  cases e with
  | none =>
    simp only [expoText, List.nil_append, expoValue]
    cases s with
    | nil => rfl
    | cons c s =>
      have := hs c rfl
      simp [takeExpo, this]
  | some x =>
    obtain ⟨sg, d⟩ := x
    obtain ⟨hd, hne⟩ := he _ rfl
    obtain ⟨h1, h2⟩ := span_digits d s hd (fun c hc => (hs c hc).1)
    have ht := takeSign_text sg (d ++ s) (fun c hc => by
      have := digit_ne (head_digit hd hne s c hc); exact ⟨this.1, this.2.1⟩)
    simp only [expoText, List.cons_append, List.append_assoc, takeExpo, true_or, if_true, ht, h1, h2, hne, if_false]
    cases sg <;> simp [expoValue, digitsVal_eq]

theorem expo_head (e : Option (Sign × Str)) (s : Str) (hs : Stop s) (c : Char)
    (hc : (expoText e ++ s).head? = some c) : isDigit c = false ∧ c ≠ '.' := by
  cases e with
  | none => exact ⟨(hs c hc).1, (hs c hc).2.1⟩
  | some x =>
    simp [expoText] at hc
    subst hc
    decide

theorem frac_head (f : Option Str) (s : Str) (hs : ∀ c, s.head? = some c → isDigit c = false) (c : Char)
    (hc : (fracText f ++ s).head? = some c) : isDigit c = false := by
  cases f with
  | none => exact hs c hc
  | some x =>
    simp [fracText] at hc
    subst hc
    decide

theorem body_head {n : Numeral} (h : n.Ok) (s : Str) (c : Char)
    (hc : (n.whole ++ (fracText n.frac ++ s)).head? = some c) : isDigit c = true ∨ c = '.' := by
  by_cases hw : n.whole = []
  · rcases h.some_digit with h' | ⟨d, hd, hne⟩
    · exact absurd hw h'
    · rw [hw, hd] at hc
      simp [fracText] at hc
      exact .inr hc.symm
  · exact .inl (head_digit h.whole hw _ c hc)

/-- A number is read with its value, up to where it ends. -/
theorem strtod_numeral (n : Numeral) (h : n.Ok) (s : Str) (hs : Stop s) : strtod (n.text ++ s) = some (n.value, s) := by
  have e : n.text ++ s = n.sign.text ++ (n.whole ++ (fracText n.frac ++ (expoText n.expo ++ s))) := by
    simp [Numeral.text]
  have h1 := takeSign_text n.sign (n.whole ++ (fracText n.frac ++ (expoText n.expo ++ s))) (fun c hc => by
    rcases body_head h _ c hc with h' | rfl
    · have := digit_ne h'; exact ⟨this.1, this.2.1⟩
    · decide)
  obtain ⟨h2, h3⟩ := span_digits n.whole (fracText n.frac ++ (expoText n.expo ++ s)) h.whole
    (frac_head _ _ (fun c hc => (expo_head _ s hs c hc).1))
  have h4 := takeFrac_text n.frac (expoText n.expo ++ s) h.frac (expo_head _ s hs)
  have h5 := takeExpo_text n.expo s h.expo hs
  unfold strtod
  rw [e]
  simp only [h1, h2, h3, h4, h5]
  rw [if_neg]
  · congr 2
    have hv : ((digitsVal (n.whole ++ n.frac.getD []) : Nat) : ℚ) / 10 ^ (n.frac.getD []).length =
        natOf n.whole + fracValue n.frac := by
      rw [digitsVal_eq, natOf_append]
      cases n.frac with
      | none => simp [natOf, fracValue]
      | some d =>
        have : (10 : ℚ) ^ d.length ≠ 0 := by positivity
        simp only [Option.getD_some, fracValue]
        push_cast
        field_simp
    rw [hv]
    unfold Numeral.value
    cases n.sign <;> simp [Sign.apply]
  · rintro ⟨ha, hb⟩
    rcases h.some_digit with h' | ⟨d, hd, hne⟩
    · exact h' ha
    · rw [hd] at hb; exact hne hb

/-- The characters of a number. -/
theorem numeral_chars {n : Numeral} (h : n.Ok) (c : Char) (hc : c ∈ n.text) :
    isDigit c = true ∨ c ∈ ['-', '+', 'e', 'E', '.'] := by
  have sg : ∀ s : Sign, c ∈ s.text → c ∈ ['-', '+', 'e', 'E', '.'] := by
    intro s hs
    cases s <;> simp [Sign.text] at hs <;> simp [hs]
  simp only [Numeral.text, List.mem_append] at hc
  rcases hc with ((hc | hc) | hc) | hc
  · exact .inr (sg _ hc)
  · exact .inl ((digits_iff _).1 h.whole c hc)
  · cases hf : n.frac with
    | none => rw [hf] at hc; simp [fracText] at hc
    | some d =>
      rw [hf] at hc
      simp only [fracText, List.mem_cons] at hc
      rcases hc with rfl | hc
      · simp
      · exact .inl ((digits_iff _).1 (h.frac d hf) c hc)
  · cases he : n.expo with
    | none => rw [he] at hc; simp [expoText] at hc
    | some x =>
      obtain ⟨s, d⟩ := x
      rw [he] at hc
      simp only [expoText, List.mem_cons, List.mem_append] at hc
      rcases hc with rfl | hc | hc
      · simp
      · exact .inr (sg _ hc)
      · exact .inl ((digits_iff _).1 (h.expo _ he).1 c hc)

theorem numeral_no {n : Numeral} (h : n.Ok) : 'i' ∉ n.text ∧ ',' ∉ n.text ∧ ')' ∉ n.text ∧ '(' ∉ n.text := by
  refine ⟨?_, ?_, ?_, ?_⟩ <;> intro hc <;> rcases numeral_chars h _ hc with h' | h' <;> revert h' <;> decide

theorem numeral_digit {n : Numeral} (h : n.Ok) : ∃ c ∈ n.text, isDigit c = true := by
  rcases h.some_digit with h' | ⟨d, hd, hne⟩
  · obtain ⟨c, t, e⟩ := List.exists_cons_of_ne_nil h'
    exact ⟨c, by simp [Numeral.text, e], (digits_iff _).1 h.whole c (by simp [e])⟩
  · obtain ⟨c, t, e⟩ := List.exists_cons_of_ne_nil hne
    exact ⟨c, by simp [Numeral.text, hd, e, fracText], (digits_iff _).1 (h.frac d hd) c (by simp [e])⟩

theorem numeral_ne {n : Numeral} (h : n.Ok) : n.text ≠ [] := by
  obtain ⟨c, hc, _⟩ := numeral_digit h
  exact List.ne_nil_of_mem hc

theorem isAfloat_iff (s : Str) : isAfloat s = true ↔
    (∀ c ∈ s, isDigit c = true ∨ c ∈ ['-', '+', 'e', 'E', '.']) ∧ ∃ c ∈ s, isDigit c = true := by
  unfold isAfloat
  rw [isAfloatLoop_spec]
  simp

/-- A number, maybe with something after it that is not part of it. -/
theorem atof_more (n : Numeral) (h : n.Ok) (s : Str) (hs : Stop s)
    (hc : ∀ c ∈ s, c ∈ ['-', '+', 'e', 'E', '.'] ∨ isDigit c = true) : atof (n.text ++ s) = .ok n.value := by
  have : isAfloat (n.text ++ s) = true := by
    rw [isAfloat_iff]
    refine ⟨?_, ?_⟩
    · intro c hm
      rcases List.mem_append.1 hm with hm | hm
      · exact numeral_chars h c hm
      · exact (hc c hm).symm
    · obtain ⟨c, hm, hd⟩ := numeral_digit h
      exact ⟨c, by simp [hm], hd⟩
  simp only [atof, this, if_true, stdAtof, strtod_numeral n h s hs]

/-- **C71** The value of a decimal number is the number. -/
theorem atof_spec (n : Numeral) (h : n.Ok) : atof n.text = .ok n.value := by
  have := atof_more n h [] stop_nil (by simp)
  simpa using this

/-- **C71** Text without a digit, or with a character that no number has, is refused. -/
theorem atof_refused (s : Str) (h : (∀ c ∈ s, isDigit c = false) ∨ ∃ c ∈ s, isDigit c = false ∧ c ∉ ['-', '+', 'e', 'E', '.']) :
    atof s = throwOut := by
  have : isAfloat s = false := by
    rw [Bool.eq_false_iff, ne_eq, isAfloat_iff]
    rintro ⟨h1, c, h2, h3⟩
    rcases h with h | ⟨d, hd, h4, h5⟩
    · rw [h c h2] at h3; simp at h3
    · rcases h1 d hd with h6 | h6
      · rw [h4] at h6; simp at h6
      · exact h5 h6
  simp [atof, this]

/-- **C71** What is after a number is ignored if it has only characters that numbers have. -/
theorem atof_malformed_fails : atof "1-2".toList = .ok 1 ∧ atof "1.5.7e".toList = .ok (3 / 2) ∧ atof "e5".toList = .ok 0 := by
  refine ⟨?_, ?_, ?_⟩ <;> decide +kernel

/-! ## `CpmlxOrReal` -/

theorem corLoop_eq (t b : Str) (f : Bool) :
    corLoop t b f = if t.count 'i' + f.toNat ≤ 1 then .ok (b ++ t.filter (· ≠ 'i'), f || decide ('i' ∈ t)) else
      if f = true ∧ t.count 'i' = 0 then .ok (b ++ t, true) else throwOut := by
  induction t generalizing b f with
  | nil => cases f <;> simp [corLoop]
  | cons c t ih =>
    by_cases hc : c = 'i'
    · subst hc
      cases f with
      | true => simp [corLoop]
      | false =>
        simp only [corLoop, if_true, ih, Bool.false_eq_true, if_false, List.count_cons_self]
        by_cases h0 : t.count 'i' = 0
        · simp [h0]
        · have : ¬ t.count 'i' + 1 ≤ 1 := by omega
          simp [h0]
    · have e : (c :: t).count 'i' = t.count 'i' := by
        rw [List.count_cons_of_ne hc]
      have hc' : 'i' ≠ c := fun e => hc e.symm
      simp only [corLoop, hc, if_false, ih, e]
      simp [hc, hc']

/-- **C71** `CpmlxOrReal`: what any text means. -/
theorem cor_spec (t : Str) : corComplex t =
    if 2 ≤ t.count 'i' then throwOut
    else if 'i' ∈ t then
      (if t = ['i'] then .ok (0, 1) else (atof (t.filter (· ≠ 'i'))).map fun x => (0, x))
    else (atof t).map fun x => (x, 0) := by
  unfold corComplex
  rw [corLoop_eq]
  by_cases h2 : 2 ≤ t.count 'i'
  · have : ¬ t.count 'i' ≤ 1 := by omega
    simp [h2, this, bind, Except.bind, throwOut]
  · have h1 : t.count 'i' ≤ 1 := by omega
    simp only [Bool.toNat_false, Nat.add_zero, h1, if_true, Bool.false_or, List.nil_append, h2, if_false, bind,
      Except.bind]
    by_cases hi : 'i' ∈ t
    · simp only [hi, decide_true, true_and, if_true]
      have hone : t.filter (· ≠ 'i') = [] ↔ t = ['i'] := by
        constructor
        · intro h
          rw [List.filter_eq_nil_iff] at h
          have hall : ∀ c ∈ t, c = 'i' := fun c hc => by simpa using h c hc
          have hrep := List.eq_replicate_of_mem hall
          have hlen : t.length = t.count 'i' := by
            conv_rhs => rw [hrep]
            simp
          have hpos : 0 < t.count 'i' := List.count_pos_iff.2 hi
          rw [hrep, show t.length = 1 by omega]
          rfl
        · rintro rfl; rfl
      by_cases ht : t = ['i']
      · simp only [hone.2 ht, ht, if_true]; rfl
      · have : ¬ t.filter (· ≠ 'i') = [] := fun h => ht (hone.1 h)
        simp only [this, ht, if_false]
        cases atof (t.filter (· ≠ 'i')) <;> rfl
    · have : t.filter (· ≠ 'i') = t := by
        rw [List.filter_eq_self]
        intro c hc
        simp only [decide_eq_true_eq]
        rintro rfl
        exact hi hc
      simp only [hi, decide_false, Bool.false_eq_true, false_and, if_false, this]
      cases atof t <;> rfl

/-- **C71** A number is itself. -/
theorem cor_real (n : Numeral) (h : n.Ok) : corComplex n.text = .ok (n.value, 0) ∧ corReal n.text = .ok n.value := by
  have hi := (numeral_no h).1
  have hc : n.text.count 'i' = 0 := List.count_eq_zero.2 hi
  constructor
  · rw [cor_spec]
    simp [hc, hi, atof_spec n h, Except.map]
  · simp [corReal, hi, atof_spec n h]

/-- **C71** A number followed by `i`, or after it, is imaginary, and `i` is the imaginary unit. -/
theorem cor_imag (n : Numeral) (h : n.Ok) :
    corComplex (n.text ++ ['i']) = .ok (0, n.value) ∧ corComplex ('i' :: n.text) = .ok (0, n.value) ∧
    corComplex ['i'] = .ok (0, 1) := by
  have hi := (numeral_no h).1
  have hc : n.text.count 'i' = 0 := List.count_eq_zero.2 hi
  have hne := numeral_ne h
  have hf : n.text.filter (· ≠ 'i') = n.text := by
    rw [List.filter_eq_self]
    intro c hc
    simp only [decide_eq_true_eq]
    rintro rfl
    exact hi hc
  refine ⟨?_, ?_, ?_⟩
  · rw [cor_spec]
    have e : ¬ n.text ++ ['i'] = ['i'] := by simpa using hne
    have e2 : (n.text ++ ['i']).filter (· ≠ 'i') = n.text := by rw [List.filter_append, hf]; simp
    rw [e2]
    simp [hc, e, atof_spec n h, Except.map]
  · rw [cor_spec]
    have e2 : ('i' :: n.text).filter (· ≠ 'i') = n.text := by rw [List.filter_cons_of_neg (by simp), hf]
    rw [e2]
    simp [hc, hne, atof_spec n h, Except.map]
  · rw [cor_spec]; simp

/-- **C71** In code for real numbers, `i` is refused. -/
theorem corReal_refused (t : Str) (h : 'i' ∈ t) : corReal t = throwOut ∧ astReal t = throwOut := by
  simp [corReal, astReal, h]

/-- **C71** `-i` is refused, and an `i` inside a number is taken out of it. -/
theorem cor_fails : corComplex "-i".toList = throwOut ∧ corComplex "1i2".toList = .ok (0, 12) := by
  constructor <;> decide +kernel

/-! ## Examples -/

theorem numeral1_ok : numeral1.Ok := by
  refine ⟨?_, ?_, .inl (by simp [numeral1]), ?_⟩
  · intro c hc; simp [numeral1] at hc; rcases hc with rfl | rfl <;> decide
  · intro d hd c hc; simp [numeral1] at hd; subst hd; simp at hc; rcases hc with rfl | rfl <;> decide
  · intro e he; simp [numeral1] at he; subst he
    exact ⟨by intro c hc; simp at hc; subst hc; decide, by simp⟩

/-- `.5` -/
def numeral2 : Numeral := ⟨.none, [], some ['5'], none⟩

theorem numeral2_ok : numeral2.Ok := by
  refine ⟨?_, ?_, .inr ⟨['5'], rfl, by simp⟩, ?_⟩
  · intro c hc; simp [numeral2] at hc
  · intro d hd c hc; simp [numeral2] at hd; subst hd; simp at hc; subst hc; decide
  · intro e he; simp [numeral2] at he

example : atof numeral1.text = .ok numeral1.value := atof_spec numeral1 numeral1_ok
example : atof ".5".toList = .ok numeral2.value := atof_spec numeral2 numeral2_ok
example : atof "abc".toList = throwOut := atof_refused _ (.inl (by decide))
example : atof "1.5x".toList = throwOut := atof_refused _ (.inr ⟨'x', by decide, by decide, by decide⟩)
example : strtod (numeral1.text ++ ['i', '7']) = some (numeral1.value, ['i', '7']) :=
  strtod_numeral numeral1 numeral1_ok _ (by intro c hc; simp at hc; subst hc; decide)
example : corComplex numeral1.text = .ok (numeral1.value, 0) ∧ corReal numeral1.text = .ok numeral1.value := cor_real _ numeral1_ok
example : corComplex (numeral1.text ++ ['i']) = .ok (0, numeral1.value) := (cor_imag _ numeral1_ok).1
example : corReal "2.5i".toList = throwOut ∧ astReal "2.5i".toList = throwOut := corReal_refused _ (by decide)

end Verif.Cmplx
