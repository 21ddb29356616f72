import Verif.Cmplx.Props

/-!
# C71: the readers of Ainur, of input files and of expressions
-/

namespace Verif.Cmplx

open Verif.StrUtil Verif.Str

/-! ## Ainur -/

theorem ainurLoop_plain (t u b : Str) (f : Bool) (r : ℚ) (ht : 'i' ∉ t) :
    ainurLoop (t ++ u) b f r = ainurLoop u (b ++ t) f r := by
  induction t generalizing b with
  | nil => simp
  | cons c t ih =>
    have hc : c ≠ 'i' := fun e => ht (by simp [e])
    rw [List.cons_append]
    conv_lhs => unfold ainurLoop
    rw [if_neg (by simp [hc]), if_neg hc, ih _ (fun e => ht (by simp [e]))]
    simp

theorem ainurLoop_i (u b : Str) (r : ℚ) : ainurLoop ('i' :: u) b false r =
    (if b = [] then .ok 0 else atof b) >>= fun x => ainurLoop u [] true x := by
  conv_lhs => unfold ainurLoop
  simp

theorem ainur_number (n : Numeral) (h : n.Ok) : n.text ≠ ['i'] ∧ n.text ≠ ['-', 'i'] := by
  have hi := (numeral_no h).1
  constructor <;> intro e <;> rw [e] at hi <;> simp at hi

/-- **C71** Ainur: a number is itself. -/
theorem ainur_real (n : Numeral) (h : n.Ok) : toComplex n.text = .ok (n.value, 0) := by
  have hi := (numeral_no h).1
  obtain ⟨h1, h2⟩ := ainur_number n h
  have e := ainurLoop_plain n.text [] [] false 0 hi
  rw [List.append_nil] at e
  unfold toComplex
  rw [if_neg h1, if_neg h2, e]
  simp [ainurLoop, atof_spec n h, bind, Except.bind, pure, Except.pure]

theorem ainur_parts (s : Str) (n : Numeral) (h : n.Ok) (hs : 'i' ∉ s) (x : ℚ)
    (hx : (if s = [] then .ok 0 else atof s) = .ok x) : toComplex (s ++ 'i' :: n.text) = .ok (x, n.value) := by
  have hi := (numeral_no h).1
  have hne := numeral_ne h
  have h1 : s ++ 'i' :: n.text ≠ ['i'] := by
    intro e
    have := congrArg List.length e
    have hl : 0 < n.text.length := List.length_pos_iff.2 hne
    simp at this
    omega
  have h2 : s ++ 'i' :: n.text ≠ ['-', 'i'] := by
    intro e
    have := congrArg List.getLast? e
    rw [show s ++ 'i' :: n.text = (s ++ ['i']) ++ n.text by simp, List.getLast?_append_of_ne_nil _ hne] at this
    have hm := List.mem_of_getLast? this
    exact hi hm
  have e2 := ainurLoop_plain n.text [] [] true x hi
  rw [List.append_nil] at e2
  unfold toComplex
  rw [if_neg h1, if_neg h2, ainurLoop_plain s _ [] false 0 hs, List.nil_append, ainurLoop_i, hx]
  simp [bind, Except.bind, e2, ainurLoop, atof_spec n h, pure, Except.pure]

/-- **C71** Ainur: `a i b` (without spaces) is `a + i b`, `i b` is imaginary, `i` and `-i` are the imaginary unit and its
opposite, and `a+ib` may be written with a plus. -/
theorem ainur_imag (a b : Numeral) (ha : a.Ok) (hb : b.Ok) :
    toComplex (a.text ++ 'i' :: b.text) = .ok (a.value, b.value) ∧
    toComplex (a.text ++ '+' :: 'i' :: b.text) = .ok (a.value, b.value) ∧
    toComplex ('i' :: b.text) = .ok (0, b.value) ∧
    toComplex ['i'] = .ok (0, 1) ∧ toComplex ['-', 'i'] = .ok (0, -1) := by
  refine ⟨?_, ?_, ?_, by rfl, by rfl⟩
  · exact ainur_parts a.text b hb (numeral_no ha).1 _ (by rw [if_neg (numeral_ne ha), atof_spec a ha])
  · have := ainur_parts (a.text ++ ['+']) b hb (by simp [(numeral_no ha).1]) a.value (by
      rw [if_neg (by simp), atof_more a ha ['+'] (by simp [Stop, isDigit]) (by simp)])
    simpa using this
  · exact ainur_parts [] b hb (by simp) 0 (by rfl)

/-- **C71** Ainur: a second `i` is refused. -/
theorem ainur_two (t : Str) (h : 2 ≤ t.count 'i') (hok : ∀ s u, t = s ++ 'i' :: u → 'i' ∉ s → s = [] ∨ isAfloat s = true) :
    toComplex t = throwOut := by
  have h1 : t ≠ ['i'] := by rintro rfl; simp at h
  have h2 : t ≠ ['-', 'i'] := by rintro rfl; simp [List.count_cons] at h
  have split : ∀ t : Str, 'i' ∈ t → ∃ s u, t = s ++ 'i' :: u ∧ 'i' ∉ s := fun t ht => by
    obtain ⟨s, u, e, hs⟩ := List.eq_append_cons_of_mem ht
    exact ⟨s, u, e, hs⟩
  obtain ⟨s, u, rfl, hs⟩ := split t (List.count_pos_iff.1 (by omega))
  have hu : 'i' ∈ u := by
    rw [List.count_append, List.count_cons_self, List.count_eq_zero.2 hs] at h
    exact List.count_pos_iff.1 (by omega)
  obtain ⟨s', u', rfl, hs'⟩ := split u hu
  unfold toComplex
  rw [if_neg h1, if_neg h2, ainurLoop_plain s _ [] false 0 hs, List.nil_append, ainurLoop_i]
  have hx : ∃ x, (if s = [] then .ok 0 else atof s) = Except.ok (ε := Bad) x := by
    rcases hok s _ rfl hs with rfl | hf
    · exact ⟨0, rfl⟩
    · by_cases h0 : s = []
      · exact ⟨0, by rw [if_pos h0]⟩
      · exact ⟨_, by rw [if_neg h0]; unfold atof; rw [if_pos hf]⟩
  obtain ⟨x, hx⟩ := hx
  rw [hx]
  simp only [bind, Except.bind, ainurLoop_plain s' _ [] true x hs']
  simp [ainurLoop, throwOut]

/-- **C71** Ainur: `2i` is refused, the sign of `1-i2` is lost, and the text `2i3` is another number than for
`CpmlxOrReal`. -/
theorem ainur_fails : toComplex "2i".toList = throwOut ∧ toComplex "1-i2".toList = .ok (1, 2) ∧
    toComplex "2i3".toList = .ok (2, 3) ∧ corComplex "2i3".toList = .ok (0, 23) := by
  refine ⟨?_, ?_, ?_, ?_⟩ <;> decide +kernel

/-! ## Input files -/

theorem stringToReal_spec (n : Numeral) (h : n.Ok) : stringToReal n.text = .ok n.value := by
  unfold stringToReal
  rw [if_pos, atof_spec n h]
  rw [List.all_eq_true]
  intro c hc
  rcases numeral_chars h c hc with h' | h'
  · simp [h']
  · revert h'
    simp only [List.mem_cons, List.not_mem_nil, or_false]
    rintro (rfl | rfl | rfl | rfl | rfl) <;> simp

/-- **C71** Input files: a number is itself, and the text that `operator<<` writes for a complex number is read as that
number. -/
theorem input_spec (a b : Numeral) (ha : a.Ok) (hb : b.Ok) :
    inputComplex a.text = .ok (a.value, 0) ∧
    inputComplex ('(' :: (a.text ++ ',' :: (b.text ++ [')']))) = .ok (a.value, b.value) := by
  constructor
  · unfold inputComplex
    split
    · rename_i t e
      exact absurd (show '(' ∈ a.text by rw [e]; simp) (numeral_no ha).2.2.2
    · simp [stringToReal_spec a ha, bind, Except.bind, pure, Except.pure]
  · have h1 : (a.text ++ ',' :: (b.text ++ [')'])).takeWhile (· ≠ ',') = a.text := by
      rw [List.takeWhile_append_of_pos (by
        intro c hc; simp only [decide_eq_true_eq]; rintro rfl; exact (numeral_no ha).2.1 hc)]
      simp
    have h2 : (a.text ++ ',' :: (b.text ++ [')'])).dropWhile (· ≠ ',') = ',' :: (b.text ++ [')']) := by
      rw [List.dropWhile_append_of_pos (by
        intro c hc; simp only [decide_eq_true_eq]; rintro rfl; exact (numeral_no ha).2.1 hc)]
      simp
    have h3 : (b.text ++ [')']).takeWhile (· ≠ ')') = b.text := by
      rw [List.takeWhile_append_of_pos (by
        intro c hc; simp only [decide_eq_true_eq]; rintro rfl; exact (numeral_no hb).2.2.1 hc)]
      simp
    unfold inputComplex
    simp only [h1, h2]
    rw [if_pos (by simp), List.drop_one, List.tail_cons, h3, stringToReal_spec a ha, stringToReal_spec b hb]
    rfl

/-- **C71** Input files: what is after the closing parenthesis is ignored, and it need not be there. -/
theorem input_fails : inputComplex "(1,2".toList = .ok (1, 2) ∧ inputComplex "(1,2)7".toList = .ok (1, 2) := by
  constructor <;> decide +kernel

/-! ## Expressions -/

theorem accLoop_stop (s : Str) (hs : Stop s) (a b c : Bool) : accLoop s a b c = ([], s) := by
  cases s with
  | nil => rfl
  | cons d s =>
    have := hs d rfl
    unfold accLoop
    simp [this]

theorem accLoop_digits (w t : Str) (hw : DigitsOf w) (a b c : Bool) :
    accLoop (w ++ t) a b c =
      (w ++ (accLoop t (a || decide (w ≠ [])) b c).1, (accLoop t (a || decide (w ≠ [])) b c).2) := by
  induction w generalizing a with
  | nil => simp
  | cons d w ih =>
    have hd := (digits_iff _).1 hw d (by simp)
    rw [List.cons_append]
    conv_lhs => unfold accLoop
    rw [if_pos hd, ih (fun c hc => hw c (by simp [hc])) _]
    simp

theorem accLoop_expo (e : Option (Sign × Str)) (he : ∀ x, e = some x → DigitsOf x.2 ∧ x.2 ≠ []) (s : Str) (hs : Stop s)
    (b : Bool) : accLoop (expoText e ++ s) true b false = (expoText e, s) := by
  cases e with
  | none => exact accLoop_stop s hs _ _ _
  | some x =>
    obtain ⟨sg, d⟩ := x
    obtain ⟨hd, hne⟩ := he _ rfl
    have key := accLoop_digits d s hd true b true
    rw [accLoop_stop s hs] at key
    obtain ⟨c, d', rfl⟩ := List.exists_cons_of_ne_nil hne
    have hc := digit_ne ((digits_iff _).1 hd c (by simp))
    cases sg <;> simp only [expoText, Sign.text, List.cons_append, List.nil_append] at key ⊢ <;> unfold accLoop <;>
      simp [isDigit, hc, key]

theorem accLoop_body (n : Numeral) (h : n.Ok) (s : Str) (hs : Stop s) :
    accLoop (n.whole ++ (fracText n.frac ++ (expoText n.expo ++ s))) false false false =
      (n.whole ++ (fracText n.frac ++ expoText n.expo), s) := by
  have he := accLoop_expo n.expo h.expo s hs
  rw [accLoop_digits _ _ h.whole]
  cases hf : n.frac with
  | none =>
    have hw : n.whole ≠ [] := by
      rcases h.some_digit with h' | ⟨d, hd, _⟩
      · exact h'
      · rw [hf] at hd; cases hd
    simp [fracText, hw, he]
  | some d =>
    have h1 : ∀ a, accLoop (fracText (some d) ++ (expoText n.expo ++ s)) a false false =
        ('.' :: (accLoop (d ++ (expoText n.expo ++ s)) a true false).1, (accLoop (d ++ (expoText n.expo ++ s)) a true false).2) := by
      intro a
      simp only [fracText, List.cons_append]
      conv_lhs => unfold accLoop
      simp [isDigit]
    rw [h1, accLoop_digits _ _ (h.frac d hf)]
    have : (false || decide (n.whole ≠ []) || decide (d ≠ [])) = true := by
      rcases h.some_digit with h' | ⟨d', hd, hne⟩
      · simp [h']
      · rw [hf] at hd; cases hd; simp [hne]
    rw [this, he]
    simp [fracText]

theorem accumulate_numeral (n : Numeral) (h : n.Ok) (s : Str) (hs : Stop s) : accumulate (n.text ++ s) = (n.text, s) := by
  have key := accLoop_body n h s hs
  have e : n.text ++ s = n.sign.text ++ (n.whole ++ (fracText n.frac ++ (expoText n.expo ++ s))) := by
    simp [Numeral.text]
  rw [e]
  have hh := body_head h (expoText n.expo ++ s)
  generalize hB : n.whole ++ (fracText n.frac ++ (expoText n.expo ++ s)) = B at key hh ⊢
  have et : n.text = n.sign.text ++ (n.whole ++ (fracText n.frac ++ expoText n.expo)) := by simp [Numeral.text]
  rw [et]
  cases n.sign with
  | none =>
    simp only [Sign.text, List.nil_append]
    unfold accumulate
    split
    · exact absurd (hh '-' rfl) (by decide)
    · exact absurd (hh '+' rfl) (by decide)
    · exact key
  | plus => simp only [Sign.text, List.cons_append, List.nil_append, accumulate, key]
  | minus => simp only [Sign.text, List.cons_append, List.nil_append, accumulate, key]

theorem numeral_ws {n : Numeral} (h : n.Ok) (c : Char) (hc : c ∈ n.text) : isWs c = false := by
  rcases numeral_chars h c hc with h' | h'
  · have := (isDigit_iff c).1 h'
    clear h' hc
    revert c
    decide
  · clear hc
    revert c
    decide

theorem getDouble_numeral (n : Numeral) (h : n.Ok) (s : Str) (hs : Stop s) (old : ℚ) :
    getDouble old ⟨n.text ++ s, false, false⟩ = (n.value, ⟨s, decide (s = []), false⟩) := by
  obtain ⟨c, t, e⟩ := List.exists_cons_of_ne_nil (numeral_ne h)
  have hw : isWs c = false := numeral_ws h c (by simp [e])
  have hd : (n.text ++ s).dropWhile isWs = n.text ++ s := by
    rw [e, List.cons_append, List.dropWhile_cons_of_neg (by simp [hw])]
  have ha := accumulate_numeral n h s hs
  have hst := strtod_numeral n h [] stop_nil
  rw [List.append_nil] at hst
  unfold getDouble
  rw [if_neg (by simp)]
  simp only [hd]
  rw [e, List.cons_append] at ha ⊢
  simp only [ha]
  rw [← e, hst]

/-- **C71** Expressions: a number is itself. -/
theorem ast_real (n : Numeral) (h : n.Ok) : stringToComplex n.text = (n.value, 0) ∧ astReal n.text = .ok n.value := by
  have hi := (numeral_no h).1
  have hg := getDouble_numeral n h [] stop_nil 0
  rw [List.append_nil] at hg
  have hl : n.text.getLast? ≠ some 'i' := fun e => hi (List.mem_of_getLast? e)
  constructor
  · unfold stringToComplex
    simp only [hg, hi, if_false, hl, ne_eq, not_false_eq_true, if_true, neg_zero, ite_self]
  · simp [astReal, hi, atof_spec n h]

/-- **C71** Expressions: a number without any sign, followed by `i`, is imaginary. -/
theorem ast_imag (n : Numeral) (h : n.Ok) (hp : '+' ∉ n.text) (hm : '-' ∉ n.text) :
    stringToComplex (n.text ++ ['i']) = (0, n.value) := by
  have hg := getDouble_numeral n h ['i'] (by simp [Stop, isDigit]) 0
  unfold stringToComplex
  rw [if_neg (by simp [hp, hm]), if_pos (by simp)]
  simp [hg]

/-- **C71** Expressions: a text without signs whose `i` is not at its end is read as zero. -/
theorem ast_inside_fails (s : Str) (hp : '+' ∉ s) (hm : '-' ∉ s) (hi : 'i' ∈ s) (hl : s.getLast? ≠ some 'i') :
    stringToComplex s = (0, 0) := by
  unfold stringToComplex
  rw [if_neg (by simp [hp, hm]), if_pos hi]
  simp [hl]

theorem afterPlus_none (s : Str) (h : '+' ∉ s) : afterPlus s = s.headD '\x00' := by
  unfold afterPlus
  have : s.dropWhile (· ≠ '+') = [] := by
    have := List.dropWhile_append_of_pos (p := fun c => decide (c ≠ '+')) (l₁ := s) (l₂ := []) (by
      intro c hc; simp only [decide_eq_true_eq]; rintro rfl; exact h hc)
    simpa using this
  rw [this]

theorem afterPlus_some (a b : Str) (h : '+' ∉ a) : afterPlus (a ++ '+' :: b) = b.headD '\x00' := by
  unfold afterPlus
  have : (a ++ '+' :: b).dropWhile (· ≠ '+') = '+' :: b := by
    rw [List.dropWhile_append_of_pos (by intro c hc; simp only [decide_eq_true_eq]; rintro rfl; exact h hc)]
    simp
  rw [this]

/-- After a plus in a number comes a digit or a period. -/
theorem plus_split (n : Numeral) (h : n.Ok) (hp : '+' ∈ n.text) :
    ∃ a c b, n.text = a ++ '+' :: c :: b ∧ '+' ∉ a ∧ (isDigit c = true ∨ c = '.') := by
  have dig : ∀ w : Str, DigitsOf w → '+' ∉ w := by
    intro w hw hm
    have := (digits_iff w).1 hw _ hm
    revert this; decide
  have hfr : '+' ∉ fracText n.frac := by
    cases hf : n.frac with
    | none => simp [fracText]
    | some d => simp [fracText, dig d (h.frac d hf)]
  by_cases hs : n.sign = .plus
  · have hh := body_head h (expoText n.expo)
    cases hB : n.whole ++ (fracText n.frac ++ expoText n.expo) with
    | nil =>
      rw [List.append_eq_nil_iff, List.append_eq_nil_iff] at hB
      rcases h.some_digit with h' | ⟨d, hd, _⟩
      · exact absurd hB.1 h'
      · rw [hd] at hB; simp [fracText] at hB
    | cons c b =>
      rw [hB] at hh
      exact ⟨[], c, b, by simp only [Numeral.text, hs, Sign.text, List.append_assoc, hB]; rfl, by simp, hh c rfl⟩
  · have hsn : '+' ∉ n.sign.text := by
      cases hh : n.sign <;> simp_all [Sign.text]
    simp only [Numeral.text, List.mem_append, hsn, dig _ h.whole, hfr, false_or] at hp
    cases he : n.expo with
    | none => rw [he] at hp; simp [expoText] at hp
    | some x =>
      obtain ⟨sg, d⟩ := x
      obtain ⟨hd, hne⟩ := h.expo _ he
      rw [he] at hp
      simp only [expoText, List.mem_cons, List.mem_append, dig d hd, or_false] at hp
      rcases hp with hp | hp
      · exact absurd hp (by decide)
      · cases sg with
        | none => simp [Sign.text] at hp
        | minus => simp [Sign.text] at hp
        | plus =>
          obtain ⟨c, d', e⟩ := List.exists_cons_of_ne_nil hne
          have e : d = c :: d' := e
          refine ⟨n.sign.text ++ n.whole ++ fracText n.frac ++ ['e'], c, d', ?_, ?_, .inl ((digits_iff d).1 hd c (by simp [e]))⟩
          · simp [Numeral.text, he, expoText, Sign.text, e]
          · simp [hsn, dig _ h.whole, hfr]

theorem ast_parts (x y : Numeral) (hx : x.Ok) (hy : y.Ok) (sg : Char) (hsg : sg = '+' ∨ sg = '-') :
    stringToComplex (x.text ++ sg :: (y.text ++ ['i'])) =
      (x.value, if afterPlus (x.text ++ sg :: (y.text ++ ['i'])) = '-' then -y.value else y.value) := by
  have hst : Stop (sg :: (y.text ++ ['i'])) := by
    rcases hsg with rfl | rfl <;> simp [Stop, isDigit]
  have hg := getDouble_numeral x hx _ hst 0
  have hg2 := getDouble_numeral y hy ['i'] (by simp [Stop, isDigit]) 0
  have hws : isWs sg = false := by rcases hsg with rfl | rfl <;> decide
  have hc : getChar ⟨sg :: (y.text ++ ['i']), false, false⟩ = ⟨y.text ++ ['i'], false, false⟩ := by
    simp [getChar, List.dropWhile_cons, hws]
  have hl : (x.text ++ sg :: (y.text ++ ['i'])).getLast? = some 'i' := by
    rw [show x.text ++ sg :: (y.text ++ ['i']) = (x.text ++ sg :: y.text) ++ ['i'] by simp, List.getLast?_concat]
  unfold stringToComplex
  rw [if_pos (by rcases hsg with rfl | rfl <;> simp)]
  simp only [hg, List.cons_ne_nil, reduceCtorEq, decide_false, hc, hg2, hl, ne_eq, not_true_eq_false, if_false]

/-- A numeral without sign begins with a digit or a period. -/
theorem unsigned_head (y : Numeral) (hy : y.Ok) (hs : y.sign = .none) : ∃ c t, y.text = c :: t ∧ (isDigit c = true ∨ c = '.') := by
  obtain ⟨c, t, e⟩ := List.exists_cons_of_ne_nil (numeral_ne hy)
  refine ⟨c, t, e, ?_⟩
  have : y.text = y.whole ++ (fracText y.frac ++ expoText y.expo) := by simp [Numeral.text, hs, Sign.text]
  rw [this] at e
  exact body_head hy _ c (by rw [e]; rfl)

theorem not_minus {c : Char} (h : isDigit c = true ∨ c = '.') : c ≠ '-' := by
  rcases h with h | rfl
  · exact (digit_ne h).2.1
  · decide

/-- **C71** Expressions: `x+yi` is `x + i y`, for any number `x` and any number `y` written without a sign. -/
theorem ast_plus (x y : Numeral) (hx : x.Ok) (hy : y.Ok) (hs : y.sign = .none) :
    stringToComplex (x.text ++ '+' :: (y.text ++ ['i'])) = (x.value, y.value) := by
  rw [ast_parts x y hx hy '+' (.inl rfl), if_neg]
  by_cases hp : '+' ∈ x.text
  · obtain ⟨a, c, b, e, ha, hc⟩ := plus_split x hx hp
    rw [e, List.append_assoc, List.cons_append, afterPlus_some _ _ ha]
    exact not_minus hc
  · rw [afterPlus_some _ _ hp]
    obtain ⟨c, t, e, hc⟩ := unsigned_head y hy hs
    rw [e]
    exact not_minus hc

/-- **C71** Expressions: `x-yi` is `x - i y` if `x` is negative and no exponent has a plus; otherwise the sign is lost,
and the result is `x + i y`. -/
theorem ast_minus (x y : Numeral) (hx : x.Ok) (hy : y.Ok) :
    stringToComplex (x.text ++ '-' :: (y.text ++ ['i'])) =
      (x.value, if x.sign = .minus ∧ '+' ∉ x.text ∧ '+' ∉ y.text then -y.value else y.value) := by
  rw [ast_parts x y hx hy '-' (.inr rfl)]
  congr 1
  by_cases hpx : '+' ∈ x.text
  · obtain ⟨a, c, b, e, ha, hc⟩ := plus_split x hx hpx
    rw [if_neg, if_neg (by simp [hpx])]
    rw [e, List.append_assoc, List.cons_append, afterPlus_some _ _ ha]
    exact not_minus hc
  · by_cases hpy : '+' ∈ y.text
    · obtain ⟨a, c, b, e, ha, hc⟩ := plus_split y hy hpy
      rw [if_neg, if_neg (by simp [hpy])]
      rw [e, show x.text ++ '-' :: (a ++ '+' :: c :: b ++ ['i']) = (x.text ++ '-' :: a) ++ '+' :: (c :: b ++ ['i']) by simp,
        afterPlus_some _ _ (by simp [hpx, ha])]
      exact not_minus hc
    · have : '+' ∉ x.text ++ '-' :: (y.text ++ ['i']) := by simp [hpx, hpy]
      rw [afterPlus_none _ this]
      simp only [hpx, hpy, not_false_eq_true, and_true]
      by_cases hs : x.sign = .minus
      · rw [if_pos hs, if_pos]
        simp [Numeral.text, hs, Sign.text]
      · rw [if_neg hs, if_neg]
        cases hh : x.sign with
        | minus => exact absurd hh hs
        | plus => simp [Numeral.text, hh, Sign.text] at hpx
        | none =>
          obtain ⟨c, t, e, hc⟩ := unsigned_head x hx hh
          rw [e]
          exact not_minus hc

/-- **C71** Expressions: in `1-2i` the sign is lost, `-2i` is read as `-2`, `1+-2i` as `1+2i`, `1e-3i` as a real number, and
`i` as zero. -/
theorem ast_fails : stringToComplex "1-2i".toList = (1, 2) ∧ stringToComplex "-2i".toList = (-2, 0) ∧
    stringToComplex "1+-2i".toList = (1, 2) ∧ stringToComplex "1e-3i".toList = (1 / 1000, 0) ∧
    stringToComplex "i".toList = (0, 0) := by
  refine ⟨?_, ?_, ?_, ?_, ?_⟩ <;> decide +kernel

/-! ## Cases -/

example : numeral1.text = "-12.50e+3".toList ∧ numeral1.value = -12500 := by
  constructor
  · rfl
  · simp [numeral1, Numeral.value, Sign.apply, natOf, fracValue, expoValue]; norm_num

example : atof "-12.50e+3".toList = .ok (-12500) := by decide +kernel
example : toComplex "1.5+i2".toList = .ok (3 / 2, 2) := by decide +kernel
example : inputComplex "(1.5,-2)".toList = .ok (3 / 2, -2) := by decide +kernel
example : stringToComplex "1.5e2+.25i".toList = (150, 1 / 4) := by decide +kernel
example : stringToComplex "-1-2i".toList = (-1, -2) := by decide +kernel

example : toComplex numeral1.text = .ok (numeral1.value, 0) := ainur_real _ numeral1_ok
example : toComplex (numeral1.text ++ 'i' :: numeral2.text) = .ok (numeral1.value, numeral2.value) :=
  (ainur_imag numeral1 numeral2 numeral1_ok numeral2_ok).1
example : toComplex ['1', 'i', '2', 'i', '3'] = throwOut := ainur_two _ (by decide) (by
  intro s u h hs
  match s, h with
  | [], _ => exact .inl rfl
  | [c], h =>
    injection h with h1 h2
    subst h1
    exact .inr (by decide)
  | c :: d :: s, h =>
    injection h with h1 h2
    injection h2 with h3 h4
    subst h3
    simp at hs)
example : stringToComplex (numeral2.text ++ ['i']) = (0, numeral2.value) := ast_imag _ numeral2_ok (by decide) (by decide)
example : stringToComplex "2i3".toList = (0, 0) := ast_inside_fails _ (by decide) (by decide) (by decide) (by decide)
example : stringToComplex (numeral1.text ++ '-' :: (numeral2.text ++ ['i'])) = (numeral1.value, numeral2.value) := by
  rw [ast_minus _ _ numeral1_ok numeral2_ok, if_neg (by decide)]
example : stringToComplex (numeral1.text ++ '+' :: (numeral2.text ++ ['i'])) = (numeral1.value, numeral2.value) :=
  ast_plus _ _ numeral1_ok numeral2_ok rfl
example : stringToComplex numeral1.text = (numeral1.value, 0) ∧ astReal numeral1.text = .ok numeral1.value := ast_real _ numeral1_ok
example : inputComplex ('(' :: (numeral1.text ++ ',' :: (numeral2.text ++ [')']))) = .ok (numeral1.value, numeral2.value) :=
  (input_spec _ _ numeral1_ok numeral2_ok).2

end Verif.Cmplx
