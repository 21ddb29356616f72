import Verif.StrUtil.Model
import Verif.StrUtil.Spec
import Mathlib.Data.Nat.Size
import Mathlib.Tactic.Linarith

/-! # C26, C27, C66 -/

namespace Verif.StrUtil

open Verif.Str

/-! ## split -/

theorem splitLoop_none (str delims : List Char) (fuel : Nat) (tokens : List (List Char)) :
    splitLoop str delims (fuel + 1) none none tokens = some tokens := by
  simp [splitLoop]

theorem splitLoop_spec (str delims : List Char) (fuel : Nat) (a : Nat) (c : Char) (rest : List Char)
    (tokens : List (List Char)) (hd : str.drop a = c :: rest) (hc : delims.contains c = false)
    (hf : rest.length + 1 < fuel) :
    splitLoop str delims fuel (some a) (findFirstOf str delims (some a)) tokens =
      some (tokens ++ pieces (fun c => delims.contains c) (c :: rest)) := by
  induction fuel generalizing a c rest tokens with
  | zero => omega
  | succ fuel ih =>
    have hal : a ≤ str.length := by
      by_contra h
      rw [List.drop_of_length_le (by omega)] at hd
      exact absurd hd (by simp)
    rw [splitLoop, if_neg (by simp)]
    cases hp : findFirstOf str delims (some a) with
    | none =>
      have hn := findFrom_none (show findFrom _ str a = none from hp)
      rw [hd] at hn
      simp only [substrFrom, if_pos hal, hd, bind, Option.bind_some]
      rw [show findFirstNotOf str delims none = none from rfl, show findFirstOf str delims none = none from rfl]
      obtain ⟨f, rfl⟩ : ∃ f, fuel = f + 1 := ⟨fuel - 1, by omega⟩
      rw [splitLoop_none, pieces_token _ _ (by simp) hn]
    | some p =>
      obtain ⟨pre, d, rest', h1, h2, h3, h4, h5⟩ := findFrom_some (show findFrom _ str a = some p from hp)
      rw [hd] at h1
      have hpre : pre ≠ [] := by
        rintro rfl
        simp at h1
        rw [h1.1] at hc
        rw [h3] at hc
        exact absurd hc (by simp)
      simp only [substr, if_pos hal, hd, bind, Option.bind_some]
      have htok : (c :: rest).take (p - a) = pre := by
        rw [h1, h2, show a + pre.length - a = pre.length by omega]; simp
      rw [htok, h1, pieces_token_delim _ _ hpre h4 d h3]
      have hlen : rest.length + 1 = pre.length + rest'.length + 1 := by
        have := congrArg List.length h1
        simp at this; omega
      have hprepos : 0 < pre.length := List.length_pos_iff.2 hpre
      cases hl : findFirstNotOf str delims (some p) with
      | none =>
        have hn := findFrom_none (show findFrom _ str p = none from hl)
        rw [h5] at hn
        rw [show findFirstOf str delims none = none from rfl]
        obtain ⟨f, rfl⟩ : ∃ f, fuel = f + 1 := ⟨fuel - 1, by omega⟩
        rw [splitLoop_none]
        have := pieces_skip (fun c => delims.contains c) (d :: rest') [] (by
          intro x hx; simpa using hn x hx)
        rw [List.append_nil, pieces_nil] at this
        rw [this]
      | some l =>
        obtain ⟨pre2, c2, rest2, g1, g2, g3, g4, g5⟩ := findFrom_some (show findFrom _ str p = some l from hl)
        rw [h5] at g1
        have hlen2 : rest'.length + 1 = pre2.length + rest2.length + 1 := by
          have := congrArg List.length g1
          simp at this; omega
        rw [ih l c2 rest2 _ g5 (by simpa using g3) (by omega), g1,
          pieces_skip _ pre2 _ (by intro x hx; simpa using g4 x hx), List.append_assoc, List.singleton_append]

/-- **C26** `split` appends the pieces of the string between delimiters, in order, leaving out
the empty ones; it always terminates without an exception. -/
theorem split_spec (tokens : List (List Char)) (str delims : List Char) :
    split tokens str delims =
      some (tokens ++ (str.splitOnP (fun c => decide (c ∈ delims))).filter (fun t => decide (t ≠ []))) := by
  have key : split tokens str delims = some (tokens ++ pieces (fun c => delims.contains c) str) := by
    unfold split
    simp only
    cases hl : findFirstNotOf str delims (some 0) with
    | none =>
      have hn := findFrom_none (show findFrom _ str 0 = none from hl)
      rw [show findFirstOf str delims none = none from rfl, splitLoop_none]
      have := pieces_skip (fun c => delims.contains c) str [] (by
          intro x hx; simpa using hn x (by simpa using hx))
      rw [List.append_nil, pieces_nil] at this
      rw [this, List.append_nil]
    | some l =>
      obtain ⟨pre2, c2, rest2, g1, g2, g3, g4, g5⟩ := findFrom_some (show findFrom _ str 0 = some l from hl)
      rw [List.drop_zero] at g1
      have hlen2 : str.length = pre2.length + rest2.length + 1 := by
        have := congrArg List.length g1
        simp at this; omega
      rw [splitLoop_spec str delims _ l c2 rest2 _ g5 (by simpa using g3) (by omega), g1,
        pieces_skip _ pre2 _ (by intro x hx; simpa using g4 x hx)]
  rw [key]
  simp [pieces]

/-- **C26** No token is empty, none contains a delimiter, and each is a contiguous part of the
string. -/
theorem split_tokens (str delims : List Char) :
    ∃ toks, split [] str delims = some toks ∧ (∀ t ∈ toks, t ≠ [] ∧ ∀ c ∈ t, c ∉ delims) ∧
      toks.flatten = str.filter (fun c => decide (c ∉ delims)) := by
  refine ⟨_, split_spec [] str delims, ?_, ?_⟩
  · intro t ht
    rw [List.nil_append, List.mem_filter] at ht
    refine ⟨by simpa using ht.2, ?_⟩
    replace ht := ht.1
    induction str generalizing t with
    | nil => simp at ht; subst ht; simp
    | cons a s ih =>
      rw [List.splitOnP_cons] at ht
      split_ifs at ht with h
      · rcases List.mem_cons.1 ht with rfl | ht
        · simp
        · exact ih t ht
      · cases hs : s.splitOnP (fun c => decide (c ∈ delims)) with
        | nil => exact absurd hs (List.splitOnP_ne_nil _ _)
        | cons u us =>
          rw [hs] at ht ih
          simp only [List.modifyHead_cons, List.mem_cons] at ht
          rcases ht with rfl | ht
          · intro c hc
            rcases List.mem_cons.1 hc with rfl | hc
            · simpa using h
            · exact ih u (by simp) c hc
          · exact ih t (by simp [ht])
  · rw [List.nil_append]
    have hflt : ∀ L : List (List Char), (L.filter fun t => decide (t ≠ [])).flatten = L.flatten := by
      intro L
      induction L with
      | nil => rfl
      | cons t L ih =>
        by_cases h : t = []
        · subst h; simpa using ih
        · rw [List.filter_cons_of_pos (by simpa using h), List.flatten_cons, List.flatten_cons, ih]
    rw [hflt]
    induction str with
    | nil => simp
    | cons a s ih =>
      rw [List.splitOnP_cons]
      split_ifs with h
      · simp only [decide_eq_true_eq] at h
        rw [List.flatten_cons, List.nil_append, ih, List.filter_cons_of_neg (by simpa using h)]
      · simp only [decide_eq_true_eq] at h
        rw [List.filter_cons_of_pos (by simpa using h), ← ih]
        cases hs : s.splitOnP (fun c => decide (c ∈ delims)) with
        | nil => exact absurd hs (List.splitOnP_ne_nil _ _)
        | cons u us => simp

/-- **C26** Splitting tokens joined by delimiters gives the tokens back. -/
theorem split_join (toks : List (List Char)) (delims sep : List Char) (hsep : sep ≠ [])
    (hs : ∀ c ∈ sep, c ∈ delims) (ht : ∀ t ∈ toks, t ≠ [] ∧ ∀ c ∈ t, c ∉ delims) :
    split [] (sep.intercalate toks) delims = some toks := by
  have key : ∀ toks : List (List Char), (∀ t ∈ toks, t ≠ [] ∧ ∀ c ∈ t, c ∉ delims) →
      pieces (fun c => decide (c ∈ delims)) (sep.intercalate toks) = toks := by
    intro toks
    induction toks with
    | nil => intro _; simp [pieces_nil, List.intercalate]
    | cons t L ih =>
      intro ht
      have h1 := ht t (by simp)
      cases L with
      | nil =>
        simp only [List.intercalate, List.intersperse_single, List.flatten_cons, List.flatten_nil, List.append_nil]
        exact pieces_token _ _ h1.1 (by simpa using h1.2)
      | cons u L =>
        obtain ⟨d, sep', rfl⟩ := List.exists_cons_of_ne_nil hsep
        have ih' := ih (fun t ht' => ht t (List.mem_cons_of_mem _ ht'))
        simp only [List.intercalate, List.intersperse_cons₂, List.flatten_cons] at ih' ⊢
        rw [List.cons_append, pieces_token_delim _ _ h1.1 (by simpa using h1.2) d (by simpa using hs d (by simp))]
        congr 1
        have := pieces_skip (fun c => decide (c ∈ delims)) (d :: sep')
          (List.flatten (List.intersperse (d :: sep') (u :: L))) (by simpa using hs)
        rw [List.cons_append] at this
        rw [this, ih']
  rw [split_spec, List.nil_append]
  exact congrArg some (key toks ht)

example : split [] "a,b;;c".toList [',', ';'] = some ["a".toList, "b".toList, "c".toList] := by decide +kernel

/-! ## Integers -/

theorem log2Loop_spec (fuel x count : Nat) (h : x < fuel) :
    log2Loop fuel x count = some (count + x.size) := by
  induction fuel generalizing x count with
  | zero => omega
  | succ fuel ih =>
    unfold log2Loop
    split_ifs with h0
    · rw [ih _ _ (by rw [Nat.shiftRight_eq_div_pow]; omega)]
      congr 1
      have : x.size = (x >>> 1).size + 1 := by
        apply Nat.le_antisymm
        · rw [Nat.size_le, Nat.pow_succ]
          have := Nat.lt_size_self (x >>> 1)
          rw [Nat.shiftRight_eq_div_pow] at this ⊢
          omega
        · have h1 : ¬ x.size ≤ (x >>> 1).size := by
            intro hle
            rw [Nat.size_le] at hle
            by_cases hz : x >>> 1 = 0
            · rw [hz] at hle; simp at hle; omega
            · have hp : 0 < (x >>> 1).size := Nat.size_pos.2 (by omega)
              have := (Nat.lt_size (m := (x >>> 1).size - 1) (n := x >>> 1)).1 (by omega)
              have e : 2 ^ (x >>> 1).size = 2 * 2 ^ ((x >>> 1).size - 1) := by
                rw [← Nat.pow_succ']; congr 1; omega
              rw [Nat.shiftRight_eq_div_pow] at *
              omega
          omega
      omega
    · rw [show x = 0 by omega]; simp

/-- **C27** `log2Integer(x)` is the number of binary digits of `x`: the least `k` with `x < 2^k`. -/
theorem log2Integer_spec (x : Nat) : ∃ k, log2Integer x = some k ∧ x < 2 ^ k ∧ ∀ j, x < 2 ^ j → k ≤ j := by
  refine ⟨x.size, ?_, Nat.lt_size_self x, fun j h => Nat.size_le.2 h⟩
  rw [log2Integer, log2Loop_spec _ _ _ (by omega), Nat.zero_add]

/-- **C27** `integerDivision(a,b)` returns the exact quotient, and throws when there is none. -/
theorem integerDivision_spec (a b : Nat) (hb : 0 < b) :
    (∀ q, integerDivision a b = some (some q) ↔ a = b * q) ∧
      (integerDivision a b = some none ↔ ¬ ∃ q, a = b * q) := by
  unfold integerDivision
  rw [if_neg (by omega)]
  constructor
  · intro q
    split_ifs with h
    · constructor
      · intro h'; simp at h'
      · intro h'; subst h'; simp at h
    · have := Nat.div_add_mod a b
      constructor
      · intro h'; simp at h'; subst h'; omega
      · rintro rfl; simp [Nat.mul_div_cancel_left _ hb]
  · split_ifs with h
    · refine ⟨fun _ => ?_, fun _ => rfl⟩
      rintro ⟨q, rfl⟩
      simp at h
    · refine ⟨fun h' => by simp at h', fun h' => (h' ⟨a / b, ?_⟩).elim⟩
      have := Nat.div_add_mod a b
      omega

theorem isDigit_iff (c : Char) : isDigit c = true ↔ c ∈ ['0', '1', '2', '3', '4', '5', '6', '7', '8', '9'] := by
  constructor
  · intro h
    simp only [isDigit, Bool.and_eq_true, decide_eq_true_eq, Char.le_def] at h
    obtain ⟨h1, h2⟩ := h
    have h1' : 48 ≤ c.val.toNat := by simpa [UInt32.le_iff_toNat_le] using h1
    have h2' : c.val.toNat ≤ 57 := by simpa [UInt32.le_iff_toNat_le] using h2
    have : ∀ d : Char, c.val.toNat = d.val.toNat → c = d := by
      intro d hd
      exact Char.ext (UInt32.toNat_inj.1 hd)
    have hc : c.val.toNat = 48 ∨ c.val.toNat = 49 ∨ c.val.toNat = 50 ∨ c.val.toNat = 51 ∨ c.val.toNat = 52 ∨
      c.val.toNat = 53 ∨ c.val.toNat = 54 ∨ c.val.toNat = 55 ∨ c.val.toNat = 56 ∨ c.val.toNat = 57 := by omega
    rcases hc with h | h | h | h | h | h | h | h | h | h
    · simp [this '0' h]
    · simp [this '1' h]
    · simp [this '2' h]
    · simp [this '3' h]
    · simp [this '4' h]
    · simp [this '5' h]
    · simp [this '6' h]
    · simp [this '7' h]
    · simp [this '8' h]
    · simp [this '9' h]
  · intro h
    simp only [List.mem_cons, List.not_mem_nil, or_false] at h
    rcases h with h | h | h | h | h | h | h | h | h | h <;> subst h <;> decide

/-- **C27** `isAnInteger` accepts exactly the nonempty strings of decimal digits. -/
theorem isAnInteger_spec (s : List Char) : isAnInteger s = true ↔ s ≠ [] ∧ DigitsOf s := by
  unfold isAnInteger DigitsOf
  split_ifs with h
  · rw [List.all_eq_true] at h
    simp only [isDigit_iff] at h
    refine ⟨fun hl => ⟨List.length_pos_iff.1 (by simpa using hl), h⟩, fun hl => ?_⟩
    simpa using List.length_pos_iff.2 hl.1
  · simp only [Bool.false_eq_true, false_iff, not_and]
    intro _ h'
    apply h
    rw [List.all_eq_true]
    intro c hc
    exact (isDigit_iff c).2 (h' c hc)

theorem isAfloatLoop_spec (s : List Char) (b : Bool) : isAfloatLoop s b = true ↔
    (∀ c ∈ s, isDigit c = true ∨ c ∈ ['-', '+', 'e', 'E', '.']) ∧ (b = true ∨ ∃ c ∈ s, isDigit c = true) := by
  induction s generalizing b with
  | nil => simp [isAfloatLoop]
  | cons c s ih =>
    unfold isAfloatLoop
    split_ifs with h1 h2
    · rw [ih]; simp [h1]
    · rw [ih]
      have : c ∈ ['-', '+', 'e', 'E', '.'] := by simpa [or_assoc] using h2
      simp only [List.mem_cons, forall_eq_or_imp, exists_eq_or_imp, h1, Bool.false_eq_true, false_or]
      simp only [List.mem_cons] at this
      tauto
    · constructor
      · simp
      · rintro ⟨h, -⟩
        have := h c (by simp)
        rcases this with h | h
        · exact absurd h h1
        · exact absurd (by simpa [or_assoc] using h) h2

/-- **C27** `isAfloat` accepts exactly the strings over digits, signs, `e`, `E` and `.` with at
least one digit. -/
theorem isAfloat_spec (s : List Char) : isAfloat s = true ↔
    (∀ c ∈ s, DigitsOf [c] ∨ c ∈ ['-', '+', 'e', 'E', '.']) ∧ ∃ c ∈ s, DigitsOf [c] := by
  unfold isAfloat
  rw [isAfloatLoop_spec]
  simp [DigitsOf, isDigit_iff]

theorem isDigit_toDigits (n : Nat) : ∀ c ∈ Nat.toDigits 10 n, isDigit c = true := by
  intro c hc
  have := Nat.isDigit_of_mem_toDigits (by decide) (by decide) hc
  simp only [Char.isDigit, Bool.and_eq_true, decide_eq_true_eq] at this
  simp only [isDigit, Bool.and_eq_true, decide_eq_true_eq, Char.le_def]
  exact this

theorem takeWhile_toDigits (n : Nat) : (Nat.toDigits 10 n).takeWhile isDigit = Nat.toDigits 10 n := by
  have := List.takeWhile_append_of_pos (l₂ := []) (isDigit_toDigits n)
  simpa using this

/-- **C27** `atoi` reads back every `int` written in decimal. -/
theorem atoi_decimal (v : Int) (h1 : -2147483648 ≤ v) (h2 : v ≤ 2147483647) : atoi (decimal v) = some (some v) := by
  unfold atoi decimal
  have hd := isDigit_toDigits v.natAbs
  split_ifs with hneg hall hall
  · simp only [stdAtoi, takeWhile_toDigits, Nat.ofDigitChars_ten_toDigits]
    rw [if_pos (by omega), Option.map_some]
    congr 2; omega
  · exfalso
    apply hall
    rw [List.all_cons, List.all_eq_true.2 (fun c hc => by simp [hd c hc])]
    decide
  · have : stdAtoi (Nat.toDigits 10 v.natAbs) = some v := by
      have hv : (Nat.ofDigitChars 10 ((Nat.toDigits 10 v.natAbs).takeWhile isDigit) 0 : Int) = v := by
        rw [takeWhile_toDigits, Nat.ofDigitChars_ten_toDigits]; omega
      unfold stdAtoi
      simp only
      split
      · rename_i heq
        rw [heq] at hd
        exact absurd (hd '-' (by simp)) (by decide)
      · rename_i heq
        rw [heq] at hd
        exact absurd (hd '+' (by simp)) (by decide)
      · rw [hv, if_pos ⟨h1, h2⟩]
    rw [this]; rfl
  · exfalso
    apply hall
    rw [List.all_eq_true]
    intro c hc
    simp [hd c hc]

/-- **C27** `atoi` throws exactly when some character is neither a digit nor a sign. -/
theorem atoi_throws (s : List Char) : atoi s = some none ↔ ∃ c ∈ s, ¬ DigitsOf [c] ∧ c ≠ '-' ∧ c ≠ '+' := by
  unfold atoi
  split_ifs with h
  · rw [List.all_eq_true] at h
    constructor
    · intro h'
      cases hs : stdAtoi s <;> rw [hs] at h' <;> simp at h'
    · rintro ⟨c, hc, h1, h2, h3⟩
      have := h c hc
      simp only [Bool.or_eq_true, beq_iff_eq, isDigit_iff] at this
      rcases this with (h4 | h4) | h4
      · exact (h1 (by simpa [DigitsOf] using h4)).elim
      · exact (h2 h4).elim
      · exact (h3 h4).elim
  · simp only [true_iff]
    by_contra hne
    apply h
    rw [List.all_eq_true]
    intro c hc
    by_contra hc2
    apply hne
    simp only [Bool.or_eq_true, beq_iff_eq, isDigit_iff, not_or] at hc2
    exact ⟨c, hc, by simpa [DigitsOf] using hc2.1.1, hc2.1.2, hc2.2⟩

/-- **C27, violated part** `atoi` also accepts strings that are no integer at all: the empty
string, signs alone and signs in the middle, silently giving a number. -/
theorem atoi_malformed_fails : atoi [] = some (some 0) ∧ atoi "+-".toList = some (some 0) ∧
    atoi "12-7".toList = some (some 12) := by decide +kernel

example : atoi "-42".toList = some (some (-42)) ∧ log2Integer 12 = some 4 ∧
    integerDivision 12 4 = some (some 3) ∧ integerDivision 13 4 = some none := by decide +kernel

/-! ## Paths and replacement -/

/-- **C66** `basename` of `dir/file` is `file`, and of a path with no separator the path itself. -/
theorem basename_spec (dir file : List Char) (h : '/' ∉ file) :
    basename (dir ++ '/' :: file) = file ∧ basename file = file := by
  have hf : ∀ c ∈ file.reverse, (!(c == '/')) = true := by
    intro c hc
    simp only [List.mem_reverse] at hc
    simp only [Bool.not_eq_true', beq_eq_false_iff_ne]
    rintro rfl; exact h hc
  have htw : ∀ l, (file.reverse ++ l).takeWhile (fun c => !(c == '/')) =
      file.reverse ++ l.takeWhile (fun c => !(c == '/')) := by
    intro l
    exact List.takeWhile_append_of_pos hf
  unfold basename
  constructor
  · rw [List.reverse_append, List.reverse_cons, List.append_assoc, htw]
    simp
  · have := htw []
    rw [List.append_nil, List.takeWhile_nil, List.append_nil] at this
    rw [this, List.reverse_reverse]

theorem prefix_drop_append (pre rest pat : List Char) (k : Nat) :
    pat <+: (pre ++ rest).drop (pre.length + k) ↔ pat <+: rest.drop k := by
  rw [List.drop_length_add_append]

theorem replaceLoop_spec (pat new : List Char) (hp : pat ≠ []) (fuel : Nat) (pre rest : List Char)
    (hf : rest.length < fuel) :
    ∃ rest', replaceLoop pat new fuel (pre ++ rest) pre.length = some (pre ++ rest') ∧
      Replaced pat new rest rest' := by
  induction fuel generalizing pre rest with
  | zero => omega
  | succ fuel ih =>
    unfold replaceLoop
    cases h : find (pre ++ rest) pat pre.length with
    | none =>
      have hn := find_none h
      refine ⟨rest, rfl, .done _ ?_⟩
      rintro ⟨s, t, hst⟩
      refine hn (pre.length + s.length) (by omega) ?_ ?_
      · rw [← hst]; simp only [List.length_append]; omega
      · rw [prefix_drop_append, ← hst]
        simp [List.append_assoc]
    | some p =>
      obtain ⟨h1, h2, h3, h4⟩ := find_some h
      obtain ⟨k, rfl⟩ : ∃ k, p = pre.length + k := ⟨p - pre.length, by omega⟩
      rw [prefix_drop_append] at h3
      obtain ⟨r, hr⟩ := h3
      have hk : k ≤ rest.length := by simpa using h2
      have hrest : rest = rest.take k ++ pat ++ r := by
        rw [List.append_assoc, hr, List.take_append_drop]
      have hka : (rest.take k).length = k := by simp; omega
      have hpl : 0 < pat.length := List.length_pos_iff.2 hp
      have hlen : rest.length = k + pat.length + r.length := by
        conv_lhs => rw [hrest]
        simp only [List.length_append, hka]
      obtain ⟨r', e1, e2⟩ := ih (pre ++ rest.take k ++ new) r (by omega)
      refine ⟨rest.take k ++ new ++ r', ?_, ?_⟩
      · simp only [replace, if_pos h2, bind, Option.bind_some]
        have ht : (pre ++ rest).take (pre.length + k) = pre ++ rest.take k := by
          rw [List.take_length_add_append]
        have hd : (pre ++ rest).drop (pre.length + k + pat.length) = r := by
          rw [Nat.add_assoc, List.drop_length_add_append, ← List.drop_drop, ← hr]
          simp
        rw [ht, hd]
        have : pre.length + k + new.length = (pre ++ rest.take k ++ new).length := by
          simp only [List.length_append, hka]
        rw [this, e1]
        simp [List.append_assoc]
      · conv => arg 3; rw [hrest]
        refine .step _ _ _ ?_ e2
        intro b c hbc
        rw [← hrest] at hbc
        by_contra hlt
        rw [hka] at hlt
        refine h4 (pre.length + b.length) (by omega) (by omega) ?_
        rw [prefix_drop_append, hbc]
        simp [List.append_assoc]

/-- **C66** `replaceAll` terminates and replaces occurrences from left to right, never looking
inside text it has inserted; an empty pattern changes nothing. -/
theorem replaceAll_spec (s pat new : List Char) (hp : pat ≠ []) :
    ∃ t, replaceAll s pat new = some t ∧ Replaced pat new s t := by
  unfold replaceAll
  rw [if_neg hp]
  obtain ⟨t, h1, h2⟩ := replaceLoop_spec pat new hp (s.length + 1) [] s (by omega)
  exact ⟨t, by simpa using h1, h2⟩

/-- **C66** The empty pattern. -/
theorem replaceAll_empty (s new : List Char) : replaceAll s [] new = some s := by simp [replaceAll]

/-- **C66** `Replaced` determines the result. -/
theorem Replaced.unique {pat new s t u : List Char} (hp : pat ≠ []) (h1 : Replaced pat new s t)
    (h2 : Replaced pat new s u) : t = u := by
  induction h1 generalizing u with
  | done s hs =>
    cases h2 with
    | done => rfl
    | step a rest rest' hl hr => exact (hs ⟨a, rest, rfl⟩).elim
  | step a rest rest' hl hr ih =>
    generalize hs : a ++ pat ++ rest = s at h2
    cases h2 with
    | done _ hn => exact (hn ⟨a, rest, hs⟩).elim
    | step b rest2 rest2' hl2 hr2 =>
      have e1 := hl b rest2 hs
      have e2 := hl2 a rest hs.symm
      rw [List.append_assoc, List.append_assoc] at hs
      obtain ⟨rfl, h⟩ := List.append_inj hs (by omega)
      have := List.append_cancel_left h
      subst this
      rw [ih hr2]

/-- **C66** When the pattern is one character the replacement is characterwise. -/
theorem replaceAll_char (s new : List Char) (c : Char) :
    replaceAll s [c] new = some (s.flatMap fun x => if x = c then new else [x]) := by
  obtain ⟨t, h1, h2⟩ := replaceAll_spec s [c] new (by simp)
  rw [h1]
  congr 1
  clear h1
  induction h2 with
  | done s hs =>
    have : ∀ x ∈ s, x ≠ c := by
      rintro x hx rfl
      obtain ⟨a, b, rfl⟩ := List.append_of_mem hx
      exact hs ⟨a, b, by simp⟩
    clear hs
    induction s with
    | nil => rfl
    | cons x s ih =>
      rw [List.flatMap_cons, if_neg (this x (by simp)), ← ih (fun y hy => this y (by simp [hy]))]
      rfl
  | step a rest rest' hl hr ih =>
    have : ∀ x ∈ a, x ≠ c := by
      rintro x hx rfl
      obtain ⟨a1, b1, rfl⟩ := List.append_of_mem hx
      have := hl a1 (b1 ++ [x] ++ rest) (by simp)
      simp at this
    have ha : ∀ l : List Char, (∀ x ∈ l, x ≠ c) → (l.flatMap fun x => if x = c then new else [x]) = l := by
      intro l hl
      induction l with
      | nil => rfl
      | cons x s ih =>
        rw [List.flatMap_cons, if_neg (hl x (by simp)), ih (fun y hy => hl y (by simp [hy]))]
        rfl
    rw [List.flatMap_append, List.flatMap_append, ha a this, ← ih]
    simp

example : replaceAll "aXbXX".toList "X".toList "XY".toList = some "aXYbXYXY".toList := by decide +kernel

/-! ## Concrete cases of the hypotheses. -/

example := atoi_decimal (-123) (by decide) (by decide)
example := basename_spec "a/b".toList "c.txt".toList (by decide)
example := integerDivision_spec 12 4 (by decide)
example := replaceAll_spec "abcabc".toList "bc".toList "d".toList (by decide)
example := split_join ["ab".toList, "c".toList] ",;".toList ",".toList (by decide) (by decide) (by decide)

end Verif.StrUtil
