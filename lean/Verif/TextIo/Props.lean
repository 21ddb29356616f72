import Verif.TextIo.Model
import Verif.IoSimple.Props
import Verif.Dense.Lemmas

/-!
# C74: what is written as text is read back
-/

namespace Verif.TextIo

open Verif.Loop Verif.IoSimple

/-- Only white space. -/
def White (s : Str) : Prop := ∀ x ∈ s, isWs x = true

/-- What is written by `pr`, after white space and followed by a white character, is read back by `rd` into a variable whose
old value `ok` allows; the stream is then before that character, but for white space. -/
def Through {α : Type} (pr : α → Str) (rd : Stream → α → Out (Stream × α)) (ok : α → α → Prop) : Prop :=
  ∀ (old a : α) (ws : Str) (c : Char) (r : Str), ok old a → White ws → isWs c = true →
    ∃ ws', White ws' ∧ rd ⟨ws ++ pr a ++ c :: r, false, false⟩ old = .ok (⟨ws' ++ c :: r, false, false⟩, a)

theorem White.append {a b : Str} (ha : White a) (hb : White b) : White (a ++ b) := by
  intro x hx
  rcases List.mem_append.1 hx with h | h
  · exact ha x h
  · exact hb x h

theorem white_one {c : Char} (h : isWs c = true) : White [c] := by
  intro x hx
  rw [List.mem_singleton] at hx
  rw [hx]; exact h

theorem white_nil : White [] := by intro x hx; cases hx

/-- Reading a `SizeType` that was printed. -/
theorem readU64_digits (n old : Nat) (hn : n < 2 ^ 64) (ws : Str) (c : Char) (r : Str) (hw : White ws) (hc : isWs c = true) :
    readU64 ⟨ws ++ Nat.toDigits 10 n ++ c :: r, false, false⟩ old = .ok (⟨c :: r, false, false⟩, n) := by
  unfold readU64
  rw [if_pos (by rfl)]
  simp only
  rw [List.append_assoc, dropWhile_ws ws _ hw]
  rcases hd : Nat.toDigits 10 n with _ | ⟨d, ds⟩
  · have := Labels.toDigits_pos n
    rw [hd] at this
    simp at this
  · have hdig : ∀ x ∈ d :: ds, Str.isDigit x = true := by
      intro x hx
      rw [← hd] at hx
      exact StrUtil.isDigit_toDigits n x hx
    have hd0 := hdig d List.mem_cons_self
    rw [List.cons_append, List.dropWhile_cons, if_neg (by simp [digit_ws hd0])]
    have hcd : Str.isDigit c = false := by
      by_contra h
      have := digit_ws (by simpa using h)
      rw [this] at hc
      cases hc
    have hm : d ≠ '-' ∧ d ≠ '+' := by
      constructor <;> (rintro rfl; revert hd0; decide)
    simp only [hm.1, hm.2, or_self, if_false]
    obtain ⟨t1, t2⟩ := takeWhile_stop (d :: ds) c r hdig hcd
    rw [List.cons_append] at t1 t2
    rw [t1, t2]
    rw [if_neg (List.cons_ne_nil _ _), ← hd, ofDigitChars_toDigits, if_neg (by omega)]
    rfl

/-- **C74** Numbers of type `SizeType`. -/
theorem through_u64 : Through (fun n : Nat => Nat.toDigits 10 n) readU64 (fun _ n => n < 2 ^ 64) := by
  intro old a ws c r h hw hc
  exact ⟨[], white_nil, readU64_digits a old h ws c r hw hc⟩

/-- Reading a negative number that was printed. -/
theorem readInt_negative (n : Nat) (hn : n ≤ 2147483648) (ws : Str) (c : Char) (r : Str) (hw : White ws) (hc : isWs c = true) :
    readInt ⟨ws ++ '-' :: Nat.toDigits 10 n ++ c :: r, false, false⟩ = (⟨c :: r, false, false⟩, some (-(n : Int))) := by
  unfold readInt
  rw [if_pos (by rfl)]
  simp only
  rw [List.append_assoc, dropWhile_ws ws _ hw, List.cons_append, List.dropWhile_cons, if_neg (by decide)]
  have hdig : ∀ x ∈ Nat.toDigits 10 n, Str.isDigit x = true := fun x hx => StrUtil.isDigit_toDigits n x hx
  have hcd : Str.isDigit c = false := by
    by_contra h
    have := digit_ws (by simpa using h)
    rw [this] at hc
    cases hc
  obtain ⟨t1, t2⟩ := takeWhile_stop (Nat.toDigits 10 n) c r hdig hcd
  simp only [true_or, if_true, beq_self_eq_true]
  rw [t1, t2, if_neg (by
    intro h
    have := Labels.toDigits_pos n
    rw [h] at this
    simp at this), ofDigitChars_toDigits, if_neg (by omega), if_neg (by omega)]
  rfl

/-- **C74** A negative number is read into a `SizeType` without complaint, as `2 ^ 64` minus its size. -/
theorem u64_negative_fails (n old : Nat) (h0 : 0 < n) (hn : n < 2 ^ 64) (ws : Str) (c : Char) (r : Str) (hw : White ws)
    (hc : isWs c = true) :
    readU64 ⟨ws ++ '-' :: Nat.toDigits 10 n ++ c :: r, false, false⟩ old = .ok (⟨c :: r, false, false⟩, 2 ^ 64 - n) := by
  unfold readU64
  rw [if_pos (by rfl)]
  simp only
  rw [List.append_assoc, dropWhile_ws ws _ hw, List.cons_append, List.dropWhile_cons, if_neg (by decide)]
  have hdig : ∀ x ∈ Nat.toDigits 10 n, Str.isDigit x = true := fun x hx => StrUtil.isDigit_toDigits n x hx
  have hcd : Str.isDigit c = false := by
    by_contra h
    have := digit_ws (by simpa using h)
    rw [this] at hc
    cases hc
  obtain ⟨t1, t2⟩ := takeWhile_stop (Nat.toDigits 10 n) c r hdig hcd
  simp only [true_or, if_true]
  rw [t1, t2, if_neg (by
    intro h
    have := Labels.toDigits_pos n
    rw [h] at this
    simp at this), ofDigitChars_toDigits, if_neg (by omega), Nat.mod_eq_of_lt (by omega)]
  rfl

/-- **C74** Numbers of type `int`. -/
theorem through_int : Through intText readI32 (fun _ i => -2147483648 ≤ i ∧ i ≤ 2147483647) := by
  intro old a ws c r h hw hc
  refine ⟨[], white_nil, ?_⟩
  unfold readI32 intText
  by_cases ha : a < 0
  · rw [if_pos ha, readInt_negative _ (by omega) ws c r hw hc]
    simp only [Option.getD_some]
    congr 2
    omega
  · rw [if_neg ha, readInt_digits _ (by omega) ws c r hw hc]
    simp only [Option.getD_some]
    congr 2
    omega

/-- **C74** Pairs. -/
theorem through_pair : Through pairText readPair (fun _ p => p.1 < 2 ^ 64 ∧ p.2 < 2 ^ 64) := by
  rintro ⟨o1, o2⟩ ⟨a, b⟩ ws c r ⟨h1, h2⟩ hw hc
  refine ⟨[' '], white_one rfl, ?_⟩
  have e : ws ++ pairText (a, b) ++ c :: r = ws ++ Nat.toDigits 10 a ++ ' ' :: (Nat.toDigits 10 b ++ ' ' :: c :: r) := by
    simp [pairText]
  have e2 : (' ' :: (Nat.toDigits 10 b ++ ' ' :: c :: r)) = [' '] ++ Nat.toDigits 10 b ++ ' ' :: (c :: r) := by simp
  unfold readPair
  rw [e, readU64_digits a _ h1 ws ' ' _ hw rfl]
  simp only [bind, Except.bind]
  rw [e2, readU64_digits b _ h2 [' '] ' ' _ (white_one rfl) rfl]
  rfl

/-- The old elements allow the new ones, position by position. -/
def AllOk {α : Type} (ok : α → α → Prop) (old new : List α) : Prop :=
  ∀ (i : Nat) (o a : α), old[i]? = some o → new[i]? = some a → ok o a

theorem readInto_written {α : Type} {pr : α → Str} {rd : Stream → α → Out (Stream × α)} {ok : α → α → Prop}
    (h : Through pr rd ok) (xs : List α) : ∀ (old : List α) (ws tail : Str), old.length = xs.length → AllOk ok old xs →
    White ws → ∃ ws', White ws' ∧
      readInto rd ⟨ws ++ ('\n' :: (xs.flatMap fun x => pr x ++ ['\n'])) ++ tail, false, false⟩ old =
        .ok (⟨ws' ++ '\n' :: tail, false, false⟩, xs) := by
  induction xs with
  | nil =>
    intro old ws tail hl _ hw
    have : old = [] := List.length_eq_zero_iff.1 hl
    subst this
    exact ⟨ws, hw, by simp [readInto]⟩
  | cons x xs ih =>
    intro old ws tail hl ho hw
    match old, hl with
    | o :: old, hl =>
      obtain ⟨w1, hw1, e1⟩ := h o x (ws ++ ['\n']) '\n' ((xs.flatMap fun x => pr x ++ ['\n']) ++ tail)
        (ho 0 o x rfl rfl) (hw.append (white_one rfl)) rfl
      obtain ⟨w2, hw2, e2⟩ := ih old w1 tail (by simpa using hl) (fun i o a h1 h2 => ho (i + 1) o a h1 h2) hw1
      refine ⟨w2, hw2, ?_⟩
      have e : ws ++ ('\n' :: ((x :: xs).flatMap fun x => pr x ++ ['\n'])) ++ tail =
          ws ++ ['\n'] ++ pr x ++ '\n' :: ((xs.flatMap fun x => pr x ++ ['\n']) ++ tail) := by simp
      have e' : w1 ++ '\n' :: ((xs.flatMap fun x => pr x ++ ['\n']) ++ tail) =
          w1 ++ ('\n' :: (xs.flatMap fun x => pr x ++ ['\n'])) ++ tail := by simp
      unfold readInto
      rw [e, e1]
      simp only [bind, Except.bind]
      rw [e', e2]
      rfl

/-- **C74** Vectors of anything that can be read back, vectors of vectors included, are read back into any vector, whatever
its size, if they have less than 2³¹ elements. -/
theorem through_vec {α : Type} (dflt : α) {pr : α → Str} {rd : Stream → α → Out (Stream × α)} {ok : α → α → Prop}
    (h : Through pr rd ok) : Through (vectorText pr) (readVec dflt rd)
      (fun old v => v.length ≤ 2147483647 ∧ AllOk ok (resizeL old v.length dflt) v) := by
  rintro old v ws c r ⟨hl, ho⟩ hw hc
  obtain ⟨w, hw', e⟩ := readInto_written h v (resizeL old v.length dflt) [] (c :: r) (resizeL_length _ _ _) ho white_nil
  refine ⟨w ++ ['\n'], hw'.append (white_one rfl), ?_⟩
  have e1 : ws ++ vectorText pr v ++ c :: r =
      ws ++ Nat.toDigits 10 v.length ++ '\n' :: ((v.flatMap fun x => pr x ++ ['\n']) ++ c :: r) := by simp [vectorText]
  unfold readVec
  rw [e1, readInt_digits _ hl ws '\n' _ hw rfl]
  simp only [Option.getD_some]
  rw [if_neg (by omega), Int.toNat_natCast]
  simp only [List.nil_append, List.cons_append] at e
  rw [e]
  simp

/-- The vector of vectors `{{1, 2}, {}}`: the hypotheses are met. -/
example : vectorText (vectorText fun n : Nat => Nat.toDigits 10 n) [[1, 2], []] = "2\n2\n1\n2\n\n0\n\n".toList ∧
    readVec [] (readVec 0 readU64) (.ofText "2\n2\n1\n2\n\n0\n\n".toList) [[7]] =
      .ok (⟨"\n\n".toList, false, false⟩, [[1, 2], []]) := ⟨rfl, rfl⟩

example : AllOk (fun _ n : Nat => n < 2 ^ 64) (resizeL [] 2 0) [1, 2] := by
  intro i o a _ h
  match i with
  | 0 => cases h; decide
  | 1 => cases h; decide
  | n + 2 => simp at h

/-- **C74** The text of a vector of pairs of numbers, in which the pairs have no blank at their end, is read back too. -/
theorem pairs_read (v old : List (Nat × Nat)) (ws : Str) (c : Char) (r : Str) (hl : v.length ≤ 2147483647)
    (hv : ∀ p ∈ v, p.1 < 2 ^ 64 ∧ p.2 < 2 ^ 64) (hw : White ws) (hc : isWs c = true) :
    ∃ ws', White ws' ∧ readVec (0, 0) readPair ⟨ws ++ pairsText (Nat.toDigits 10) (Nat.toDigits 10) v ++ c :: r, false, false⟩
      old = .ok (⟨ws' ++ c :: r, false, false⟩, v) := by
  have h : Through (fun p : Nat × Nat => Nat.toDigits 10 p.1 ++ ' ' :: Nat.toDigits 10 p.2) readPair
      (fun _ p => p.1 < 2 ^ 64 ∧ p.2 < 2 ^ 64) := by
    rintro ⟨o1, o2⟩ ⟨a, b⟩ ws c r ⟨h1, h2⟩ hw hc
    refine ⟨[], white_nil, ?_⟩
    have e : ws ++ (Nat.toDigits 10 a ++ ' ' :: Nat.toDigits 10 b) ++ c :: r =
        ws ++ Nat.toDigits 10 a ++ ' ' :: (Nat.toDigits 10 b ++ c :: r) := by simp
    have e2 : (' ' :: (Nat.toDigits 10 b ++ c :: r)) = [' '] ++ Nat.toDigits 10 b ++ c :: r := by simp
    unfold readPair
    simp only
    rw [e, readU64_digits a _ h1 ws ' ' _ hw rfl]
    simp only [bind, Except.bind]
    rw [e2, readU64_digits b _ h2 [' '] c _ (white_one rfl) hc]
    rfl
  have := through_vec (0, 0) h old v ws c r ⟨hl, fun i o a _ h2 => hv a (List.mem_of_getElem? h2)⟩ hw hc
  have e : vectorText (fun p : Nat × Nat => Nat.toDigits 10 p.1 ++ ' ' :: Nat.toDigits 10 p.2) v =
      pairsText (Nat.toDigits 10) (Nat.toDigits 10) v := by simp [vectorText, pairsText]
  rw [e] at this
  exact this

example : pairsText (Nat.toDigits 10) (Nat.toDigits 10) [(1, 2), (30, 4)] = "2\n1 2\n30 4\n".toList ∧
    readVec (0, 0) readPair (.ofText "2\n1 2\n30 4\n".toList) [] = .ok (⟨['\n'], false, false⟩, [(1, 2), (30, 4)]) := by
  constructor <;> rfl

/-- **C74** A negative size is refused. -/
theorem vec_negative {α : Type} (dflt : α) (rd : Stream → α → Out (Stream × α)) (n : Nat) (h0 : 0 < n) (hn : n ≤ 2147483648)
    (ws : Str) (c : Char) (r : Str) (hw : White ws) (hc : isWs c = true) (v : List α) :
    readVec dflt rd ⟨ws ++ '-' :: Nat.toDigits 10 n ++ c :: r, false, false⟩ v = throwOut := by
  unfold readVec
  rw [readInt_negative n hn ws c r hw hc]
  simp only [Option.getD_some]
  rw [if_pos (by omega)]

/-- **C74** A text that ends too early is read without an exception: the elements that are missing are those the vector had
before. -/
theorem vec_truncated_fails :
    readVec 0 readU64 (.ofText "3\n1\n".toList) [7, 8, 9] = .ok (⟨[], true, true⟩, [1, 8, 9]) := rfl

/-- **C74** A text without a size gives an empty vector, without an exception. -/
theorem vec_nothing_fails : readVec 0 readU64 (.ofText "x".toList) [7, 8, 9] = .ok (⟨['x'], false, true⟩, []) := rfl

end Verif.TextIo
