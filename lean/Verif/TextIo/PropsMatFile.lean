import Verif.TextIo.ModelMatFile
import Verif.TextIo.PropsMat
import Mathlib.Analysis.Complex.Basic
import Mathlib.Data.Nat.Digits.Defs
import Mathlib.Tactic.NormNum

/-!
# C104: matrices from text files and as bytes
-/

namespace Verif.TextIo

open Verif.Loop Verif.IoSimple Verif.Dense

variable {α : Type}

/-! ## The constructor from a file -/

theorem fresh_ok (n : Nat) (hn : n < 2 ^ 64) (ws : Str) (c : Char) (r : Str) (hw : White ws) (hc : isWs c = true) :
    readFresh ⟨ws ++ Nat.toDigits 10 n ++ c :: r, false, false⟩ = readU64 ⟨ws ++ Nat.toDigits 10 n ++ c :: r, false, false⟩ 0 := by
  unfold readFresh
  rw [if_neg]
  unfold untouched
  rw [List.append_assoc, dropWhile_ws ws _ hw]
  rcases hd : Nat.toDigits 10 n with _ | ⟨d, ds⟩
  · have := Labels.toDigits_pos n
    rw [hd] at this
    simp at this
  · have hd0 : Str.isDigit d = true := StrUtil.isDigit_toDigits n d (by rw [hd]; exact List.mem_cons_self)
    rw [List.cons_append, List.dropWhile_cons, if_neg (by simp [digit_ws hd0])]
    simp [Stream.good]

/-- **C104** A matrix with elements, written with `<<` or with `print`, is what the constructor makes of the file. -/
theorem file_matrix [Zero α] {pr : α → Str} {rd : Stream → α → Out (Stream × α)} (ht : Through pr rd fun _ _ => True)
    {r c : Nat} {A : Matrix (Fin r) (Fin c) α} {m : Mat α} (h : Represents m r c A) (hr0 : 0 < r) (hc0 : 0 < c)
    (limit : Nat) (hlim : r * c ≤ limit) (hl : r * c < 2 ^ 64) (ws tail : Str) (hw : White ws) :
    ∃ text ws', matText pr m = some text ∧ White ws' ∧
      matFromStream limit rd ⟨ws ++ text ++ tail, false, false⟩ = .ok (⟨ws' ++ tail, false, false⟩, m) := by
  have hr : r < 2 ^ 64 := lt_of_le_of_lt (Nat.le_mul_of_pos_right _ hc0) hl
  have hc : c < 2 ^ 64 := lt_of_le_of_lt (Nat.le_mul_of_pos_left _ hr0) hl
  obtain ⟨text, ws', h1, h2, h3⟩ := mat_read ht h ⟨0, 0, []⟩ (.inl rfl) limit hlim hl hr hc ws tail hw
  refine ⟨text, ws', h1, h2, ?_⟩
  rw [← h3]
  have ht : text = matLines pr A := by
    rw [matText_spec pr h] at h1
    exact (Option.some.inj h1).symm
  obtain ⟨rows, hrows⟩ : ∃ rows, rows = ((List.finRange r).flatMap fun i => ((List.finRange c).flatMap fun j => pr (A i j) ++ [' ']) ++ ['\n']) :=
    ⟨_, rfl⟩
  have e : ws ++ text ++ tail = ws ++ Nat.toDigits 10 r ++ ' ' :: (Nat.toDigits 10 c ++ '\n' :: (rows ++ tail)) := by
    rw [ht, matLines, ← hrows]
    simp
  have e2 : (' ' :: (Nat.toDigits 10 c ++ '\n' :: (rows ++ tail))) = [' '] ++ Nat.toDigits 10 c ++ '\n' :: (rows ++ tail) := by simp
  unfold matFromStream readMat
  rw [e, fresh_ok r hr ws ' ' _ hw rfl, readU64_digits r _ hr ws ' ' _ hw rfl]
  simp only [bind, Except.bind]
  rw [e2, fresh_ok c hc [' '] '\n' _ (white_one rfl) rfl, readU64_digits c _ hc [' '] '\n' _ (white_one rfl) rfl]
  simp only [Bool.false_eq_true, if_false]
  rw [if_neg (show ¬ (r = 0 ∨ c = 0) by omega), if_neg (show ¬ (0 > 0 ∧ 0 ≠ r) by omega)]

example : ∃ st, matFromStream 100 readU64 (.ofText "2 3\n1 2 3 \n4 5 6 \n".toList) = .ok (st, ⟨2, 3, [1, 4, 2, 5, 3, 6]⟩) := ⟨_, rfl⟩

/-- **C104** A matrix without elements is refused. -/
theorem file_empty [Zero α] (limit : Nat) (rd : Stream → α → Out (Stream × α)) (r c : Nat) (hr : r < 2 ^ 64) (hc : c < 2 ^ 64)
    (h : r = 0 ∨ c = 0) (ws : Str) (hw : White ws) (tail : Str) :
    matFromStream limit rd ⟨ws ++ Nat.toDigits 10 r ++ ' ' :: (Nat.toDigits 10 c ++ '\n' :: tail), false, false⟩ = throwOut := by
  have e2 : (' ' :: (Nat.toDigits 10 c ++ '\n' :: tail)) = [' '] ++ Nat.toDigits 10 c ++ '\n' :: tail := by simp
  unfold matFromStream
  rw [fresh_ok r hr ws ' ' _ hw rfl, readU64_digits r _ hr ws ' ' _ hw rfl]
  simp only [bind, Except.bind]
  rw [e2, fresh_ok c hc [' '] '\n' _ (white_one rfl) rfl, readU64_digits c _ hc [' '] '\n' _ (white_one rfl) rfl]
  simp only []
  rw [if_pos h]

/-- **C104** A file without numbers, or with only one, is not refused: dimensions without a value are used. -/
theorem file_short_fails [Zero α] (limit : Nat) (rd : Stream → α → Out (Stream × α)) (ws : Str) (hw : White ws) :
    matFromStream limit rd ⟨ws, false, false⟩ = ubOut ∧
    ∀ n < 2 ^ 64, matFromStream limit rd ⟨Nat.toDigits 10 n ++ '\n' :: ws, false, false⟩ = ubOut := by
  have hd : ∀ w : Str, White w → w.dropWhile isWs = [] := by
    intro w hw
    have := dropWhile_ws w [] hw
    rw [List.append_nil] at this
    rw [this]
    rfl
  have hu : ∀ w : Str, White w → readFresh ⟨w, false, false⟩ = ubOut := by
    intro w hw
    unfold readFresh untouched
    rw [if_pos]
    simp only [hd w hw]
    rfl
  constructor
  · unfold matFromStream
    rw [hu ws hw]
    rfl
  · intro n hn
    unfold matFromStream
    have := fresh_ok n hn [] '\n' ws white_nil rfl
    have h2 := readU64_digits n 0 hn [] '\n' ws white_nil rfl
    rw [List.nil_append] at this h2
    rw [this, h2]
    simp only [bind, Except.bind]
    rw [hu _ (by
      have := (white_one (c := '\n') rfl).append hw
      simpa using this)]
    rfl

/-- **C104** A file that ends before the last element is not refused: the other elements are zero. -/
theorem file_truncated_fails : matFromStream 100 readU64 (.ofText "2 2\n1 2 \n3".toList) = .ok (⟨[], true, true⟩, ⟨2, 2, [1, 3, 2, 0]⟩) := rfl

/-! ## Small elements -/

/-- **C104** `print(os, eps)` writes the matrix, as `<<` does, with zero in the place of the elements whose norm is less than
`eps`. -/
theorem print_chopped {β : Type} [LT β] [DecidableLT β] [Zero α] (pr : α → Str) (norm : α → β) (eps : β) {r c : Nat}
    {A : Matrix (Fin r) (Fin c) α} {m : Mat α} (h : Represents m r c A) :
    printChopped pr norm eps m = some (matLines pr (Matrix.of fun i j => if norm (A i j) < eps then 0 else A i j)) := by
  unfold printChopped
  rw [h.nrow, h.ncol, loop_flat r _ (fun i => ((List.finRange c).flatMap fun j => pr (chop norm eps (A i j)) ++ [' ']) ++ ['\n'])]
  · simp [matLines, chop]
  · intro i s
    unfold chopRow
    rw [h.ncol, loop_flat c _ (fun j => pr (chop norm eps (A i j)) ++ [' '])]
    · simp
    · intro j s
      have := h.entry i j
      rw [h.shape.get i.2 j.2] at this
      simp [h.nrow, this]

/-- **C104** The norm of a complex number is the square of its absolute value: an element that is greater than `eps` is written
as zero. -/
theorem print_complex_fails : ∃ (z : ℂ) (eps : ℝ), eps < ‖z‖ ∧ Complex.normSq z < eps := by
  refine ⟨⟨1 / 2, 0⟩, 1 / 3, ?_, ?_⟩
  · have : ((⟨1 / 2, 0⟩ : ℂ)) = ((1 / 2 : ℝ) : ℂ) := rfl
    rw [this, Complex.norm_real, Real.norm_eq_abs, abs_of_pos (by norm_num)]
    norm_num
  · simp [Complex.normSq]
    norm_num

example : printChopped (fun n : Int => (if n < 0 then "-" else "+").toList) (fun n => n.natAbs) 2 ⟨1, 2, [1, -3]⟩ =
    some "1 2\n+ - \n".toList := by decide

/-! ## Bytes -/

theorem readFd_all (n : Nat) (x rest old : List UInt8) (hx : x.length = n) (ho : old.length = n) : readFd n (x ++ rest) old = (rest, x) := by
  unfold readFd
  have e1 : (x ++ rest).take n = x := by rw [← hx, List.take_left']; rfl
  have e2 : (x ++ rest).drop n = rest := by rw [← hx, List.drop_left']; rfl
  simp only [e1, e2, hx]
  rw [List.drop_of_length_le (by omega), List.append_nil]

theorem flat_enc_length {e : Bytes α} {ok : α → Prop} (he : e.Lawful ok) (l : List α) : (l.flatMap e.enc).length = e.size * l.length := by
  induction l with
  | nil => simp
  | cons a l ih => rw [List.flatMap_cons, List.length_append, ih, he.len, List.length_cons]; ring

theorem chunks_flat {e : Bytes α} {ok : α → Prop} (he : e.Lawful ok) (l : List α) (hl : ∀ a ∈ l, ok a) (n : Nat) (h : l.length = n) : e.chunks n (l.flatMap e.enc) = l := by
  subst h
  induction l with
  | nil => rfl
  | cons a l ih =>
    rw [List.length_cons, Bytes.chunks, List.flatMap_cons]
    have e1 : (e.enc a ++ l.flatMap e.enc).take e.size = e.enc a := List.take_left' (he.len a)
    have e2 : (e.enc a ++ l.flatMap e.enc).drop e.size = l.flatMap e.enc := List.drop_left' (he.len a)
    rw [e1, e2, he.inv a (hl a List.mem_cons_self), ih fun x hx => hl x (List.mem_cons_of_mem _ hx)]

/-- **C104** A matrix written to a descriptor is read from it, whatever the object held, and the bytes after it are left. -/
theorem fd_matrix [Zero α] {w : Bytes Nat} {e : Bytes α} {ok : α → Prop} (hw : w.Lawful (· < 2 ^ 64)) (he : e.Lawful ok) {r c : Nat} {m : Mat α} (h : Shape m r c)
    (hr : r < 2 ^ 64) (hc : c < 2 ^ 64) (hok : ∀ a ∈ m.data, ok a) (old : Mat α) (rest : List UInt8) : ∃ b, printFd w e m = some b ∧ matReadFd w e (b ++ rest) old = (rest, m) := by
  obtain ⟨nr, nc, d⟩ := m
  obtain ⟨h1, h2, h3⟩ := h
  simp only at h1 h2 h3
  subst h1 h2
  refine ⟨w.enc nc ++ w.enc nr ++ d.flatMap e.enc, ?_, ?_⟩
  · unfold printFd
    simp only [h3, le_refl, if_true]
    rw [List.take_of_length_le (by omega)]
  · unfold matReadFd
    simp only [List.append_assoc]
    rw [readFd_all w.size (w.enc nc) _ _ (hw.len _) (hw.len _)]
    simp only []
    rw [readFd_all w.size (w.enc nr) _ _ (hw.len _) (hw.len _)]
    rw [hw.inv nc hc, hw.inv nr hr]
    rw [readFd_all _ _ _ _ (by rw [flat_enc_length he, h3]; ring) (by rw [flat_enc_length he, resizeL_length]; ring)]
    simp only []
    rw [chunks_flat he d hok _ h3]

/-- **C104** Any number of matrices, one after the other, into any objects. -/
theorem fd_matrices [Zero α] {w : Bytes Nat} {e : Bytes α} {ok : α → Prop} (hw : w.Lawful (· < 2 ^ 64)) (he : e.Lawful ok) (l : List (Mat α × Mat α))
    (h : ∀ x ∈ l, Shape x.1 x.1.nrow x.1.ncol ∧ x.1.nrow < 2 ^ 64 ∧ x.1.ncol < 2 ^ 64 ∧ ∀ a ∈ x.1.data, ok a) (rest : List UInt8) :
    ∃ b, printAllFd w e (l.map Prod.fst) = some b ∧ readAllFd w e (b ++ rest) (l.map Prod.snd) = (rest, l.map Prod.fst) := by
  induction l with
  | nil => exact ⟨[], rfl, rfl⟩
  | cons x l ih =>
    obtain ⟨b, h1, h2⟩ := ih fun y hy => h y (List.mem_cons_of_mem _ hy)
    have hx := h x List.mem_cons_self
    obtain ⟨a, h3, h4⟩ := fd_matrix hw he hx.1 hx.2.1 hx.2.2.1 hx.2.2.2 x.2 (b ++ rest)
    refine ⟨a ++ b, ?_, ?_⟩
    · simp only [List.map_cons, printAllFd, h3, h1]
      rfl
    · simp only [List.map_cons, readAllFd, List.append_assoc, h4, h2]

/-- **C104** A file without bytes is not noticed: the object stays as it was. -/
theorem fd_empty_fails [Zero α] {w : Bytes Nat} {e : Bytes α} {ok : α → Prop} (hw : w.Lawful (· < 2 ^ 64)) (he : e.Lawful ok) {r c : Nat} {m : Mat α} (h : Shape m r c)
    (hr : r < 2 ^ 64) (hc : c < 2 ^ 64) (hok : ∀ a ∈ m.data, ok a) : matReadFd w e [] m = ([], m) := by
  obtain ⟨nr, nc, d⟩ := m
  obtain ⟨h1, h2, h3⟩ := h
  simp only at h1 h2 h3
  subst h1 h2
  unfold matReadFd readFd
  simp only [List.take_nil, List.drop_nil, List.nil_append, List.length_nil, List.drop_zero]
  rw [hw.inv nc hc, hw.inv nr hr, ← h3, resizeL_self, chunks_flat he d hok _ rfl]

theorem wordBytes_lawful : wordBytes.Lawful (· < 2 ^ 64) where
  pos := by decide
  len a := by simp [wordBytes]
  inv a h := by
    simp only [wordBytes, List.range, List.range.loop, List.map_cons, List.map_nil, List.foldr_cons, List.foldr_nil, UInt8.toNat_ofNat']
    norm_num only
    omega

/-- A matrix of elements of one byte. -/
example : (⟨1, fun n => [n], fun b => b.headD 0⟩ : Bytes UInt8).Lawful fun _ => True :=
  ⟨by decide, fun _ => rfl, fun _ _ => rfl⟩

example : printFd wordBytes ⟨1, fun n => [n], fun b => b.headD 0⟩ (⟨1, 2, [7, 9]⟩ : Mat UInt8) =
    some [2, 0, 0, 0, 0, 0, 0, 0, 1, 0, 0, 0, 0, 0, 0, 0, 7, 9] := by decide

/-! ## Other members -/

/-- **C104** The conversion converts every element. -/
theorem convert_spec {β : Type} [Zero β] (f : α → β) {r c : Nat} {A : Matrix (Fin r) (Fin c) α} {m : Mat α} (h : Represents m r c A) :
    ∃ m', convertMat f m = some m' ∧ Represents m' r c (A.map f) := by
  have hs : Shape (⟨r, c, List.replicate (r * c) 0⟩ : Mat β) r c := ⟨rfl, rfl, by simp⟩
  obtain ⟨m', h1, h2⟩ := fill_double (A := A.map f) _ hs (fun i j => (m.get i j).map f) (by
    intro i j
    rw [h.entry i j]
    rfl)
  refine ⟨m', ?_, h2⟩
  rw [← h1]
  unfold convertMat
  rw [h.nrow, h.ncol]
  congr 1
  funext i d
  congr 1
  funext j d
  cases m.get i j <;> rfl

example : convertMat (fun n : Nat => (n : Int)) ⟨2, 2, [1, 2, 3, 4]⟩ = some ⟨2, 2, [1, 2, 3, 4]⟩ := by decide

/-- **C104** `swap` exchanges the matrices, `clear` leaves no elements, and two matrices with elements are equal exactly if they
are the same matrix. -/
theorem swap_spec (m m2 : Mat α) : swapMat m m2 = (m2, m) := rfl

theorem equal_iff [DecidableEq α] {r c r' c' : Nat} {A : Matrix (Fin r) (Fin c) α} {B : Matrix (Fin r') (Fin c') α} {m m2 : Mat α}
    (h : Represents m r c A) (h2 : Represents m2 r' c' B) :
    equalMat m m2 = true ↔ ∃ (e1 : r = r') (e2 : c = c'), A = B.submatrix (Fin.cast e1) (Fin.cast e2) := by
  constructor
  · intro he
    have : m = m2 := by
      cases m
      cases m2
      simpa [equalMat] using he
    subst this
    obtain rfl := h.nrow.symm.trans h2.nrow
    obtain rfl := h.ncol.symm.trans h2.ncol
    refine ⟨rfl, rfl, ?_⟩
    ext i j
    exact Option.some.inj ((h.entry i j).symm.trans (h2.entry i j))
  · rintro ⟨rfl, rfl, e⟩
    have : A = B := e
    subst this
    obtain rfl := h.unique h2
    simp [equalMat]

example : equalMat (⟨2, 1, [1, 2]⟩ : Mat Nat) ⟨1, 2, [1, 2]⟩ = false ∧ equalMat (⟨2, 1, [1, 2]⟩ : Mat Nat) ⟨2, 1, [1, 2]⟩ = true := by
  decide

theorem clear_spec [Zero α] : Represents (clearMat : Mat α) 0 0 0 := ⟨rfl, rfl, rfl, fun i => i.elim0⟩

end Verif.TextIo
