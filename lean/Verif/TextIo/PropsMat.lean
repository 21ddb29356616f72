import Verif.TextIo.Props

/-!
# C74: matrices as text
-/

namespace Verif.TextIo

open Verif.Loop Verif.IoSimple Verif.Dense

/-- The lines of a matrix: its dimensions, then its rows, every number followed by a blank. -/
def matLines {α : Type} (pr : α → Str) {r c : Nat} (A : Matrix (Fin r) (Fin c) α) : Str :=
  Nat.toDigits 10 r ++ ' ' :: Nat.toDigits 10 c ++ '\n' ::
    (List.finRange r).flatMap fun i => ((List.finRange c).flatMap fun j => pr (A i j) ++ [' ']) ++ ['\n']

theorem loop_flat {β : Type} (n : Nat) (f : Nat → List β → Option (List β)) (g : Fin n → List β)
    (h : ∀ (i : Fin n) s, f i s = some (s ++ g i)) (s : List β) :
    loopN n f s = some (s ++ (List.finRange n).flatMap g) := by
  induction n with
  | zero => simp [loopN]
  | succ n ih =>
    have h2 := h (Fin.last n)
    simp only [Fin.val_last] at h2
    rw [loopN, ih (fun i => g i.castSucc) (fun i => h i.castSucc), List.finRange_succ_last]
    simp [h2, List.flatMap_append, List.flatMap_map]

/-- **C74** The text of a matrix. -/
theorem matText_spec {α : Type} (pr : α → Str) {r c : Nat} {A : Matrix (Fin r) (Fin c) α} {m : Mat α} (h : Represents m r c A) :
    matText pr m = some (matLines pr A) := by
  unfold matText
  rw [h.nrow, h.ncol, loop_flat r _ (fun i => ((List.finRange c).flatMap fun j => pr (A i j) ++ [' ']) ++ ['\n'])]
  · simp [matLines]
  · intro i s
    unfold rowText
    rw [h.ncol, loop_flat c _ (fun j => pr (A i j) ++ [' '])]
    · simp
    · intro j s
      simp [h.entry i j]

theorem fold_inv {σ : Type} (P : Nat → σ → Prop) (n : Nat) (f : σ → Nat → Out σ) (s : σ) (h0 : P 0 s)
    (hs : ∀ i s, i < n → P i s → ∃ s', f s i = .ok s' ∧ P (i + 1) s') :
    ∃ s', (List.range n).foldlM f s = .ok s' ∧ P n s' := by
  induction n with
  | zero => exact ⟨s, rfl, h0⟩
  | succ n ih =>
    obtain ⟨s1, h1, h2⟩ := ih (fun i s hi => hs i s (by omega))
    obtain ⟨s2, h3, h4⟩ := hs n s1 (by omega) h2
    refine ⟨s2, ?_, h4⟩
    rw [List.range_succ, List.foldlM_append, h1]
    simp [bind, Except.bind, h3, pure, Except.pure]

theorem finRange_drop {n k : Nat} (h : k < n) : (List.finRange n).drop k = ⟨k, h⟩ :: (List.finRange n).drop (k + 1) := by
  rw [List.drop_eq_getElem_cons (by simpa using h)]
  simp

/-- One element is read. -/
theorem readEntry_step {α : Type} {pr : α → Str} {rd : Stream → α → Out (Stream × α)} (ht : Through pr rd fun _ _ => True)
    {r c : Nat} {A : Matrix (Fin r) (Fin c) α} {m : Mat α} {P : Fin r → Fin c → Prop} (h : Filled m r c A P) (i : Fin r) (j : Fin c)
    (ws rest : Str) (hw : White ws) :
    ∃ ws' m', White ws' ∧ Filled m' r c A (fun i' j' => P i' j' ∨ (i' = i ∧ j' = j)) ∧
      readEntry rd i (⟨ws ++ pr (A i j) ++ ' ' :: rest, false, false⟩, m) j = .ok (⟨ws' ++ ' ' :: rest, false, false⟩, m') := by
  obtain ⟨B, hB⟩ := h.toShape.exists_rep
  obtain ⟨ws', hw', e⟩ := ht (B i j) (A i j) ws ' ' rest trivial hw rfl
  obtain ⟨m', h1, h2⟩ := h.set i j (A i j) rfl
  refine ⟨ws', m', hw', h2, ?_⟩
  unfold readEntry
  simp only [hB.entry i j, e, h1]

/-- **C74** A matrix written as text is read back, row by row, into any matrix without rows or with the same number of
rows, provided that its number of elements is within the limits. -/
theorem mat_read {α : Type} [Zero α] {pr : α → Str} {rd : Stream → α → Out (Stream × α)} (ht : Through pr rd fun _ _ => True)
    {r c : Nat} {A : Matrix (Fin r) (Fin c) α} {m : Mat α} (h : Represents m r c A) (old : Mat α) (ho : old.nrow = 0 ∨ old.nrow = r)
    (limit : Nat) (hlim : r * c ≤ limit) (hl : r * c < 2 ^ 64) (hr : r < 2 ^ 64) (hc : c < 2 ^ 64)
    (ws tail : Str) (hw : White ws) :
    ∃ text ws', matText pr m = some text ∧ White ws' ∧
      readMat limit rd ⟨ws ++ text ++ tail, false, false⟩ old = .ok (⟨ws' ++ tail, false, false⟩, m) := by
  obtain ⟨row, hrow⟩ : ∃ row : Fin r → Str, row = fun i => ((List.finRange c).flatMap fun j => pr (A i j) ++ [' ']) ++ ['\n'] :=
    ⟨_, rfl⟩
  have hmod : r * c % 2 ^ 64 = r * c := Nat.mod_eq_of_lt hl
  have hsh : Shape (⟨r, c, resizeL old.data (r * c) 0⟩ : Mat α) r c := ⟨rfl, rfl, resizeL_length _ _ _⟩
  obtain ⟨⟨st, m'⟩, f1, ws', f2, f3, f4⟩ := fold_inv
    (fun k (s : Stream × Mat α) => ∃ ws', White ws' ∧ Filled s.2 r c A (fun i _ => i.1 < k) ∧
      s.1 = ⟨ws' ++ (((List.finRange r).drop k).flatMap row ++ tail), false, false⟩) r
    (fun s j => (List.range c).foldlM (readEntry rd j) s)
    (⟨['\n'] ++ ((List.finRange r).flatMap row ++ tail), false, false⟩, (⟨r, c, resizeL old.data (r * c) 0⟩ : Mat α))
    ⟨['\n'], white_one rfl, (hsh.filled A).mono (by intro i j h; omega), by simp⟩ (by
      rintro k ⟨st, mk⟩ hk ⟨wk, hwk, hf, hst⟩
      simp only at hf hst
      subst hst
      obtain ⟨rest, hrest⟩ : ∃ rest : Str, rest = '\n' :: (((List.finRange r).drop (k + 1)).flatMap row ++ tail) := ⟨_, rfl⟩
      have e0 : ((List.finRange r).drop k).flatMap row ++ tail =
          ((List.finRange c).flatMap fun j => pr (A ⟨k, hk⟩ j) ++ [' ']) ++ rest := by
        rw [finRange_drop hk, List.flatMap_cons, hrest, hrow]
        simp
      obtain ⟨⟨st2, m2⟩, g1, w2, g2, g3, g4⟩ := fold_inv
        (fun l (s : Stream × Mat α) => ∃ ws', White ws' ∧
          Filled s.2 r c A (fun i j => i.1 < k ∨ (i.1 = k ∧ j.1 < l)) ∧
          s.1 = ⟨ws' ++ ((((List.finRange c).drop l).flatMap fun j => pr (A ⟨k, hk⟩ j) ++ [' ']) ++ rest), false, false⟩) c
        (readEntry rd k)
        (⟨wk ++ (((List.finRange r).drop k).flatMap row ++ tail), false, false⟩, mk)
        ⟨wk, hwk, hf.mono (by intro i j h; omega), by rw [e0]; simp⟩ (by
          rintro l ⟨st, ml⟩ hl ⟨wl, hwl, hfl, hstl⟩
          simp only at hfl hstl
          subst hstl
          rw [finRange_drop hl, List.flatMap_cons]
          have e1 : wl ++ ((pr (A ⟨k, hk⟩ ⟨l, hl⟩) ++ [' '] ++
                (((List.finRange c).drop (l + 1)).flatMap fun j => pr (A ⟨k, hk⟩ j) ++ [' '])) ++ rest) =
              wl ++ pr (A ⟨k, hk⟩ ⟨l, hl⟩) ++
                ' ' :: ((((List.finRange c).drop (l + 1)).flatMap fun j => pr (A ⟨k, hk⟩ j) ++ [' ']) ++ rest) := by simp
          rw [e1]
          obtain ⟨w', m', q1, q2, q3⟩ := readEntry_step ht hfl ⟨k, hk⟩ ⟨l, hl⟩ wl
            ((((List.finRange c).drop (l + 1)).flatMap fun j => pr (A ⟨k, hk⟩ j) ++ [' ']) ++ rest) hwl
          refine ⟨_, q3, w' ++ [' '], q1.append (white_one rfl), q2.mono ?_, by simp⟩
          rintro i j (h | ⟨h1, h2⟩)
          · exact .inl (.inl h)
          · by_cases e : j.1 = l
            · exact .inr ⟨Fin.ext h1, Fin.ext e⟩
            · exact .inl (.inr ⟨h1, by omega⟩))
      simp only at g3 g4
      refine ⟨_, g1, w2 ++ ['\n'], g2.append (white_one rfl), g3.mono ?_, ?_⟩
      · intro i j h
        have := j.2
        omega
      · rw [g4, List.drop_of_length_le (by simp)]
        simp [hrest])
  simp only at f3 f4
  have hm : m' = m := (f3.rep (fun i _ => i.2)).unique h
  refine ⟨matLines pr A, ws', matText_spec pr h, f2, ?_⟩
  have e : ws ++ matLines pr A ++ tail = ws ++ Nat.toDigits 10 r ++ ' ' :: (Nat.toDigits 10 c ++
      '\n' :: ((List.finRange r).flatMap row ++ tail)) := by
    rw [hrow]; simp [matLines]
  have e2 : (' ' :: (Nat.toDigits 10 c ++ '\n' :: ((List.finRange r).flatMap row ++ tail))) =
      [' '] ++ Nat.toDigits 10 c ++ '\n' :: ((List.finRange r).flatMap row ++ tail) := by simp
  unfold readMat
  rw [e, readU64_digits r _ hr ws ' ' _ hw rfl]
  simp only [bind, Except.bind]
  rw [e2, readU64_digits c _ hc [' '] '\n' _ (white_one rfl) rfl]
  simp only [Bool.false_eq_true, if_false, hmod]
  rw [if_neg (by omega), if_neg (by omega)]
  simp only [List.cons_append, List.nil_append] at f1
  rw [f1, f4, hm, List.drop_of_length_le (by simp)]
  simp

/-- The `2 × 3` matrix with entries `10 i + j`, numbers within the limits: the hypotheses are met. -/
example : matText (fun n : Nat => Nat.toDigits 10 n) ⟨2, 3, [0, 10, 1, 11, 2, 12]⟩ = some "2 3\n0 1 2 \n10 11 12 \n".toList ∧
    readMat 100 readU64 (.ofText "2 3\n0 1 2 \n10 11 12 \n".toList) ⟨0, 0, []⟩ =
      .ok (⟨" \n".toList, false, false⟩, ⟨2, 3, [0, 10, 1, 11, 2, 12]⟩) := ⟨rfl, rfl⟩

/-- The numbers that fit an `int`, as elements. -/
theorem through_small : Through (fun n : Small => Nat.toDigits 10 n.1) (fun st old =>
    let r := readInt st
    .ok (r.1, ⟨min ((r.2.getD old.1).toNat) 2147483647, Nat.min_le_right _ _⟩)) fun _ _ => True := by
  intro old a ws c r _ hw hc
  refine ⟨[], white_nil, ?_⟩
  simp only
  rw [readInt_digits a.1 a.2 ws c r hw hc]
  congr 2
  apply Subtype.ext
  simp [a.2]

/-- **C74** A matrix with another number of rows, not zero, is not read. -/
theorem mat_rows {α : Type} [Zero α] (limit : Nat) (rd : Stream → α → Out (Stream × α)) (old : Mat α) (r c : Nat)
    (hr : r < 2 ^ 64) (hc : c < 2 ^ 64) (h : old.nrow ≠ 0) (h2 : old.nrow ≠ r) (ws rest : Str) (hw : White ws) :
    readMat limit rd ⟨ws ++ Nat.toDigits 10 r ++ ' ' :: (Nat.toDigits 10 c ++ '\n' :: rest), false, false⟩ old = throwOut := by
  have e2 : (' ' :: (Nat.toDigits 10 c ++ '\n' :: rest)) = [' '] ++ Nat.toDigits 10 c ++ '\n' :: rest := by simp
  unfold readMat
  rw [readU64_digits r _ hr ws ' ' _ hw rfl]
  simp only [bind, Except.bind]
  rw [e2, readU64_digits c _ hc [' '] '\n' _ (white_one rfl) rfl]
  simp only [Bool.false_eq_true, if_false]
  rw [if_pos (by omega)]

/-- **C74** A text that ends before the dimensions is refused. -/
theorem mat_empty {α : Type} [Zero α] (limit : Nat) (rd : Stream → α → Out (Stream × α)) (old : Mat α) (ws : Str) (hw : White ws) :
    readMat limit rd (.ofText ws) old = throwOut := by
  have hd : ws.dropWhile isWs = [] := by
    have := dropWhile_ws ws [] hw
    simpa using this
  unfold readMat
  have : readU64 (.ofText ws) 0 = .ok (⟨[], true, true⟩, 0) := by
    unfold readU64 Stream.ofText
    rw [if_pos (by rfl)]
    simp only [hd]
  rw [this]
  rfl

/-- **C74** A text that ends before the last element is not: the missing elements are zero, or what was there. -/
theorem mat_truncated_fails :
    readMat 100 readU64 (.ofText "2 2\n1 2 \n3".toList) ⟨2, 1, [7, 8]⟩ = .ok (⟨[], true, true⟩, ⟨2, 2, [1, 3, 2, 0]⟩) := rfl

/-- Dimensions, not zero, whose product is zero in 64 bits. -/
theorem readMat_wrap (limit : Nat) (rd : Stream → Nat → Out (Stream × Nat)) (st st1 st2 : Stream) (r c : Nat)
    (h1 : readU64 st 0 = .ok (st1, r + 1)) (h2 : readU64 st1 0 = .ok (st2, c + 1)) (h3 : st2.fail = false)
    (h4 : (r + 1) * (c + 1) % 2 ^ 64 = 0) : readMat limit rd st ⟨0, 0, []⟩ = ubOut := by
  unfold readMat
  rw [h1]
  simp only [bind, Except.bind, h2, h3, h4]
  rw [if_neg (by decide), if_neg (by omega), if_neg (by omega), List.range_succ_eq_map, List.range_succ_eq_map,
    List.foldlM_cons, List.foldlM_cons]
  rfl

/-- **C74** Dimensions whose product does not fit 64 bits are accepted, and elements out of range are written. -/
theorem mat_wrap_fails (limit : Nat) :
    readMat limit readU64 (.ofText "4294967296 4294967296\n1".toList) ⟨0, 0, []⟩ = ubOut := by
  have h : readU64 (.ofText "4294967296 4294967296\n1".toList) 0 =
      .ok (⟨" 4294967296\n1".toList, false, false⟩, 4294967295 + 1) := by decide +kernel
  have h2 : readU64 ⟨" 4294967296\n1".toList, false, false⟩ 0 = .ok (⟨"\n1".toList, false, false⟩, 4294967295 + 1) := by
    decide +kernel
  exact readMat_wrap limit readU64 _ _ _ 4294967295 4294967295 h h2 rfl (by decide)

/-- **C74** `printNonZero` of a matrix with more rows than columns reads elements out of range. -/
theorem printNonZero_fails {α : Type} [Zero α] [DecidableEq α] (pr : α → Str) (m : Mat α) (h : m.ncol < m.nrow) :
    printNonZero pr m = none := by
  have key : ∀ n os, m.ncol < n → loopN n (fun i (os : Str) => do
    let a ← m.get i i
    if a ≠ 0 then some (os ++ pr a ++ [' ']) else some os) os = none := by
    intro n os hn
    induction n with
    | zero => omega
    | succ n ih =>
      rw [loopN]
      by_cases e : m.ncol < n
      · rw [ih e]; rfl
      · have : m.get n n = none := by
          unfold Mat.get
          rw [if_neg (by omega)]
        cases loopN n (fun i (os : Str) => do
          let a ← m.get i i
          if a ≠ 0 then some (os ++ pr a ++ [' ']) else some os) os with
        | none => rfl
        | some os => simp [this]
  unfold printNonZero
  cases loopN m.nrow (nonZeroRow pr m) _ with
  | none => rfl
  | some os =>
    simp only [bind, Option.bind_some]
    unfold diagText
    have := key m.nrow (os ++ "#diagonal non-zero\n".toList) h
    rw [this]
    rfl

example : (⟨2, 1, [0, 0]⟩ : Mat Int).ncol < (⟨2, 1, [0, 0]⟩ : Mat Int).nrow := by decide

/-- Pieces with something between them. -/
def sepBy (sep : Str) : List Str → Str
  | [] => []
  | [a] => a
  | a :: b :: l => a ++ sep ++ sepBy sep (b :: l)

/-- **C74** `printNonZero` of a matrix with at least as many columns as rows: the elements that are not zero of every row that
has some, then those of the diagonal. -/
theorem printNonZero_spec {α : Type} [Zero α] [DecidableEq α] (pr : α → Str) {r c : Nat} {A : Matrix (Fin r) (Fin c) α} {m : Mat α}
    (h : Represents m r c A) (hrc : r ≤ c) :
    printNonZero pr m = some ("#size=".toList ++ Nat.toDigits 10 r ++ 'x' :: Nat.toDigits 10 c ++ '\n' ::
      (List.finRange r).flatMap (fun i => if ∃ j, A i j ≠ 0 then
        (((List.finRange c).filter fun j => A i j ≠ 0).flatMap fun j => pr (A i j) ++ [' ']) ++ ['\n'] else []) ++
      "#diagonal non-zero\n".toList ++
      (((List.finRange r).filter fun i => A i ⟨i, by omega⟩ ≠ 0).flatMap fun i => pr (A i ⟨i, by omega⟩) ++ [' ']) ++ ['\n']) := by
  have hrow : ∀ (i : Fin r) (os : Str), nonZeroRow pr m i os = some (os ++ if ∃ j, A i j ≠ 0 then
        (((List.finRange c).filter fun j => A i j ≠ 0).flatMap fun j => pr (A i j) ++ [' ']) ++ ['\n'] else []) := by
    intro i os
    have key : ∀ n (hn : n ≤ c), loopN n (fun j (s : Str × Nat) => do
        let a ← m.get i j
        if a ≠ 0 then some (s.1 ++ pr a ++ [' '], s.2 + 1) else some s) (os, 0) =
        some (os ++ ((((List.finRange c).take n).filter fun j => A i j ≠ 0).flatMap fun j => pr (A i j) ++ [' ']),
          (((List.finRange c).take n).filter fun j => A i j ≠ 0).length) := by
      intro n
      induction n with
      | zero => intro _; simp [loopN]
      | succ n ih =>
        intro hn
        have hg := h.entry i ⟨n, by omega⟩
        simp only at hg
        rw [loopN, ih (by omega)]
        simp only [bind, Option.bind_some, hg]
        rw [List.take_succ_eq_append_getElem (by rw [List.length_finRange]; omega)]
        simp only [List.getElem_finRange, Fin.cast_mk, List.filter_append, List.flatMap_append, List.length_append]
        by_cases hz : A i ⟨n, by omega⟩ = 0
        · simp [hz]
        · simp [hz]
    unfold nonZeroRow
    rw [h.ncol, key c (Nat.le_refl c), List.take_of_length_le (by simp)]
    simp only [bind, Option.bind_some]
    by_cases he : ∃ j, A i j ≠ 0
    · rw [if_pos he, if_pos (by
        obtain ⟨j, hj⟩ := he
        exact List.length_pos_iff.2 (List.ne_nil_of_mem (List.mem_filter.2 ⟨List.mem_finRange j, by simpa using hj⟩)))]
      simp
    · have : (List.finRange c).filter (fun j => A i j ≠ 0) = [] := by
        rw [List.filter_eq_nil_iff]
        intro j _
        push Not at he
        simp [he j]
      rw [if_neg he, this]
      simp
  unfold printNonZero
  rw [h.nrow, h.ncol, loop_flat r _ _ hrow]
  simp only [bind, Option.bind_some]
  unfold diagText
  have hd : ∀ (i : Fin r) (os : Str), (do
      let a ← m.get i i
      if a ≠ 0 then some (os ++ pr a ++ [' ']) else some os : Option Str) =
        some (os ++ if A i ⟨i, by omega⟩ ≠ 0 then pr (A i ⟨i, by omega⟩) ++ [' '] else []) := by
    intro i os
    have := h.entry i ⟨i, by omega⟩
    simp only at this
    simp only [bind, this, Option.bind_some]
    by_cases hz : A i ⟨i, by omega⟩ = 0 <;> simp [hz]
  simp only [bind] at hd
  rw [h.nrow, loop_flat r _ _ hd]
  have hf : ∀ l : List (Fin r), l.flatMap (fun i => if A i ⟨i, by omega⟩ ≠ 0 then pr (A i ⟨i, by omega⟩) ++ [' '] else []) =
      (l.filter fun i => A i ⟨i, by omega⟩ ≠ 0).flatMap fun i => pr (A i ⟨i, by omega⟩) ++ [' '] := by
    intro l
    induction l with
    | nil => rfl
    | cons a l ih =>
      rw [List.flatMap_cons, ih, List.filter_cons]
      by_cases hz : A a ⟨a, by omega⟩ = 0 <;> simp [hz]
  rw [hf]
  simp

theorem sepBy_last (sep : Str) (l : List Str) (a : Str) (h : l ≠ []) : sepBy sep (l ++ [a]) = sepBy sep l ++ sep ++ a := by
  induction l with
  | nil => exact absurd rfl h
  | cons b l ih =>
    cases l with
    | nil => simp [sepBy]
    | cons c l =>
      have := ih (by simp)
      simp only [List.cons_append] at this ⊢
      rw [sepBy, this, sepBy]
      simp

/-- A loop that puts a separator after all but the last piece. -/
theorem loop_sep (n : Nat) (f : Nat → Str → Option Str) (g : Fin n → Str) (sep : Str)
    (h : ∀ (i : Fin n) s, f i s = some (s ++ g i ++ if i.1 + 1 < n then sep else [])) (s : Str) :
    loopN n f s = some (s ++ sepBy sep ((List.finRange n).map g)) := by
  have key : ∀ k (hk : k ≤ n), loopN k f s = some (s ++ sepBy sep (((List.finRange n).take k).map g) ++
      if 0 < k ∧ k < n then sep else []) := by
    intro k
    induction k with
    | zero => intro _; simp [loopN, sepBy]
    | succ k ih =>
      intro hk
      have h2 := h ⟨k, hk⟩
      simp only at h2
      rw [loopN, ih (by omega), Option.bind_some, h2, List.take_succ_eq_append_getElem (by rw [List.length_finRange]; omega)]
      simp only [List.getElem_finRange, Fin.cast_mk, List.map_append, List.map_cons, List.map_nil]
      by_cases hk0 : k = 0
      · subst hk0
        simp [sepBy]
      · rw [sepBy_last _ _ _ (by
          intro e
          have := congrArg List.length e
          simp at this
          omega), if_pos (by omega)]
        simp
  rw [key n (Nat.le_refl n), if_neg (by omega), List.take_of_length_le (by simp)]
  simp

/-- **C74** `mathematicaPrint` writes the matrix as a list of its rows. -/
theorem mathematicaPrint_spec {α : Type} (pr : α → Str) {r c : Nat} {A : Matrix (Fin r) (Fin c) α} {m : Mat α}
    (h : Represents m r c A) :
    mathematicaPrint pr m = some ("m:={".toList ++
      sepBy ",\n".toList ((List.finRange r).map fun i => '{' :: sepBy [','] ((List.finRange c).map fun j => pr (A i j)) ++ ['}']) ++
      "}\n".toList) := by
  unfold mathematicaPrint
  rw [h.nrow, loop_sep r _ (fun i => '{' :: sepBy [','] ((List.finRange c).map fun j => pr (A i j)) ++ ['}']) ",\n".toList]
  · simp
  · intro i s
    unfold mathRow
    rw [h.ncol, h.nrow, loop_sep c _ (fun j => pr (A i j)) [',']]
    · simp only [bind, Option.bind_some]
      split <;> simp
    · intro j s
      simp only [bind, h.entry i j, Option.bind_some]
      split <;> simp

example : mathematicaPrint (fun n : Nat => Nat.toDigits 10 n) ⟨2, 2, [1, 3, 2, 4]⟩ = some "m:={{1,2},\n{3,4}}\n".toList := rfl

end Verif.TextIo
