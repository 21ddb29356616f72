import Mathlib.Data.List.Nodup
import Mathlib.Data.List.Perm.Subperm
import Mathlib.Algebra.Group.Int.Defs
import Verif.TextIo.ModelSymbolic

/-!
# Property C93: matrices printed with letters

Whoever reads the text of `symbolicPrint` with its table of letters finds each element of the matrix again, up to the
tolerance; and the text is refused only for lack of letters.
-/

namespace Verif.TextIo

open Verif

/-- Specification: a symbol of the text. -/
inductive Sym
  | zero
  | letter (neg : Bool) (k : Nat)
  deriving DecidableEq

/-- Specification: how a symbol is written, three characters: a sign, a letter from `A` on (or `0`) and a blank. -/
def Sym.text : Sym → SymText
  | .zero => [' ', '0', ' ']
  | .letter neg k => [if neg then '-' else ' ', Char.ofNat ('A'.toNat + k), ' ']

/-- Specification: what a symbol stands for, given the table. -/
def Sym.value {α : Type} [AddCommGroup α] (table : List α) : Sym → Option α
  | .zero => some 0
  | .letter neg k => (table[k]?).map fun v => if neg then -v else v

/-- Specification: values that differ, also in sign, and are not zero, up to the tolerance. -/
def Distinct {α : Type} [AddCommGroup α] (small : α → Bool) (vs : List α) : Prop :=
  (∀ v ∈ vs, small v = false) ∧ vs.Pairwise fun a b => small (a - b) = false ∧ small (a + b) = false

theorem fold_or {σ : Type} (P : Nat → σ → Prop) (Q : Prop) (n : Nat) (f : σ → Nat → Out σ) (s : σ) (h0 : P 0 s)
    (hs : ∀ i s, i < n → P i s → (∃ s', f s i = .ok s' ∧ P (i + 1) s') ∨ (f s i = throwOut ∧ Q)) :
    (∃ s', (List.range n).foldlM f s = .ok s' ∧ P n s') ∨ ((List.range n).foldlM f s = throwOut ∧ Q) := by
  induction n with
  | zero => exact Or.inl ⟨s, rfl, h0⟩
  | succ n ih =>
    rw [List.range_succ, List.foldlM_append]
    rcases ih (fun i s hi => hs i s (by omega)) with ⟨s1, h1, h2⟩ | ⟨h1, h2⟩
    · rw [h1]
      rcases hs n s1 (by omega) h2 with ⟨s2, h3, h4⟩ | ⟨h3, h4⟩
      · refine Or.inl ⟨s2, ?_, h4⟩
        simp [bind, Except.bind, h3, pure, Except.pure]
      · refine Or.inr ⟨?_, h4⟩
        simp [bind, Except.bind, h3, throwOut]
    · rw [h1]
      exact Or.inr ⟨rfl, h2⟩

/-- A symbol that stands for `val` up to the tolerance. -/
def Stands {α : Type} [AddCommGroup α] (small : α → Bool) (table : List α) (s : Sym) (val : α) : Prop :=
  ∃ v, s.value table = some v ∧ small (v - val) = true

theorem Stands.mono {α : Type} [AddCommGroup α] {small : α → Bool} {t t' : List α} (h : t <+: t') {s : Sym} {val : α}
    (hs : Stands small t s val) : Stands small t' s val := by
  obtain ⟨v, h1, h2⟩ := hs
  refine ⟨v, ?_, h2⟩
  cases s with
  | zero => exact h1
  | letter neg k =>
    simp only [Sym.value, Option.map_eq_some_iff] at h1 ⊢
    obtain ⟨a, ha, hb⟩ := h1
    refine ⟨a, ?_, hb⟩
    obtain ⟨r, rfl⟩ := h
    rw [List.getElem?_append_left]
    · exact ha
    · exact (List.getElem?_eq_some_iff.1 ha).1

theorem symLetter_eq (k : Nat) : symLetter k = Char.ofNat ('A'.toNat + k) := by
  unfold symLetter
  rw [Nat.add_comm]
  rfl

theorem symCell_step {α : Type} [AddCommGroup α] (small : α → Bool) (hzero : small 0 = true)
    (hsym : ∀ x, small (-x) = small x)
    (vs : List α) (val : α) (hd : Distinct small vs) (hl : vs.length ≤ maxCharacters) :
    (∃ (s : Sym) (vs' : List α), symCell small vs val = .ok (s.text, vs') ∧ vs <+: vs' ∧ Distinct small vs' ∧
      vs'.length ≤ maxCharacters ∧ (∀ v ∈ vs', v ∈ vs ∨ v = val) ∧ Stands small vs' s val) ∨
    (symCell small vs val = throwOut ∧ Distinct small (vs ++ [val]) ∧ (vs ++ [val]).length = maxCharacters + 1) := by
  unfold symCell
  by_cases h0 : small val = true
  · rw [if_pos h0]
    refine Or.inl ⟨.zero, vs, rfl, List.prefix_refl _, hd, hl, fun v hv => Or.inl hv, 0, rfl, ?_⟩
    rw [zero_sub, hsym]
    exact h0
  · rw [if_neg h0]
    simp only
    have h0' : small val = false := by simpa using h0
    by_cases h1 : vs.findIdx (fun v => small (v - val)) = vs.length
    · rw [if_pos h1]
      have n1 : ∀ v ∈ vs, small (v - val) = false := by
        intro v hv
        have := List.findIdx_eq_length.1 h1 v hv
        simpa using this
      by_cases h2 : vs.findIdx (fun v => small (v + val)) = vs.length
      · rw [if_pos h2]
        have n2 : ∀ v ∈ vs, small (v + val) = false := by
          intro v hv
          have := List.findIdx_eq_length.1 h2 v hv
          simpa using this
        have hd' : Distinct small (vs ++ [val]) := by
          refine ⟨?_, ?_⟩
          · intro v hv
            rcases List.mem_append.1 hv with hv | hv
            · exact hd.1 v hv
            · rw [List.mem_singleton.1 hv]; exact h0'
          · rw [List.pairwise_append]
            refine ⟨hd.2, List.pairwise_singleton _ _, ?_⟩
            intro a ha b hb
            rw [List.mem_singleton.1 hb]
            exact ⟨n1 a ha, n2 a ha⟩
        have hlen : (vs ++ [val]).length = vs.length + 1 := by simp
        by_cases h3 : (vs ++ [val]).length > maxCharacters
        · rw [if_pos h3]
          exact Or.inr ⟨rfl, hd', by omega⟩
        · rw [if_neg h3]
          refine Or.inl ⟨.letter false vs.length, vs ++ [val], ?_, List.prefix_append _ _, hd', by omega, ?_, val, ?_, ?_⟩
          · rw [h1, Sym.text, symLetter_eq]; rfl
          · intro v hv
            rcases List.mem_append.1 hv with hv | hv
            · exact Or.inl hv
            · exact Or.inr (List.mem_singleton.1 hv)
          · simp [Sym.value]
          · rw [sub_self]; exact hzero
      · rw [if_neg h2]
        have h2' : vs.findIdx (fun v => small (v + val)) < vs.length :=
          lt_of_le_of_ne List.findIdx_le_length h2
        refine Or.inl ⟨.letter true (vs.findIdx fun v => small (v + val)), vs, ?_, List.prefix_refl _, hd, hl, fun v hv => Or.inl hv, ?_⟩
        · rw [Sym.text, symLetter_eq]; rfl
        · refine ⟨-vs[vs.findIdx (fun v => small (v + val))], ?_, ?_⟩
          · simp [Sym.value, List.getElem?_eq_getElem h2']
          · have := List.findIdx_getElem (w := h2')
            rw [← hsym, neg_sub, sub_neg_eq_add, add_comm]
            exact this
    · rw [if_neg h1]
      have h1' : vs.findIdx (fun v => small (v - val)) < vs.length :=
        lt_of_le_of_ne List.findIdx_le_length h1
      refine Or.inl ⟨.letter false (vs.findIdx fun v => small (v - val)), vs, ?_, List.prefix_refl _, hd, hl, fun v hv => Or.inl hv, ?_⟩
      · rw [Sym.text, symLetter_eq]; rfl
      · refine ⟨vs[vs.findIdx (fun v => small (v - val))], ?_, ?_⟩
        · simp [Sym.value, List.getElem?_eq_getElem h1']
        · exact List.findIdx_getElem (w := h1')

/-- Specification: the rows of the text. -/
def symLines (rows : List (List Sym)) : SymText := rows.flatMap fun r => r.flatMap Sym.text ++ ['\n']

/-- Specification: the table after the rows. -/
def tableText {α : Type} (pr : α → SymText) (table : List α) : SymText :=
  table.zipIdx.flatMap fun (v, k) => Char.ofNat ('A'.toNat + k) :: '=' :: pr v ++ [' ']

theorem symLegend_eq {α : Type} (pr : α → SymText) (vs : List α) : symLegend pr vs = tableText pr vs := by
  unfold symLegend tableText
  rw [List.zipIdx_eq_zip_range', List.flatMap_def, List.flatMap_def]
  congr 1
  apply List.ext_getElem
  · simp
  · intro k h1 h2
    simp only [List.length_map, List.length_range] at h1
    simp [List.getElem?_eq_getElem h1, symLetter_eq]

/-- The elements a matrix gives. -/
def Elements {α : Type} (m : Dense.Mat α) (a : Nat → Nat → α) : Prop :=
  ∀ i < m.nrow, ∀ j < m.ncol, m.get i j = some (a i j)

/-- `vs` are elements of the matrix. -/
def From {α : Type} (m : Dense.Mat α) (a : Nat → Nat → α) (vs : List α) : Prop :=
  ∀ v ∈ vs, ∃ i < m.nrow, ∃ j < m.ncol, a i j = v

theorem symRow_step {α : Type} [AddCommGroup α] (small : α → Bool) (hzero : small 0 = true)
    (hsym : ∀ x, small (-x) = small x) (m : Dense.Mat α) (a : Nat → Nat → α) (hm : Elements m a) (i : Nat)
    (hi : i < m.nrow) (os : SymText) (vs : List α) (hd : Distinct small vs) (hl : vs.length ≤ maxCharacters)
    (hf : From m a vs) :
    (∃ (row : List Sym) (vs' : List α), symRow small m (os, vs) i = .ok (os ++ (row.flatMap Sym.text ++ ['\n']), vs') ∧
      vs <+: vs' ∧ Distinct small vs' ∧ vs'.length ≤ maxCharacters ∧ From m a vs' ∧ row.length = m.ncol ∧
      ∀ j s, row[j]? = some s → Stands small vs' s (a i j)) ∨
    (symRow small m (os, vs) i = throwOut ∧
      ∃ vs', Distinct small vs' ∧ vs'.length = maxCharacters + 1 ∧ From m a vs') := by
  have key := fold_or (σ := SymText × List α)
    (fun j s => ∃ row : List Sym, s.1 = os ++ row.flatMap Sym.text ∧ row.length = j ∧ vs <+: s.2 ∧
      Distinct small s.2 ∧ s.2.length ≤ maxCharacters ∧ From m a s.2 ∧
      ∀ j s', row[j]? = some s' → Stands small s.2 s' (a i j))
    (∃ vs', Distinct small vs' ∧ vs'.length = maxCharacters + 1 ∧ From m a vs') m.ncol
    (symPut small m i) (os, vs)
    ⟨[], by simp, rfl, List.prefix_refl _, hd, hl, hf, by simp⟩
    (by
      rintro j ⟨t, ws⟩ hj ⟨row, h1, h2, h3, h4, h5, h6, h7⟩
      simp only at h1 h3 h4 h5 h6 h7 ⊢
      unfold symPut
      rw [hm i hi j hj]
      simp only
      rcases symCell_step small hzero hsym ws (a i j) h4 h5 with
        ⟨s, ws', e, g1, g2, g3, g4, g5⟩ | ⟨e, g1, g2⟩
      · refine Or.inl ⟨(t ++ s.text, ws'), by rw [e]; rfl, row ++ [s], ?_, ?_, h3.trans g1, g2, g3, ?_, ?_⟩
        · simp [h1]
        · simp [h2]
        · intro v hv
          rcases g4 v hv with hv | rfl
          · exact h6 v hv
          · exact ⟨i, hi, j, hj, rfl⟩
        · intro q s' hq
          by_cases hlt : q < row.length
          · rw [List.getElem?_append_left hlt] at hq
            exact (h7 q s' hq).mono g1
          · rw [List.getElem?_append_right (by omega)] at hq
            have hq0 : q - row.length = 0 := by
              by_contra hne
              rw [List.getElem?_eq_none (by simp; omega)] at hq
              cases hq
            rw [hq0] at hq
            simp only [List.getElem?_cons_zero, Option.some.injEq] at hq
            subst hq
            rw [show q = j by omega]
            exact g5
      · refine Or.inr ⟨by rw [e]; rfl, _, g1, g2, ?_⟩
        intro v hv
        rcases List.mem_append.1 hv with hv | hv
        · exact h6 v hv
        · rw [List.mem_singleton.1 hv]; exact ⟨i, hi, j, hj, rfl⟩)
  unfold symRow
  rcases key with ⟨⟨t, ws⟩, e, row, h1, h2, h3, h4, h5, h6, h7⟩ | ⟨e, h⟩
  · simp only at h1 h3 h4 h5 h6 h7
    refine Or.inl ⟨row, ws, ?_, h3, h4, h5, h6, h2, h7⟩
    rw [e]
    simp [bind, Except.bind, pure, Except.pure, h1]
  · refine Or.inr ⟨?_, h⟩
    rw [e]
    rfl

/-- What is printed: the sizes, then one symbol for each element, in rows, then the table of the letters.  Every symbol
stands, according to the table, for the element of its place up to the tolerance; the table has at most 25 values, all
of them elements of the matrix.  Otherwise an exception is thrown, and the matrix has 26 elements that differ. -/
theorem symbolic_spec {α : Type} [AddCommGroup α] (small : α → Bool) (hzero : small 0 = true)
    (hsym : ∀ x, small (-x) = small x) (pr : α → SymText) (m : Dense.Mat α) (a : Nat → Nat → α) (hm : Elements m a) :
    (∃ (rows : List (List Sym)) (table : List α),
      symbolicPrint small pr m = .ok (Nat.toDigits 10 m.nrow ++ ' ' :: Nat.toDigits 10 m.ncol ++ ['\n'] ++
        symLines rows ++ "---------------------------\n".toList ++ tableText pr table ++ ['\n']) ∧
      rows.length = m.nrow ∧ (∀ r ∈ rows, r.length = m.ncol) ∧
      (∀ i j r s, rows[i]? = some r → r[j]? = some s → Stands small table s (a i j)) ∧
      table.length ≤ 25 ∧ From m a table ∧ Distinct small table) ∨
    (symbolicPrint small pr m = throwOut ∧ ∃ vs, Distinct small vs ∧ vs.length = 26 ∧ From m a vs) := by
  have key := fold_or (σ := SymText × List α)
    (fun i s => ∃ rows : List (List Sym),
      s.1 = Nat.toDigits 10 m.nrow ++ ' ' :: Nat.toDigits 10 m.ncol ++ ['\n'] ++ symLines rows ∧
      rows.length = i ∧ (∀ r ∈ rows, r.length = m.ncol) ∧
      Distinct small s.2 ∧ s.2.length ≤ maxCharacters ∧ From m a s.2 ∧
      ∀ i j r s', rows[i]? = some r → r[j]? = some s' → Stands small s.2 s' (a i j))
    (∃ vs', Distinct small vs' ∧ vs'.length = maxCharacters + 1 ∧ From m a vs') m.nrow
    (symRow small m) (Nat.toDigits 10 m.nrow ++ ' ' :: Nat.toDigits 10 m.ncol ++ ['\n'], [])
    ⟨[], by simp [symLines], rfl, by simp, ⟨by simp, List.Pairwise.nil⟩, by simp, by simp [From], by simp⟩
    (by
      rintro i ⟨t, ws⟩ hi ⟨rows, h1, h2, h3, h4, h5, h6, h7⟩
      simp only at h1 h4 h5 h6 h7
      rcases symRow_step small hzero hsym m a hm i hi t ws h4 h5 h6 with
        ⟨row, ws', e, g1, g2, g3, g4, g5, g6⟩ | ⟨e, h⟩
      · refine Or.inl ⟨_, e, rows ++ [row], ?_, by simp [h2], ?_, g2, g3, g4, ?_⟩
        · simp [h1, symLines]
        · intro r hr
          rcases List.mem_append.1 hr with hr | hr
          · exact h3 r hr
          · rw [List.mem_singleton.1 hr]; exact g5
        · intro q j r s hq hs
          by_cases hlt : q < rows.length
          · rw [List.getElem?_append_left hlt] at hq
            exact (h7 q j r s hq hs).mono g1
          · rw [List.getElem?_append_right (by omega)] at hq
            have hq0 : q - rows.length = 0 := by
              by_contra hne
              rw [List.getElem?_eq_none (by simp; omega)] at hq
              cases hq
            rw [hq0] at hq
            simp only [List.getElem?_cons_zero, Option.some.injEq] at hq
            subst hq
            rw [show q = i by omega]
            exact g6 j s hs
      · exact Or.inr ⟨e, h⟩)
  unfold symbolicPrint
  rcases key with ⟨⟨t, ws⟩, e, rows, h1, h2, h3, h4, h5, h6, h7⟩ | ⟨e, h⟩
  · simp only at h1 h4 h5 h6 h7
    refine Or.inl ⟨rows, ws, ?_, h2, h3, h7, h5, h6, h4⟩
    rw [e]
    simp only [bind, Except.bind, pure, Except.pure, symLegend_eq, h1]
  · refine Or.inr ⟨?_, h⟩
    rw [e]
    rfl

/-- Without tolerance: values that differ up to sign among those of a list up to sign are not more than these. -/
theorem distinct_le {α : Type} [AddCommGroup α] (small : α → Bool) (hex : ∀ x, small x = true ↔ x = 0) (vs L : List α)
    (hd : Distinct small vs) (hL : ∀ v ∈ vs, ∃ l ∈ L, v = l ∨ v = -l) : vs.length ≤ L.length := by
  classical
  let f : α → α := fun v => if h : ∃ l ∈ L, v = l ∨ v = -l then h.choose else 0
  have hf : ∀ v ∈ vs, f v ∈ L ∧ (v = f v ∨ v = -f v) := by
    intro v hv
    have h := hL v hv
    have e : f v = h.choose := dif_pos h
    rw [e]
    exact h.choose_spec
  have hne : ∀ x, small x = false → x ≠ 0 := by
    intro x hx h0
    rw [(hex x).2 h0] at hx
    cases hx
  have hnd : (vs.map f).Nodup := by
    have hp := hd.2
    have : (vs.map f).Pairwise (· ≠ ·) := by
      rw [List.pairwise_map]
      refine List.Pairwise.imp_of_mem ?_ hp
      intro x y hx hy hxy e
      have h1 := hne _ hxy.1
      have h2 := hne _ hxy.2
      rcases (hf x hx).2 with a1 | a1 <;> rcases (hf y hy).2 with b1 | b1
      · exact h1 (by rw [a1, b1, e, sub_self])
      · exact h2 (by rw [a1, b1, e, add_neg_cancel])
      · exact h2 (by rw [a1, b1, e, neg_add_cancel])
      · exact h1 (by rw [a1, b1, e, sub_self])
    exact this
  have hsub : vs.map f ⊆ L := by
    intro x hx
    obtain ⟨v, hv, rfl⟩ := List.mem_map.1 hx
    exact (hf v hv).1
  have := (hnd.subperm hsub).length_le
  simpa using this

/-- Without tolerance: printing succeeds exactly if 25 values, with their negatives and zero, are all the elements of
the matrix; and then the symbols with the table give back the matrix. -/
theorem symbolic_exact {α : Type} [AddCommGroup α] (small : α → Bool) (hex : ∀ x, small x = true ↔ x = 0)
    (pr : α → SymText) (m : Dense.Mat α) (a : Nat → Nat → α) (hm : Elements m a) :
    ((∃ t, symbolicPrint small pr m = .ok t) ↔ ∃ L : List α, L.length ≤ 25 ∧
      ∀ i < m.nrow, ∀ j < m.ncol, a i j = 0 ∨ ∃ l ∈ L, a i j = l ∨ a i j = -l) ∧
    ∀ t, symbolicPrint small pr m = .ok t → ∃ (rows : List (List Sym)) (table : List α),
      t = Nat.toDigits 10 m.nrow ++ ' ' :: Nat.toDigits 10 m.ncol ++ ['\n'] ++
        symLines rows ++ "---------------------------\n".toList ++ tableText pr table ++ ['\n'] ∧
      ∀ i < m.nrow, ∀ j < m.ncol, ∃ r s, rows[i]? = some r ∧ r[j]? = some s ∧ s.value table = some (a i j) := by
  have hzero : small 0 = true := (hex 0).2 rfl
  have hsym : ∀ x, small (-x) = small x := by
    intro x
    have h1 := hex x
    have h2 := hex (-x)
    rw [neg_eq_zero] at h2
    exact Bool.eq_iff_iff.2 (h2.trans h1.symm)
  have hne : ∀ x, small x = false → x ≠ 0 := by
    intro x hx h0
    rw [(hex x).2 h0] at hx
    cases hx
  have hval : ∀ (rows : List (List Sym)) (table : List α), rows.length = m.nrow → (∀ r ∈ rows, r.length = m.ncol) →
      (∀ i j r s, rows[i]? = some r → r[j]? = some s → Stands small table s (a i j)) →
      ∀ i < m.nrow, ∀ j < m.ncol, ∃ r s, rows[i]? = some r ∧ r[j]? = some s ∧ s.value table = some (a i j) := by
    intro rows table h1 h2 h3 i hi j hj
    have e1 : rows[i]? = some rows[i] := List.getElem?_eq_getElem (by omega)
    have hl := h2 rows[i] (List.getElem_mem _)
    have e2 : rows[i][j]? = some (rows[i][j]'(by omega)) := List.getElem?_eq_getElem (by omega)
    obtain ⟨v, h4, h5⟩ := h3 i j _ _ e1 e2
    refine ⟨_, _, e1, e2, ?_⟩
    rw [h4, sub_eq_zero.1 ((hex _).1 h5)]
  rcases symbolic_spec small hzero hsym pr m a hm with ⟨rows, table, e, h1, h2, h3, h4, -, -⟩ | ⟨e, vs, h1, h2, h3⟩
  · refine ⟨⟨fun _ => ⟨table, h4, ?_⟩, fun _ => ⟨_, e⟩⟩, ?_⟩
    · intro i hi j hj
      obtain ⟨r, s, -, -, g⟩ := hval rows table h1 h2 h3 i hi j hj
      cases s with
      | zero => left; simpa [Sym.value] using g.symm
      | letter neg k =>
        right
        simp only [Sym.value, Option.map_eq_some_iff] at g
        obtain ⟨l, g1, g2⟩ := g
        refine ⟨l, List.mem_of_getElem? g1, ?_⟩
        cases neg
        · left; exact g2.symm
        · right; exact g2.symm
    · intro t ht
      rw [e] at ht
      cases ht
      exact ⟨rows, table, rfl, hval rows table h1 h2 h3⟩
  · refine ⟨⟨?_, ?_⟩, ?_⟩
    · rintro ⟨t, ht⟩
      rw [e] at ht
      cases ht
    · rintro ⟨L, hL, h⟩
      exfalso
      have := distinct_le small hex vs L h1 (by
        intro v hv
        obtain ⟨i, hi, j, hj, hij⟩ := h3 v hv
        rcases h i hi j hj with h0 | h0
        · exact absurd (hij.symm.trans h0) (hne v (h1.1 v hv))
        · rw [hij] at h0; exact h0)
      omega
    · intro t ht
      rw [e] at ht
      cases ht

/-- A matrix with three values. -/
example : symbolicPrint (fun x : Int => decide (x = 0)) (fun x => (toString x).toList) ⟨2, 2, [5, 0, -5, 7]⟩ =
    .ok "2 2\n A -A \n 0  B \n---------------------------\nA=5 B=7 \n".toList := by decide +kernel
example : Elements (⟨2, 2, [5, 0, -5, 7]⟩ : Dense.Mat Int) (fun i j => if i = 0 then (if j = 0 then 5 else -5) else if j = 0 then 0 else 7) := by
  unfold Elements; decide

/-- Twenty-six letters are not available: `Z` is never used. -/
theorem symbolic_letters_fails :
    symbolicPrint (fun x : Int => decide (x = 0)) (fun x => (toString x).toList)
      ⟨1, 26, (List.range 26).map fun k => (k : Int) + 1⟩ = throwOut := by decide +kernel

end Verif.TextIo
