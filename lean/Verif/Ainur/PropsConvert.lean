import Verif.Ainur.PropsMacro
import Verif.Labels.Props

/-!
# C65: vectors, matrices and the ellipsis
-/

namespace Verif.Ainur

open Verif.Str Verif.StrUtil

theorem filter_space (text : Str) : (text.filter fun c => !isSpace c) = squeeze text := by
  unfold squeeze
  congr 1
  funext c
  simp [isSpace, white]

/-! ## Parsing -/

theorem cell_ok (w : Str) (hw : IsCell w) (d : Char) (hd : d = ',' ∨ d = ']') (s : Str) :
    cell (w ++ d :: s) = some (w, d :: s) := by
  unfold cell
  have h1 : ∀ c ∈ w, (decide (c ≠ ',' ∧ c ≠ '[' ∧ c ≠ ']')) = true := by
    intro c hc
    obtain ⟨a, b, e, _⟩ := hw.2 c hc
    simp [a, b, e]
  have h2 : (decide (d ≠ ',' ∧ d ≠ '[' ∧ d ≠ ']')) = false := by
    rcases hd with rfl | rfl <;> decide
  simp only []
  rw [List.takeWhile_append_of_pos h1, List.dropWhile_append_of_pos h1, List.takeWhile_cons, List.dropWhile_cons, h2]
  simp [hw.1]

/-- The entries after the first. -/
def tailText (ws : List Str) : Str := ws.flatMap fun w => ',' :: w

theorem intercalate_cons (w : Str) (ws : List Str) : [','].intercalate (w :: ws) = w ++ tailText ws := by
  induction ws generalizing w with
  | nil => simp [tailText, List.intercalate]
  | cons v ws ih =>
    have := ih v
    simp only [List.intercalate, List.intersperse_cons₂, List.flatten_cons] at this ⊢
    rw [this]
    simp [tailText]

theorem tail_head (ws : List Str) (rest : Str) : ∃ d s, tailText ws ++ ']' :: rest = d :: s ∧ (d = ',' ∨ d = ']') := by
  cases ws with
  | nil => exact ⟨']', rest, rfl, .inr rfl⟩
  | cons w ws => exact ⟨',', _, rfl, .inl rfl⟩

theorem moreCells_ok (ws : List Str) (hw : ∀ w ∈ ws, IsCell w) (rest : Str) (n : Nat) (hn : ws.length ≤ n) :
    moreCells n (tailText ws ++ ']' :: rest) = (ws, ']' :: rest) := by
  induction ws generalizing n with
  | nil =>
    cases n with
    | zero => rfl
    | succ n => simp [tailText, moreCells]
  | cons w ws ih =>
    obtain ⟨n, rfl⟩ : ∃ m, n = m + 1 := ⟨n - 1, by simp at hn; omega⟩
    obtain ⟨d, s, h1, h2⟩ := tail_head ws rest
    have h3 : tailText (w :: ws) ++ ']' :: rest = ',' :: (w ++ d :: s) := by
      rw [← h1]; simp [tailText]
    rw [h3]
    simp only [moreCells, cell_ok w (hw w (by simp)) d h2 s]
    rw [← h1, ih (fun v hv => hw v (by simp [hv])) n (by simpa using hn)]

theorem tail_length (ws : List Str) : ws.length ≤ (tailText ws).length := by
  induction ws with
  | nil => simp
  | cons w ws ih =>
    simp only [tailText, List.flatMap_cons, List.length_append, List.length_cons] at ih ⊢
    omega

theorem row_ok (ws : List Str) (h0 : ws ≠ []) (hw : ∀ w ∈ ws, IsCell w) (rest : Str) :
    row (vectorText ws ++ rest) = some (ws, rest) := by
  cases ws with
  | nil => exact absurd rfl h0
  | cons w ws =>
    obtain ⟨d, s, h1, h2⟩ := tail_head ws rest
    have h3 : vectorText (w :: ws) ++ rest = '[' :: (w ++ d :: s) := by
      rw [vectorText, intercalate_cons, ← h1]; simp
    rw [h3]
    simp only [row, cell_ok w (hw w (by simp)) d h2 s]
    have hl : ws.length ≤ (d :: s).length := by
      rw [← h1, List.length_append]
      have := tail_length ws
      omega
    have h4 := moreCells_ok ws (fun v hv => hw v (by simp [hv])) rest (d :: s).length hl
    rw [h1] at h4
    rw [h4]
    simp

theorem moreRows_ok (rs : List (List Str)) (hr : ∀ ws ∈ rs, ws ≠ [] ∧ ∀ w ∈ ws, IsCell w) (rest : Str) (n : Nat)
    (hn : rs.length ≤ n) : moreRows n (tailText (rs.map vectorText) ++ ']' :: rest) = (rs, ']' :: rest) := by
  induction rs generalizing n with
  | nil =>
    cases n with
    | zero => rfl
    | succ n => simp [tailText, moreRows]
  | cons ws rs ih =>
    obtain ⟨n, rfl⟩ : ∃ m, n = m + 1 := ⟨n - 1, by simp at hn; omega⟩
    have h3 : tailText ((ws :: rs).map vectorText) ++ ']' :: rest =
        ',' :: (vectorText ws ++ (tailText (rs.map vectorText) ++ ']' :: rest)) := by
      simp [tailText]
    obtain ⟨h1, h2⟩ := hr ws (by simp)
    rw [h3]
    simp only [moreRows, row_ok ws h1 h2]
    rw [ih (fun v hv => hr v (by simp [hv])) n (by simpa using hn)]

theorem rows_ok (rs : List (List Str)) (h0 : rs ≠ []) (hr : ∀ ws ∈ rs, ws ≠ [] ∧ ∀ w ∈ ws, IsCell w) (rest : Str) :
    rows (matrixText rs ++ rest) = some (rs, rest) := by
  cases rs with
  | nil => exact absurd rfl h0
  | cons ws rs =>
    have h3 : matrixText (ws :: rs) ++ rest =
        '[' :: (vectorText ws ++ (tailText (rs.map vectorText) ++ ']' :: rest)) := by
      rw [matrixText, List.map_cons, intercalate_cons]; simp
    obtain ⟨h1, h2⟩ := hr ws (by simp)
    rw [h3]
    simp only [rows, row_ok ws h1 h2]
    have hl : rs.length ≤ (tailText (rs.map vectorText) ++ ']' :: rest).length := by
      rw [List.length_append]
      have := tail_length (rs.map vectorText)
      simp at this ⊢
      omega
    rw [moreRows_ok rs (fun v hv => hr v (by simp [hv])) rest _ hl]
    simp

/-! ## Properties -/

/-- The conversion of one entry: calls of functions first. -/
def entry {α : Type} (el : Elem α) (fs : Files) (funs : List Str) (w : Str) : Out α :=
  valueFromFunction fs funs w >>= el.conv

/-- An entry that does not begin with a parenthesis is converted as it stands. -/
theorem entry_plain {α : Type} (el : Elem α) (fs : Files) (funs : List Str) (w : Str) (h : w.head? ≠ some '(') :
    entry el fs funs w = el.conv w := by
  unfold entry
  rw [valueFromFunction_plain fs funs w h]; rfl

/-- A list of entries that is not one of the two forms with an ellipsis. -/
def NoEllipsis (ws : List Str) : Prop := ∀ a b, ws = [a, b] → b.take 3 ≠ "...".toList

/-- **C65** `[a, b, c, …]`, with white space anywhere, gives the entries in order, whatever the vector was before. -/
theorem vector_spec {α : Type} (el : Elem α) (fs : Files) (funs : List Str) (text rest : Str) (ws : List Str) (t : List α)
    (h0 : ws ≠ []) (hw : ∀ w ∈ ws, IsCell w) (hs : squeeze text = vectorText ws ++ rest) (hn : NoEllipsis ws) :
    convertVector el fs funs text t = ws.mapM (entry el fs funs) := by
  unfold convertVector
  rw [filter_space text, hs, row_ok ws h0 hw]
  simp only
  match ws, hn with
  | [], _ => rfl
  | [a], _ => rfl
  | a :: b :: c :: ws, _ => rfl
  | [a, b], hn =>
    have hb := hn a b rfl
    unfold actionRows
    simp only
    rw [if_neg (by rintro rfl; exact hb rfl), if_neg (by
      rintro ⟨_, h2⟩
      apply hb
      have := congrArg (List.take 3) h2
      rw [List.take_take] at this
      exact this)]
    rfl

/-- **C65** The vector has as many elements as the text has entries. -/
theorem vector_length {α : Type} (el : Elem α) (fs : Files) (funs : List Str) (text rest : Str) (ws : List Str) (t t' : List α)
    (h0 : ws ≠ []) (hw : ∀ w ∈ ws, IsCell w) (hs : squeeze text = vectorText ws ++ rest) (hn : NoEllipsis ws)
    (hr : convertVector el fs funs text t = .ok t') :
    t'.length = ws.length ∧ ∀ (i : Nat) (w : Str), ws[i]? = some w → ∃ x, t'[i]? = some x ∧ entry el fs funs w = .ok x := by
  rw [vector_spec el fs funs text rest ws t h0 hw hs hn] at hr
  clear hs hn h0 hw
  induction ws generalizing t' with
  | nil => cases hr; simp
  | cons w ws ih =>
    rw [List.mapM_cons] at hr
    cases h1 : entry el fs funs w with
    | error e => rw [h1] at hr; cases hr
    | ok x =>
      rw [h1] at hr
      cases h2 : ws.mapM (entry el fs funs) with
      | error e => rw [h2] at hr; cases hr
      | ok xs =>
        rw [h2] at hr
        cases hr
        obtain ⟨h3, h4⟩ := ih xs h2
        refine ⟨by simp [h3], ?_⟩
        intro i v hv
        cases i with
        | zero => cases hv; exact ⟨x, rfl, h1⟩
        | succ i => exact h4 i v hv

theorem isCell_dots : IsCell "...".toList := by
  refine ⟨by decide, ?_⟩
  decide

/-- **C65** `[a, ...]` sets all elements of a vector that has a size to `a`; the size stays. -/
theorem ellipsis_spec {α : Type} (el : Elem α) (fs : Files) (funs : List Str) (text rest a : Str) (t : List α) (x : α)
    (ha : IsCell a) (hs : squeeze text = vectorText [a, "...".toList] ++ rest) (hx : el.conv a = .ok x) :
    convertVector el fs funs text t = if t = [] then throwOut else .ok (List.replicate t.length x) := by
  unfold convertVector
  rw [filter_space text, hs, row_ok _ (by simp) (by
    intro w hw
    simp only [List.mem_cons, List.not_mem_nil, or_false] at hw
    rcases hw with rfl | rfl
    · exact ha
    · exact isCell_dots)]
  simp only [actionRows, if_true, List.length_eq_zero_iff, hx]
  rfl

/-- **C65** `[a, ...xN]` gives `N` times `a`, whatever the vector was before. -/
theorem ellipsis_times_spec {α : Type} (el : Elem α) (fs : Files) (funs : List Str) (text rest a : Str) (t : List α)
    (x : α) (n : Nat) (hn : 0 < n) (hmax : n ≤ 2147483647) (ha : IsCell a)
    (hs : squeeze text = vectorText [a, "...x".toList ++ Nat.toDigits 10 n] ++ rest) (hx : el.conv a = .ok x) :
    convertVector el fs funs text t = .ok (List.replicate n x) := by
  have hpos := Labels.toDigits_pos n
  have hcell : IsCell ("...x".toList ++ Nat.toDigits 10 n) := by
    refine ⟨by simp, ?_⟩
    intro c hc
    rw [List.mem_append] at hc
    rcases hc with hc | hc
    · revert c; decide
    · have hd := isDigit_toDigits n c hc
      have h1 : ∀ d : Char, isDigit d = false → c ≠ d := by rintro d h rfl; rw [hd] at h; cases h
      refine ⟨h1 _ (by decide), h1 _ (by decide), h1 _ (by decide), ?_⟩
      simp only [white, List.mem_cons, List.not_mem_nil, or_false, decide_eq_false_iff_not, not_or]
      exact ⟨h1 _ (by decide), h1 _ (by decide), h1 _ (by decide), h1 _ (by decide), h1 _ (by decide), h1 _ (by decide)⟩
  unfold convertVector
  rw [filter_space text, hs, row_ok _ (by simp) (by
    intro w hw
    simp only [List.mem_cons, List.not_mem_nil, or_false] at hw
    rcases hw with rfl | rfl
    · exact ha
    · exact hcell)]
  simp only [actionRows]
  rw [if_neg (by
    intro e
    have := congrArg List.length e
    simp at this)]
  rw [if_pos ⟨by simp; omega, by simp⟩]
  rw [show List.drop 4 ("...x".toList ++ Nat.toDigits 10 n) = Nat.toDigits 10 n by simp, Labels.atoi_digits n hmax]
  show (if (n : Int) < 0 then throwOut else if (n : Int) = 0 then ubOut else _) = _
  rw [if_neg (by omega), if_neg (by omega), hx]
  rfl

/-- Brackets out of place are refused: the text must begin with `[` and an entry. -/
theorem vector_refused {α : Type} (el : Elem α) (fs : Files) (funs : List Str) (text : Str) (t : List α)
    (h : (squeeze text).head? ≠ some '[' ∨ ∃ s, squeeze text = '[' :: ']' :: s) :
    convertVector el fs funs text t = throwOut := by
  unfold convertVector
  rw [filter_space text]
  generalize squeeze text = s at h
  have : row s = none := by
    rcases h with h | ⟨s', rfl⟩
    · unfold row
      split
      · simp at h
      · rfl
    · rfl
  rw [this]

theorem cell_some {s w s' : Str} (h : cell s = some (w, s')) (hs : ∀ c ∈ s, ¬ white c) : s = w ++ s' ∧ IsCell w ∧ ∀ c ∈ s', ¬ white c := by
  unfold cell at h
  simp only at h
  split at h
  · cases h
  · rename_i h0
    obtain ⟨rfl, rfl⟩ := Prod.mk.inj (Option.some.inj h)
    refine ⟨List.takeWhile_append_dropWhile.symm, ⟨h0, fun c hc => ?_⟩, fun c hc => hs c ((List.dropWhile_sublist _).mem hc)⟩
    have h1 := List.all_takeWhile (l := s) (p := fun c => decide (c ≠ ',' ∧ c ≠ '[' ∧ c ≠ ']'))
    rw [List.all_eq_true] at h1
    have := h1 c hc
    simp only [decide_eq_true_eq] at this
    exact ⟨this.1, this.2.1, this.2.2, by simpa using hs c ((List.takeWhile_sublist _).mem hc)⟩

theorem moreCells_some (n : Nat) (s : Str) (hs : ∀ c ∈ s, ¬ white c) : s = tailText (moreCells n s).1 ++ (moreCells n s).2 ∧
    ∀ w ∈ (moreCells n s).1, IsCell w := by
  induction n generalizing s with
  | zero => unfold moreCells; simp [tailText]
  | succ n ih =>
    match s with
    | [] => unfold moreCells; simp [tailText]
    | c :: s =>
      by_cases hc : c = ','
      · subst hc
        rw [moreCells]
        split
        · simp [tailText]
        · rename_i w s' e
          obtain ⟨h1, h2, h3⟩ := cell_some e fun c hc => hs c (List.mem_cons_of_mem _ hc)
          obtain ⟨h4, h5⟩ := ih s' h3
          simp only
          refine ⟨?_, ?_⟩
          · rw [show tailText (w :: (moreCells n s').1) = ',' :: w ++ tailText (moreCells n s').1 by simp [tailText], h1]
            simp only [List.cons_append, List.append_assoc]
            rw [← h4]
          · intro v hv
            rcases List.mem_cons.1 hv with rfl | hv
            · exact h2
            · exact h5 v hv
      · unfold moreCells
        split
        · rename_i e
          simp only [List.cons.injEq] at e
          exact absurd e.1 hc
        · simp [tailText]

theorem row_some {s rest : Str} {ws : List Str} (hr : row s = some (ws, rest)) (hsq : ∀ c ∈ s, ¬ white c) :
    ws ≠ [] ∧ (∀ w ∈ ws, IsCell w) ∧ s = vectorText ws ++ rest := by
  unfold row at hr
  split at hr
  · rename_i s'
    split at hr
    · cases hr
    · rename_i w s'' e
      obtain ⟨h1, h2, h3⟩ := cell_some e fun c hc => hsq c (List.mem_cons_of_mem _ hc)
      obtain ⟨h4, h5⟩ := moreCells_some s''.length s'' h3
      simp only at hr
      split at hr
      · rename_i rest' e2
        obtain ⟨rfl, rfl⟩ := Prod.mk.inj (Option.some.inj hr)
        refine ⟨by simp, ?_, ?_⟩
        · intro v hv
          rcases List.mem_cons.1 hv with rfl | hv
          · exact h2
          · exact h5 v hv
        · rw [vectorText, intercalate_cons, h1]
          rw [e2] at h4
          conv_lhs => rw [h4]
          simp
      · cases hr
  · cases hr

theorem squeeze_white (text : Str) : ∀ c ∈ squeeze text, ¬ white c := by
  intro c hc
  have := (List.mem_filter.1 hc).2
  simpa using this

/-- **C65** Anything that is not `[a, b, …]` with at least one entry, spaces removed and up to what follows the closing bracket, is
refused with an exception; the entries have no comma, bracket or space. -/
theorem vector_else_refused {α : Type} (el : Elem α) (fs : Files) (funs : List Str) (text : Str) (t : List α)
    (h : ¬ ∃ ws rest, ws ≠ [] ∧ (∀ w ∈ ws, IsCell w) ∧ squeeze text = vectorText ws ++ rest) :
    convertVector el fs funs text t = throwOut := by
  unfold convertVector
  rw [filter_space text]
  cases hr : row (squeeze text) with
  | none => rfl
  | some x => exact absurd ⟨x.1, x.2, row_some hr (squeeze_white text)⟩ h

theorem moreRows_some (n : Nat) (s : Str) (hs : ∀ c ∈ s, ¬ white c) :
    s = tailText ((moreRows n s).1.map vectorText) ++ (moreRows n s).2 ∧
      ∀ ws ∈ (moreRows n s).1, ws ≠ [] ∧ ∀ w ∈ ws, IsCell w := by
  induction n generalizing s with
  | zero => unfold moreRows; simp [tailText]
  | succ n ih =>
    match s with
    | [] => unfold moreRows; simp [tailText]
    | c :: s =>
      by_cases hc : c = ','
      · subst hc
        rw [moreRows]
        split
        · simp [tailText]
        · rename_i ws s' e
          obtain ⟨h1, h2, h3⟩ := row_some e fun c hc => hs c (List.mem_cons_of_mem _ hc)
          obtain ⟨h4, h5⟩ := ih s' (fun c hc => hs c (by rw [h3]; simp [hc]))
          simp only
          refine ⟨?_, ?_⟩
          · rw [List.map_cons, show tailText (vectorText ws :: (moreRows n s').1.map vectorText) =
              ',' :: vectorText ws ++ tailText ((moreRows n s').1.map vectorText) by simp [tailText], h3]
            simp only [List.cons_append, List.append_assoc]
            rw [← h4]
          · intro v hv
            rcases List.mem_cons.1 hv with rfl | hv
            · exact ⟨h1, h2⟩
            · exact h5 v hv
      · unfold moreRows
        split
        · rename_i e
          simp only [List.cons.injEq] at e
          exact absurd e.1 hc
        · simp [tailText]

/-- **C65** Anything that is not `[[a, b], [c, d], …]`, possibly without rows, spaces removed and up to what follows the closing bracket,
is refused with an exception. -/
theorem matrix_else_refused {α : Type} (el : Elem α) (fs : Files) (funs : List Str) (text : Str) (t : List (List α))
    (h : ¬ ∃ rs rest, (∀ ws ∈ rs, ws ≠ [] ∧ ∀ w ∈ ws, IsCell w) ∧ squeeze text = matrixText rs ++ rest) :
    convertMatrix el fs funs text t = throwOut := by
  unfold convertMatrix
  rw [filter_space text]
  have hsq := squeeze_white text
  cases hr : rows (squeeze text) with
  | none => rfl
  | some x =>
    obtain ⟨rs, rest⟩ := x
    refine absurd ?_ h
    refine ⟨rs, rest, ?_⟩
    generalize squeeze text = s at *
    unfold rows at hr
    split at hr
    · rename_i s'
      have hs' : ∀ c ∈ s', ¬ white c := fun c hc => hsq c (List.mem_cons_of_mem _ hc)
      cases e : row s' with
      | none =>
        rw [e] at hr
        simp only at hr
        split at hr
        · obtain ⟨rfl, rfl⟩ := Prod.mk.inj (Option.some.inj hr)
          exact ⟨by simp, by simp [matrixText, List.intercalate]⟩
        · cases hr
      | some y =>
        obtain ⟨w, s''⟩ := y
        rw [e] at hr
        obtain ⟨h1, h2, h3⟩ := row_some e hs'
        obtain ⟨h4, h5⟩ := moreRows_some s''.length s'' (fun c hc => hs' c (by rw [h3]; simp [hc]))
        simp only at hr
        split at hr
        · rename_i rest' e2
          obtain ⟨rfl, rfl⟩ := Prod.mk.inj (Option.some.inj hr)
          refine ⟨?_, ?_⟩
          · intro v hv
            rcases List.mem_cons.1 hv with rfl | hv
            · exact ⟨h1, h2⟩
            · exact h5 v hv
          · rw [matrixText, List.map_cons, intercalate_cons, h3]
            rw [e2] at h4
            conv_lhs => rw [h4]
            simp
        · cases hr
    · cases hr

example : ¬ ∃ rs rest, (∀ ws ∈ rs, ws ≠ [] ∧ ∀ w ∈ ws, IsCell w) ∧ squeeze "[[1, 2], 3]".toList = matrixText rs ++ rest := by
  rintro ⟨rs, rest, hr, h⟩
  have hs : squeeze "[[1, 2], 3]".toList = "[[1,2],3]".toList := by decide +kernel
  rw [hs] at h
  have := congrArg rows h
  by_cases h0 : rs = []
  · subst h0
    simp [matrixText, List.intercalate] at h
  · rw [rows_ok rs h0 hr rest] at this
    revert this
    rw [show rows "[[1,2],3]".toList = none by decide +kernel]
    simp

example : ¬ ∃ ws rest, ws ≠ [] ∧ (∀ w ∈ ws, IsCell w) ∧ squeeze "[1, 2".toList = vectorText ws ++ rest := by
  rintro ⟨ws, rest, _, _, h⟩
  have : ']' ∈ squeeze "[1, 2".toList := by
    rw [h]
    simp [vectorText]
  revert this
  decide +kernel

/-- **C65** `[[a, b], [c, d], …]` gives the rows in order, whatever the matrix was before. -/
theorem matrix_spec {α : Type} (el : Elem α) (fs : Files) (funs : List Str) (text rest : Str) (rs : List (List Str))
    (t : List (List α)) (n : Nat) (hn : 0 < n) (h0 : rs ≠ []) (hr : ∀ ws ∈ rs, ws.length = n ∧ ∀ w ∈ ws, IsCell w)
    (hs : squeeze text = matrixText rs ++ rest) :
    convertMatrix el fs funs text t = rs.mapM fun ws => ws.mapM (entry el fs funs) := by
  unfold convertMatrix
  rw [filter_space text, hs, rows_ok rs h0 (fun ws hws =>
    ⟨by rintro rfl; have := (hr [] hws).1; simp at this; omega, (hr ws hws).2⟩)]
  cases rs with
  | nil => exact absurd rfl h0
  | cons r rs =>
    simp only [actionMatrix]
    have h1 := (hr r (by simp)).1
    have h2 : ∀ ws ∈ r :: rs, ws.length = r.length := fun ws hws => by rw [(hr ws hws).1, h1]
    generalize r :: rs = l at h2
    induction l with
    | nil => rfl
    | cons ws l ih =>
      rw [List.mapM_cons, List.mapM_cons, ih (fun v hv => h2 v (by simp [hv]))]
      simp only [h2 ws (by simp), ne_eq, not_true_eq_false, if_false]
      rfl

/-- **C65** A matrix whose rows do not all have the length of the first is refused: it never gives a matrix. -/
theorem matrix_ragged {α : Type} (el : Elem α) (fs : Files) (funs : List Str) (text rest : Str) (r : List Str)
    (rs : List (List Str)) (t t' : List (List α)) (hr : ∀ ws ∈ r :: rs, ws ≠ [] ∧ ∀ w ∈ ws, IsCell w)
    (hbad : ∃ ws ∈ rs, ws.length ≠ r.length) (hs : squeeze text = matrixText (r :: rs) ++ rest) :
    convertMatrix el fs funs text t ≠ .ok t' := by
  unfold convertMatrix
  rw [filter_space text, hs, rows_ok _ (by simp) hr]
  simp only [actionMatrix]
  have h2 : ∃ ws ∈ r :: rs, ws.length ≠ r.length := by
    obtain ⟨ws, h1, h2⟩ := hbad
    exact ⟨ws, by simp [h1], h2⟩
  generalize r :: rs = l at h2
  induction l generalizing t' with
  | nil => simp at h2
  | cons ws l ih =>
    rw [List.mapM_cons]
    by_cases hw : ws.length = r.length
    · obtain ⟨v, hv1, hv2⟩ := h2
      have h3 : ∃ ws ∈ l, ws.length ≠ r.length := by
        rcases List.mem_cons.1 hv1 with rfl | h
        · exact absurd hw hv2
        · exact ⟨v, h, hv2⟩
      rw [if_neg (by simp [hw])]
      generalize (ws.mapM fun a => _ : Out (List α)) = o
      cases o with
      | error e => intro e; cases e
      | ok x =>
        intro e
        generalize ho : (l.mapM fun w => _ : Out (List (List α))) = o at e
        cases o with
        | error _ => cases e
        | ok y => exact ih y h3 ho
    · rw [if_pos hw]
      intro e; cases e

/-- Elements that are integers. -/
def intElem : Elem Int := ⟨fun w => ofNested (atoi w)⟩

example : convertVector intElem noFiles [] " [ 1 ,22,  3 ] ;".toList [9] = .ok [1, 22, 3] := by decide +kernel
example : squeeze " [ 1 ,22,  3 ] ;".toList = vectorText ["1".toList, "22".toList, "3".toList] ++ ";".toList := by
  decide +kernel
example : convertVector intElem noFiles [] "[5, ...]".toList [0, 0, 0] = .ok [5, 5, 5] := by decide +kernel
example : convertVector intElem noFiles [] "[5, ...x4]".toList [] = .ok [5, 5, 5, 5] := by decide +kernel
example : convertMatrix intElem noFiles [] "[[1, 2], [3, 4], [5, 6]]".toList [] = .ok [[1, 2], [3, 4], [5, 6]] := by
  decide +kernel
example : convertMatrix intElem noFiles [] "[[1, 2], [3]]".toList [] = throwOut := by decide +kernel

/-- `...x0` writes to the first element of a vector without elements. -/
theorem ellipsis_zero_fails : convertVector intElem noFiles [] "[5, ...x0]".toList [] = ubOut := by decide +kernel

/-- An ellipsis after more than one value, or in a row of a matrix, is not seen as one. -/
theorem ellipsis_later_fails :
    convertVector intElem noFiles [] "[5, 6, ...]".toList [0, 0, 0] = throwOut ∧
    convertVector ⟨fun w => .ok w⟩ noFiles [] "[5, 6, ...x4]".toList [] =
      .ok ["5".toList, "6".toList, "...x4".toList] := by decide +kernel

/-- In the form with an ellipsis the value is not looked up as a call of a function. -/
theorem ellipsis_function_fails :
    (convertVector ⟨fun w => .ok w⟩ ⟨fun _ => true, fun _ _ => some "7".toList⟩ ["(f)".toList] "[(f)(1), 2]".toList [] =
      .ok ["7".toList, "2".toList]) ∧
    (convertVector ⟨fun w => .ok w⟩ ⟨fun _ => true, fun _ _ => some "7".toList⟩ ["(f)".toList] "[(f)(1), ...x2]".toList [] =
      .ok ["(f)(1)".toList, "(f)(1)".toList]) := by decide +kernel

/-- An empty matrix leaves the old matrix as it was. -/
theorem matrix_empty_fails : convertMatrix intElem noFiles [] "[]".toList [[1, 2]] = .ok [[1, 2]] := by decide +kernel

/-- **C65** A text that does not begin with a bracket is refused. -/
theorem matrix_bracket {α : Type} (el : Elem α) (fs : Files) (funs : List Str) (text : Str) (t : List (List α))
    (h : (squeeze text).head? ≠ some '[') : convertMatrix el fs funs text t = throwOut := by
  unfold convertMatrix
  rw [filter_space text]
  have : rows (squeeze text) = none := by
    unfold rows
    split
    · rename_i e
      rw [e] at h
      exact absurd rfl h
    · rfl
  rw [this]

/-! ## Concrete cases of the hypotheses. -/

theorem cell5 : IsCell "5".toList := by unfold IsCell; decide

example := ellipsis_spec intElem noFiles [] "[5, ...]".toList [] "5".toList [0, 0, 0] 5 cell5 (by decide +kernel) (by decide +kernel)
example := ellipsis_times_spec intElem noFiles [] "[5, ...x4]".toList [] "5".toList [] 5 4 (by decide) (by decide) cell5
  (by decide +kernel) (by decide +kernel)
example := matrix_bracket intElem noFiles [] "(1)".toList [] (by decide +kernel)
example := vector_refused intElem noFiles [] "[ ]".toList [] (.inr ⟨[], by decide +kernel⟩)

theorem cells123 : ∀ w ∈ ["1".toList, "22".toList, "3".toList], IsCell w := by unfold IsCell; decide +kernel

example := vector_spec intElem noFiles [] " [ 1 ,22,  3 ] ;".toList ";".toList ["1".toList, "22".toList, "3".toList] [9] (by decide)
  cells123 (by decide +kernel) (by intro a b h; simp at h)
example := vector_length intElem noFiles [] " [ 1 ,22,  3 ] ;".toList ";".toList ["1".toList, "22".toList, "3".toList] [9] [1, 22, 3] (by decide)
  cells123 (by decide +kernel) (by intro a b h; simp at h) (by decide +kernel)

end Verif.Ainur
