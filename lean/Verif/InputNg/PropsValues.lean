import Verif.InputNg.Props
import Verif.InputNg.ModelValues
import Verif.Dense.Lemmas
import Verif.TextIo.PropsMat
import Mathlib.Data.List.Infix
import Mathlib.Tactic.Ring

/-! # Numbers, matrices and maps of input files -/

namespace Verif.InputNg

open Verif Verif.StrUtil Verif.Dense Verif.Loop

/-! ## Numbers -/

theorem clean_ok {V : Type} (l : Str) (m w : SMap V) (rem : List Str) : ∃ m' rem', clean l m w rem false = .ok (m', rem') := by
  unfold clean
  by_cases h : l ∈ rem
  · exact ⟨_, _, if_pos h⟩
  · rw [if_neg h]
    exact ⟨_, _, rfl⟩

/-- **C77** `readline` of a number reads the text that `readline` of a string would give and moves on in the same way;
nothing is moved if the text cannot be converted. -/
theorem readValue_spec {β : Type} (conv : Str → Out β) (r : Readable) (l : Str) :
    readValue conv r l = (do
      let (s, r') ← readline r l
      let v ← conv s
      return (v, r')) := by
  unfold readValue readline
  cases h : label2label l with
  | error e => rfl
  | ok l2 =>
    simp only [bind, Except.bind]
    cases findFirst l2 r.mapStr with
    | none => rfl
    | some x =>
      obtain ⟨A, e, B⟩ := x
      obtain ⟨m, rem, hc⟩ := clean_ok l2 r.mapStr (A ++ B) r.removal
      simp only [if_true, hc, pure, Except.pure]

/-- **C77** Integers in the range of `int` are read as they are written. -/
theorem asInt_spec (v : Int) (h1 : -2147483648 ≤ v) (h2 : v ≤ 2147483647) : asInt (decimal v) = .ok v := by
  unfold asInt
  rw [atoi_decimal v h1 h2]
  rfl

/-- **C77** So are sizes. -/
theorem asSize_spec (n : Nat) (h : n < 2 ^ 31) : asSize (Nat.toDigits 10 n) = .ok n := by
  unfold asSize
  rw [Labels.atoi_digits n (by omega)]
  simp only [ofNested, bind, Except.bind, pure, Except.pure]
  rw [Int.emod_eq_of_lt (by omega) (by omega)]
  rfl

/-- **C77** A negative number given for a size is not refused, it becomes a huge size. -/
theorem asSize_negative_fails (n : Nat) (h1 : 0 < n) (h2 : n < 2 ^ 31) : asSize (decimal (-n)) = .ok (2 ^ 64 - n) := by
  unfold asSize
  rw [atoi_decimal _ (by omega) (by omega)]
  simp only [ofNested, bind, Except.bind, pure, Except.pure]
  refine congrArg Except.ok ?_
  omega

/-- **C77** A number too large for `int` is undefined behaviour, even for `long int` and `SizeType`. -/
theorem asSize_large_fails : asSize "3000000000".toList = ubOut ∧ asInt "3000000000".toList = ubOut := by
  decide +kernel

/-! ## Matrices -/

theorem resize_shape {β : Type} [Zero β] (m : Mat β) (a b : Nat) (h : m.nrow = 0 ∨ m.nrow = a) :
    ∃ m', m.resize a b = some m' ∧ Shape m' a b := by
  unfold Mat.resize
  rw [if_neg (by omega)]
  exact ⟨_, rfl, rfl, rfl, resizeL_length _ _ _⟩

theorem elements_spec {β : Type} {num : Str → Out β} {value : Str → β} {x y : Str} {xs : List Str} (hnum : ∀ s ∈ xs, num s = .ok (value s))
    {a b : Nat} (hlen : a * b ≤ xs.length) {m : Mat β} (hm : Shape m a b) :
    ∃ m', elements num (x :: y :: xs) a b m = .ok (m', 2 + a * b) ∧
      Represents m' a b (Matrix.of fun i j => value (xs.getD (i * b + j) [])) := by
  have hidx : ∀ i j, i < a → j < b → i * b + j < xs.length := by
    intro i j hi hj
    have : (i + 1) * b ≤ a * b := Nat.mul_le_mul_right b hi
    rw [Nat.add_mul] at this
    omega
  obtain ⟨⟨m', k⟩, h1, h2, h3⟩ := TextIo.fold_inv
    (fun i (s : Mat β × Nat) => Filled s.1 a b (Matrix.of fun i j => value (xs.getD (i * b + j) [])) (fun i' _ => i'.1 < i) ∧
      s.2 = 2 + i * b) a
    (fun st i => (List.range b).foldlM (element num (x :: y :: xs) i) st) (m, 2)
    ⟨(hm.filled _).mono (by intro i j h; omega), by simp⟩ (by
      rintro i ⟨mi, k⟩ hi ⟨hf, hk⟩
      simp only at hf hk
      obtain ⟨⟨m', k'⟩, g1, g2, g3⟩ := TextIo.fold_inv
        (fun j (s : Mat β × Nat) =>
          Filled s.1 a b (Matrix.of fun i j => value (xs.getD (i * b + j) [])) (fun i' j' => i'.1 < i ∨ (i'.1 = i ∧ j'.1 < j)) ∧
          s.2 = 2 + i * b + j) b
        (element num (x :: y :: xs) i) (mi, k)
        ⟨hf.mono (by intro i' j' h; omega), by simpa using hk⟩ (by
          rintro j ⟨mj, k⟩ hj ⟨hf, hk⟩
          simp only at hf hk
          have hlt := hidx i j hi hj
          have hget : (x :: y :: xs)[k]? = some xs[i * b + j] := by
            rw [hk, show 2 + i * b + j = (i * b + j) + 1 + 1 by omega, List.getElem?_cons_succ, List.getElem?_cons_succ,
              List.getElem?_eq_getElem hlt]
          obtain ⟨m', q1, q2⟩ := hf.set ⟨i, hi⟩ ⟨j, hj⟩ (value xs[i * b + j]) (by
            rw [Matrix.of_apply, List.getD_eq_getElem?_getD, List.getElem?_eq_getElem hlt]
            rfl)
          simp only at q1
          refine ⟨(m', k + 1), ?_, q2.mono ?_, by simp only; omega⟩
          · simp only [element, hget, hnum _ (List.getElem_mem hlt), q1]
          · rintro i' j' (h | ⟨h1, h2⟩)
            · exact .inl (.inl h)
            · by_cases e : j'.1 = j
              · exact .inr ⟨Fin.ext h1, Fin.ext e⟩
              · exact .inl (.inr ⟨h1, by omega⟩))
      refine ⟨(m', k'), g1, g2.mono ?_, by simp only at g3 ⊢; rw [g3]; ring⟩
      intro i' j' h
      have := j'.2
      by_cases e : i'.1 = i
      · exact .inr ⟨e, this⟩
      · exact .inl (by omega))
  simp only at h2 h3
  refine ⟨m', ?_, h2.rep fun i j => i.2⟩
  unfold elements
  rw [h1, h3]

/-- What the list of a matrix says: the sizes and the elements, row by row. -/
structure MatrixText {β : Type} (value : Str → β) (s : List Str) (a b : Nat) (A : Matrix (Fin a) (Fin b) β) : Prop where
  rows : 0 < a ∧ a < 2 ^ 31
  cols : 0 < b ∧ b < 2 ^ 31
  text : ∃ xs, s = Nat.toDigits 10 a :: Nat.toDigits 10 b :: xs ∧ a * b ≤ xs.length ∧
    ∀ i j, (xs[i.1 * b + j.1]?).map value = some (A i j)

theorem matrixSized_spec {β : Type} [Zero β] {num : Str → Out β} {value : Str → β} {s : List Str} {a b : Nat}
    {A : Matrix (Fin a) (Fin b) β} (h : MatrixText value s a b A) (hnum : ∀ x ∈ s.drop 2, num x = .ok (value x)) (m : Mat β)
    (hm : m.nrow = 0 ∨ m.nrow = a) : ∃ m', matrixSized num s a b m = .ok m' ∧ Represents m' a b A := by
  obtain ⟨xs, hs, hl, hA⟩ := h.text
  have h1 := h.rows.1
  have h2 := h.cols.1
  subst hs
  obtain ⟨m1, e1, s1⟩ := resize_shape m a b hm
  obtain ⟨m2, e2, r2⟩ := elements_spec (x := Nat.toDigits 10 a) (y := Nat.toDigits 10 b) (xs := xs) hnum hl s1
  refine ⟨m2, ?_, ?_⟩
  · unfold matrixSized
    rw [if_neg (by omega)]
    simp only [Int.toNat_natCast, e1]
    rw [if_neg (by simp only [List.length_cons]; omega), e2]
    rfl
  · have : (Matrix.of fun (i : Fin a) (j : Fin b) => value (xs.getD (i * b + j) [])) = A := by
      ext i j
      rw [Matrix.of_apply]
      have := hA i j
      rw [Option.map_eq_some_iff] at this
      obtain ⟨x, hx, hv⟩ := this
      rw [List.getD_eq_getElem?_getD, hx]
      exact hv
    rw [← this]
    exact r2

/-- **C77** A list with the sizes and then the elements row by row gives that matrix, with real elements. -/
theorem realMatrix_spec {β : Type} [Zero β] {num : Str → Out β} {value : Str → β} {s : List Str} {a b : Nat}
    {A : Matrix (Fin a) (Fin b) β} (h : MatrixText value s a b A) (hnum : ∀ x ∈ s.drop 2, num x = .ok (value x)) (m : Mat β)
    (hm : m.nrow = 0 ∨ m.nrow = a) : ∃ m', realMatrix num s m = .ok m' ∧ Represents m' a b A := by
  obtain ⟨m', h1, h2⟩ := matrixSized_spec h hnum m hm
  refine ⟨m', ?_, h2⟩
  obtain ⟨xs, hs, -, -⟩ := h.text
  have ea : asInt (Nat.toDigits 10 a) = .ok (a : Int) := by
    unfold asInt
    rw [Labels.atoi_digits a (by have := h.rows.2; omega)]
    rfl
  have eb : asInt (Nat.toDigits 10 b) = .ok (b : Int) := by
    unfold asInt
    rw [Labels.atoi_digits b (by have := h.cols.2; omega)]
    rfl
  rw [hs] at h1 ⊢
  simp only [realMatrix, ea, eb, bind, Except.bind]
  exact h1

/-- **C77** The same with complex elements. -/
theorem complexMatrix_spec {β : Type} [Zero β] {num : Str → Out β} {value : Str → β} {s : List Str} {a b : Nat}
    {A : Matrix (Fin a) (Fin b) β} (h : MatrixText value s a b A) (hnum : ∀ x ∈ s.drop 2, num x = .ok (value x)) (m : Mat β)
    (hm : m.nrow = 0 ∨ m.nrow = a) : ∃ m', complexMatrix num s m = .ok m' ∧ Represents m' a b A := by
  obtain ⟨m', h1, h2⟩ := matrixSized_spec h hnum m hm
  refine ⟨m', ?_, h2⟩
  obtain ⟨xs, hs, -, -⟩ := h.text
  have ea : asInt (Nat.toDigits 10 a) = .ok (a : Int) := by
    unfold asInt
    rw [Labels.atoi_digits a (by have := h.rows.2; omega)]
    rfl
  have eb : asInt (Nat.toDigits 10 b) = .ok (b : Int) := by
    unfold asInt
    rw [Labels.atoi_digits b (by have := h.cols.2; omega)]
    rfl
  have := h.rows.1
  rw [hs] at h1 ⊢
  simp only [complexMatrix, ea, eb, bind, Except.bind]
  rw [if_neg (by omega)]
  exact h1

/-- **C77** A list with too few elements is refused. -/
theorem matrix_short {β : Type} [Zero β] (num : Str → Out β) (a b : Nat) (ha : a < 2 ^ 31) (hb : b < 2 ^ 31) (xs : List Str)
    (h : xs.length < a * b) (m : Mat β) :
    realMatrix num (Nat.toDigits 10 a :: Nat.toDigits 10 b :: xs) m = throwOut ∧
      complexMatrix num (Nat.toDigits 10 a :: Nat.toDigits 10 b :: xs) m = throwOut := by
  have ea : asInt (Nat.toDigits 10 a) = .ok (a : Int) := by
    unfold asInt
    rw [Labels.atoi_digits a (by omega)]
    rfl
  have eb : asInt (Nat.toDigits 10 b) = .ok (b : Int) := by
    unfold asInt
    rw [Labels.atoi_digits b (by omega)]
    rfl
  have e : matrixSized num (Nat.toDigits 10 a :: Nat.toDigits 10 b :: xs) a b m = throwOut := by
    unfold matrixSized
    by_cases h0 : (a : Int) ≤ 0 ∨ (b : Int) ≤ 0
    · rw [if_pos h0]
    · rw [if_neg h0]
      simp only [Int.toNat_natCast]
      cases m.resize a b with
      | none => rfl
      | some m => exact if_pos (by simp only [List.length_cons]; omega)
  refine ⟨by simp only [realMatrix, ea, eb, bind, Except.bind]; exact e, ?_⟩
  simp only [complexMatrix, ea, eb, bind, Except.bind]
  by_cases h0 : (a : Int) ≤ 0
  · rw [if_pos h0]
  · rw [if_neg h0]
    exact e

/-- **C77** A list of complex elements that does not have both sizes is refused. -/
theorem matrix_sizes {β : Type} [Zero β] (num : Str → Out β) (s : List Str) (h : s.length < 2) (m : Mat β) :
    complexMatrix num s m = throwOut := by
  rcases s with _ | ⟨x, _ | ⟨y, s⟩⟩
  · rfl
  · rfl
  · simp only [List.length_cons] at h
    omega

/-- **C77** A list of real elements that does not have both sizes is not refused: what is after its end is read. -/
theorem matrix_sizes_fails {β : Type} [Zero β] (num : Str → Out β) (a : Nat) (ha : a < 2 ^ 31) (m : Mat β) :
    realMatrix num [] m = ubOut ∧ realMatrix num [Nat.toDigits 10 a] m = ubOut := by
  refine ⟨rfl, ?_⟩
  have ea : asInt (Nat.toDigits 10 a) = .ok (a : Int) := by
    unfold asInt
    rw [Labels.atoi_digits a (by omega)]
    rfl
  simp only [realMatrix, ea]

/-- **C77** A matrix that has rows already, but another number of them, is refused. -/
theorem matrix_rows {β : Type} [Zero β] (num : Str → Out β) (s : List Str) (a b : Int) (m : Mat β) (h0 : 0 < m.nrow) (h : (m.nrow : Int) ≠ a) :
    matrixSized num s a b m = throwOut := by
  unfold matrixSized
  by_cases h1 : a ≤ 0 ∨ b ≤ 0
  · rw [if_pos h1]
  · rw [if_neg h1]
    have : m.resize a.toNat b.toNat = none := by
      unfold Mat.resize
      rw [if_pos (by omega)]
    rw [this]

/-! ## Matrices of a file -/

/-- The reader after some calls. -/
def stateAfter (r : Readable) : List Call → Readable
  | [] => r
  | c :: cs =>
    match c.run r with
    | .ok (_, r') => stateAfter r' cs
    | .error _ => stateAfter r cs

theorem after_state (ls : List Line) (hk : KindsApart ls) (cs : List Call) (hcs : ∀ c ∈ cs, c.Ok) (past : List Call) (r : Readable)
    (h : After ls past r) : After ls (past ++ cs) (stateAfter r cs) := by
  induction cs generalizing past r with
  | nil => simpa [stateAfter] using h
  | cons c cs ih =>
    have e : past ++ c :: cs = (past ++ [c]) ++ cs := by simp
    have hrest := ih (fun c' hc' => hcs c' (by simp [hc']))
    rcases call_step ls hk past r h c (hcs c (by simp)) with ⟨-, h2, h3⟩ | ⟨a, r', -, h2, h3⟩
    · unfold stateAfter
      rw [h2, e]
      exact hrest _ _ h3
    · unfold stateAfter
      rw [h2, e]
      exact hrest _ _ h3

theorem readMatrix_after {β : Type} (conv : List Str → Out β) (ls : List Line) (hk : KindsApart ls) (past : List Call) (r : Readable)
    (h : After ls past r) (l : Str) (hl : Call.Ok (.vec l)) (raw : List Str)
    (hraw : (occ (vecs ls) l)[min (movedVec past l) ((occ (vecs ls) l).length - 1)]? = some raw) :
    ∃ r', After ls (past ++ [.vec l]) r' ∧ readMatrix conv r l = (do
      let v ← conv raw
      return (v, r')) := by
  obtain ⟨hc1, hc2, hc3⟩ := id hl
  simp only [Call.label] at hc1 hc2 hc3
  have h0 : occ (vecs ls) l ≠ [] := by
    intro e
    rw [e] at hraw
    simp at hraw
  rcases call_step ls hk past r h (.vec l) hl with ⟨h1, -, -⟩ | ⟨a, r', -, h2, h3⟩
  · simp [answer, hraw] at h1
  · refine ⟨r', h3, ?_⟩
    obtain ⟨v, vs, hd, hg, -, -⟩ := drop_min (occ (vecs ls) l) (movedVec past l) h0
    have hv := h.vec l hc2
    rw [hd] at hv
    obtain ⟨A, e, B, hf, he, -, -⟩ := findFirst_some l r.mapVec v vs hv
    rw [hraw] at hg
    cases hg
    obtain ⟨m, rem, hcl⟩ := clean_ok l r.mapVec (A ++ B) r.removal
    have hr : r' = { r with mapVec := m, removal := rem } := by
      simp only [Call.run, readVector, label2label_ok l hc1 hc3, bind, Except.bind, hf, hcl, pure, Except.pure] at h2
      cases h2
      rfl
    unfold readMatrix
    simp only [label2label_ok l hc1 hc3, bind, Except.bind, hf, hcl, pure, Except.pure, he, hr]

/-- **C77** In a well formed file, `read` of a matrix after any calls takes the next list of its label, as `read` of a
vector would; later calls go on from there. -/
theorem matrix_file {β : Type} (conv : List Str → Out β) (chk : Check) (ls : List Line) (h : FileOk chk ls) (hk : KindsApart ls)
    (past : List Call) (hp : ∀ c ∈ past, c.Ok) (l : Str) (hl : Call.Ok (.vec l)) (raw : List Str)
    (hraw : (occ (vecs ls) l)[min (movedVec past l) ((occ (vecs ls) l).length - 1)]? = some raw) :
    ∃ r r', load chk (render ls) = .ok r ∧
      readMatrix conv (stateAfter r past) l = (do
        let v ← conv raw
        return (v, r')) ∧
      ∀ cs : List Call, (∀ c ∈ cs, c.Ok) → runCalls r' cs = .ok (answers ls (past ++ [.vec l]) cs) := by
  obtain ⟨r, h1, h2⟩ := load_ok chk ls h
  have h3 := after_state ls hk past hp [] r (after_load ls r h2)
  rw [List.nil_append] at h3
  obtain ⟨r', h4, h5⟩ := readMatrix_after conv ls hk past _ h3 l hl raw hraw
  exact ⟨r, r', h1, h5, fun cs hcs => calls_ok ls hk cs hcs _ r' h4⟩

/-! ## Maps -/

theorem infix_sep {l a b : Str} {c : Char} (hc : c ∉ l) (h : l <:+: a ++ c :: b) : l <:+: a ∨ l <:+: b := by
  obtain ⟨s, t, e⟩ := h
  rw [List.append_assoc, List.append_eq_append_iff] at e
  rcases e with ⟨a', e1, e2⟩ | ⟨c', e1, e2⟩
  · rw [List.append_eq_append_iff] at e2
    rcases e2 with ⟨a'', e3, e4⟩ | ⟨c', e3, e4⟩
    · exact .inl ⟨s, a'', by rw [e1, e3, List.append_assoc]⟩
    · cases c' with
      | nil => exact .inl ⟨s, [], by rw [e1, e3]; simp⟩
      | cons d c' =>
        rw [List.cons_append] at e4
        injection e4 with e5 e6
        subst e5
        exact absurd (by rw [e3]; simp) hc
  · cases c' with
    | nil =>
      rw [List.nil_append] at e2
      cases l with
      | nil => exact .inl ⟨a, [], by simp⟩
      | cons d l =>
        rw [List.cons_append] at e2
        injection e2 with e5 e6
        subst e5
        exact absurd (by simp) hc
    | cons d c' =>
      rw [List.cons_append] at e2
      injection e2 with e5 e6
      exact .inr ⟨c', t, by rw [e6, List.append_assoc]⟩

theorem mapEntry_hit {β : Type} (l k : Str) (num : Str → Out β) (val : Str → Option β) (v : Str) (a : β) (h : num v = .ok a) :
    mapEntry l num val (l ++ '[' :: k ++ [']'], v) = .ok (Function.update val k (some a)) := by
  unfold mapEntry
  have e : (l ++ '[' :: k ++ [']']).drop (l.length + 1) = k ++ [']'] := by
    rw [show l ++ '[' :: k ++ [']'] = (l ++ ['[']) ++ (k ++ [']']) by simp, List.drop_append_of_le_length (by simp),
      List.drop_of_length_le (by simp)]
    rfl
  rw [if_neg (not_not.2 ⟨[], '[' :: k ++ [']'], by simp⟩), if_neg (by simp), if_neg (by simp)]
  simp only [e, h]
  rw [if_neg (by simp), List.dropLast_concat]

theorem fold_map {β : Type} (l : Str) (num : Str → Out β) (value : Str → β) (E : List (Str × Str))
    (h : ∀ e ∈ E, l <:+: e.1 → '[' ∈ e.1 → ∃ k, e.1 = l ++ '[' :: k ++ [']'] ∧ num e.2 = .ok (value e.2)) (val : Str → Option β) :
    ∃ out, E.foldlM (mapEntry l num) val = .ok out ∧
      ∀ k, out k = match (E.filter fun e => e.1 = l ++ '[' :: k ++ [']']).getLast? with
        | some e => some (value e.2)
        | none => val k := by
  induction E generalizing val with
  | nil => exact ⟨val, rfl, fun k => rfl⟩
  | cons e E ih =>
    have ih' := ih fun e' he' => h e' (List.mem_cons_of_mem _ he')
    by_cases hm : l <:+: e.1 ∧ '[' ∈ e.1
    · obtain ⟨k, hk, hn⟩ := h e List.mem_cons_self hm.1 hm.2
      obtain ⟨out, h1, h2⟩ := ih' (Function.update val k (some (value e.2)))
      refine ⟨out, ?_, ?_⟩
      · rw [List.foldlM_cons, show e = (l ++ '[' :: k ++ [']'], e.2) by rw [← hk], mapEntry_hit l k num val _ _ hn]
        exact h1
      · intro k'
        rw [h2 k']
        by_cases hkk : k' = k
        · subst hkk
          rw [List.filter_cons_of_pos (by simpa using hk), List.getLast?_cons]
          cases (E.filter fun e => e.1 = l ++ '[' :: k' ++ [']']).getLast? with
          | none => simp
          | some e' => simp
        · have hne : e.1 ≠ l ++ '[' :: k' ++ [']'] := by
            rw [hk]
            intro e
            simp only [List.append_assoc, List.append_cancel_left_eq] at e
            injection e with _ e
            exact hkk (List.append_cancel_right e).symm
          rw [List.filter_cons_of_neg (by simpa using hne), Function.update_of_ne hkk]
    · have hskip : mapEntry l num val e = .ok val := by
        unfold mapEntry
        by_cases h1 : l <:+: e.1
        · rw [if_neg (not_not.2 h1), if_pos (fun h2 => hm ⟨h1, h2⟩)]
        · rw [if_pos h1]
      obtain ⟨out, h1, h2⟩ := ih' val
      refine ⟨out, ?_, ?_⟩
      · rw [List.foldlM_cons, hskip]
        exact h1
      · intro k'
        have hne : e.1 ≠ l ++ '[' :: k' ++ [']'] := by
          intro he
          exact hm ⟨⟨[], '[' :: k' ++ [']'], by rw [he]; simp⟩, by rw [he]; simp⟩
        rw [h2 k', List.filter_cons_of_neg (by simpa using hne)]

theorem clean_sub {V : Type} {l : Str} {m m' w : SMap V} {rem rem' : List Str} {f : Bool} (hw : w.Sublist m)
    (h : clean l m w rem f = .ok (m', rem')) : m'.Sublist m := by
  unfold clean at h
  split at h
  · cases h
    exact hw
  · split at h
    · cases h
    · cases h
      exact List.Sublist.refl _

theorem findFirst_parts {V : Type} {l : Str} {m A B : SMap V} {e : Str × V} (h : findFirst l m = some (A, e, B)) : m = A ++ e :: B := by
  induction m generalizing A with
  | nil => simp [findFirst] at h
  | cons x m ih =>
    unfold findFirst at h
    split at h
    · cases h
      rfl
    · rw [Option.map_eq_some_iff] at h
      obtain ⟨⟨A', e', B'⟩, h1, h2⟩ := h
      cases h2
      rw [ih h1]
      rfl

theorem run_sub (c : Call) (r r' : Readable) (a : Answer) (h : c.run r = .ok (a, r')) : r'.mapStr.Sublist r.mapStr := by
  cases c with
  | text l b =>
    unfold Call.run readline at h
    cases hl : label2label l with
    | error e => simp [hl, bind, Except.bind] at h
    | ok l2 =>
      simp only [hl, bind, Except.bind] at h
      cases hf : findFirst l2 r.mapStr with
      | none => simp [hf, throwOut] at h
      | some x =>
        obtain ⟨A, e, B⟩ := x
        simp only [hf] at h
        cases b with
        | false =>
          simp only [Bool.false_eq_true, if_false, pure, Except.pure] at h
          cases h
          exact List.Sublist.refl _
        | true =>
          simp only [if_true] at h
          obtain ⟨m, rem, hc⟩ := clean_ok l2 r.mapStr (A ++ B) r.removal
          simp only [hc, pure, Except.pure] at h
          cases h
          refine clean_sub ?_ hc
          rw [findFirst_parts hf]
          exact List.Sublist.append_left (List.sublist_cons_self _ _) _
  | vec l =>
    unfold Call.run readVector at h
    cases hl : label2label l with
    | error e => simp [hl, bind, Except.bind] at h
    | ok l2 =>
      simp only [hl, bind, Except.bind] at h
      cases hf : findFirst l2 r.mapVec with
      | none => simp [hf, throwOut] at h
      | some x =>
        obtain ⟨A, e, B⟩ := x
        obtain ⟨m, rem, hc⟩ := clean_ok l2 r.mapVec (A ++ B) r.removal
        simp only [hf, hc, pure, Except.pure] at h
        cases h
        exact List.Sublist.refl _

theorem state_sub (cs : List Call) (r : Readable) : (stateAfter r cs).mapStr.Sublist r.mapStr := by
  induction cs generalizing r with
  | nil => exact List.Sublist.refl _
  | cons c cs ih =>
    unfold stateAfter
    cases h : c.run r with
    | error e => exact ih r
    | ok x => exact (ih x.2).trans (run_sub c r x.2 x.1 h)

theorem texts_no_at (chk : Check) (ls : List Line) (h : FileOk chk ls) (e : Str × Str) (he : e ∈ texts ls) : '@' ∉ e.1 := by
  unfold texts at he
  rw [List.mem_flatMap] at he
  obtain ⟨ln, hln, he⟩ := he
  have hok := h.lines ln hln
  cases ln with
  | text l v =>
    simp only [Line.texts, List.mem_singleton] at he
    rw [he]
    exact label_no_at hok.1
  | expand a b vs =>
    simp only [Line.texts, List.mem_mapIdx] at he
    obtain ⟨i, hi, rfl⟩ := he
    intro hm
    rcases List.mem_append.1 hm with hm | hm
    · rcases List.mem_append.1 hm with hm | hm
      · exact label_no_at hok.1 hm
      · exact absurd (isDigit_toDigits i _ hm) (by decide)
    · exact (hok.2.1 _ hm).2 rfl
  | vec l ns => simp [Line.texts] at he
  | blank => simp [Line.texts] at he
  | comment t => simp [Line.texts] at he

/-- **C77** `read` of a map, after any calls: the entries `label[key]=value` of the file are set, and all others stay as they
were, if each of them is given once and all labels that contain this one and a bracket are of this form. -/
theorem map_file {β : Type} {num : Str → Out β} {value : Str → β} (chk : Check) (ls : List Line) (h : FileOk chk ls) (hk : KindsApart ls)
    (past : List Call) (hp : ∀ c ∈ past, c.Ok) (l : Str) (hl : IsLabel l)
    (hform : ∀ e ∈ texts ls, l <:+: e.1 → '[' ∈ e.1 → (∃ k, e.1 = l ++ '[' :: k ++ [']']) ∧ num e.2 = .ok (value e.2))
    (honce : ∀ k, (occ (texts ls) (l ++ '[' :: k ++ [']'])).length ≤ 1) (val : Str → Option β) :
    ∃ r out, load chk (render ls) = .ok r ∧ readMap num (stateAfter r past) l val = .ok out ∧
      ∀ k, out k = match occ (texts ls) (l ++ '[' :: k ++ [']']) with
        | [] => val k
        | v :: _ => some (value v) := by
  obtain ⟨r, h1, h2⟩ := load_ok chk ls h
  have h3 := after_state ls hk past hp [] r (after_load ls r h2)
  rw [List.nil_append] at h3
  have hlat : '@' ∉ l := label_no_at hl
  obtain ⟨⟨c, l', hcl, hcn⟩, hpl⟩ := id hl
  have hfirst : ∀ n, ¬ l <:+: ttos n := by
    rintro n ⟨s, t, e⟩
    have : c ∈ Nat.toDigits 10 n := by
      rw [show Nat.toDigits 10 n = ttos n from rfl, ← e, hcl]
      simp
    have hd := isDigit_toDigits n c this
    apply hcn
    unfold NumberChar
    have := (isDigit_iff c).1 hd
    simp only [List.mem_cons] at this ⊢
    revert this
    clear * -
    intro h
    rcases h with h | h | h | h | h | h | h | h | h | h <;> simp_all
  -- an entry of the map that contains the label and a bracket
  have hentry : ∀ e ∈ (stateAfter r past).mapStr, l <:+: e.1 → '[' ∈ e.1 →
      e.1 = findRootLabel e.1 ∧ (∃ k, e.1 = l ++ '[' :: k ++ [']']) ∧ num e.2 = .ok (value e.2) := by
    intro e he hi hb
    have he' := (state_sub past r).subset he
    obtain ⟨i, hi1, hi2⟩ := h2.1.mem e he'
    have hroot := root_no_mark e.1
    -- the root contains both
    have hiroot : l <:+: findRootLabel e.1 ∧ '[' ∈ findRootLabel e.1 := by
      rw [hi2] at hi hb
      unfold keyOf at hi hb
      by_cases h0 : i = 0
      · rw [if_pos h0] at hi hb
        exact ⟨hi, hb⟩
      · rw [if_neg h0] at hi hb
        refine ⟨?_, ?_⟩
        · rcases infix_sep hlat hi with h | h
          · exact h
          · exact absurd h (hfirst i)
        · rcases List.mem_append.1 hb with h | h
          · exact h
          · rcases List.mem_cons.1 h with h | h
            · exact absurd h (by decide)
            · exact absurd (isDigit_toDigits i _ h) (by decide)
    have hval : e.2 ∈ occ (texts ls) (findRootLabel e.1) := by
      have hm : e ∈ r.mapStr.filter (fun e' => decide (findRootLabel e'.1 = findRootLabel e.1)) := by
        rw [List.mem_filter]
        exact ⟨he', by simp⟩
      rw [h2.1.keys _ hroot, List.mem_mapIdx] at hm
      obtain ⟨j, hj, e2⟩ := hm
      have e3 := congrArg Prod.snd e2
      simp only at e3
      rw [← e3]
      exact List.getElem_mem hj
    have hmem : (findRootLabel e.1, e.2) ∈ texts ls := by
      unfold occ at hval
      rw [List.mem_map] at hval
      obtain ⟨x, hx, hx2⟩ := hval
      rw [List.mem_filter] at hx
      have : x = (findRootLabel e.1, e.2) := Prod.ext (by simpa using hx.2) hx2
      rw [← this]
      exact hx.1
    obtain ⟨⟨k, hk'⟩, hn⟩ := hform _ hmem hiroot.1 hiroot.2
    simp only at hk' hn
    have hi0 : i = 0 := by
      have := honce k
      rw [← hk'] at this
      omega
    have heq : e.1 = findRootLabel e.1 := by
      conv_lhs => rw [hi2]
      unfold keyOf
      rw [if_pos hi0]
    exact ⟨heq, ⟨k, by rw [heq]; exact hk'⟩, hn⟩
  obtain ⟨out, h4, h5⟩ := fold_map l num value (stateAfter r past).mapStr (fun e he hi hb => by
    obtain ⟨-, ⟨k, h6⟩, h7⟩ := hentry e he hi hb
    exact ⟨k, h6, h7⟩) val
  refine ⟨r, out, h1, ?_, ?_⟩
  · unfold readMap
    rw [label2label_ok l (label_ne hl) (by
      intro e
      have := List.mem_of_getLast? e
      exact (hpl _ this).1 (by decide))]
    exact h4
  · intro k
    rw [h5 k]
    obtain ⟨t, ht⟩ : ∃ t, t = l ++ '[' :: k ++ [']'] := ⟨_, rfl⟩
    rw [← ht]
    have hlt : l <:+: t := ⟨[], '[' :: k ++ [']'], by rw [ht]; simp⟩
    have hbt : '[' ∈ t := by rw [ht]; simp
    by_cases hat : '@' ∈ t
    · have e1 : (stateAfter r past).mapStr.filter (fun e => e.1 = t) = [] := by
        rw [List.filter_eq_nil_iff]
        intro e he hte
        simp only [decide_eq_true_eq] at hte
        obtain ⟨h6, -, -⟩ := hentry e he (by rw [hte]; exact hlt) (by rw [hte]; exact hbt)
        have := root_no_mark e.1
        rw [← h6, hte] at this
        exact this hat
      have e2 : occ (texts ls) t = [] := by
        rw [List.eq_nil_iff_forall_not_mem]
        intro v hv
        unfold occ at hv
        rw [List.mem_map] at hv
        obtain ⟨x, hx, -⟩ := hv
        rw [List.mem_filter] at hx
        have hxt : x.1 = t := by simpa using hx.2
        have := texts_no_at chk ls h x hx.1
        rw [hxt] at this
        exact this hat
      rw [e1, e2]
      rfl
    · have e1 : ((stateAfter r past).mapStr.filter (fun e => e.1 = t)).map (·.2) = occ (texts ls) t := by
        have h6 := h3.str t hat
        have h7 := honce k
        rw [← ht] at h7
        rw [show (occ (texts ls) t).length - 1 = 0 by omega, Nat.min_zero, List.drop_zero] at h6
        rw [← h6]
        unfold vals
        congr 1
        apply List.filter_congr
        intro e he
        rw [decide_eq_decide]
        constructor
        · intro h8
          rw [h8, root_self t hat]
        · intro h8
          have he' := (state_sub past r).subset he
          obtain ⟨i, hi1, hi2⟩ := h2.1.mem e he'
          rw [h8] at hi1 hi2
          rw [hi2]
          unfold keyOf
          rw [if_pos (by omega)]
      cases h8 : (stateAfter r past).mapStr.filter (fun e => e.1 = t) with
      | nil =>
        rw [h8] at e1
        rw [← e1]
        rfl
      | cons e E =>
        rw [h8] at e1
        have h7 := honce k
        rw [← ht, ← e1] at h7
        have : E = [] := by
          rw [← List.length_eq_zero_iff]
          simp only [List.map_cons, List.length_cons, List.length_map] at h7
          omega
        rw [← e1, this]
        rfl

/-- An integer, for examples. -/
def intNum (s : Str) : Out Int := asInt s

/-- The map has these entries. -/
def hasEntries (r : Out (Str → Option Int)) (l : List (String × Option Int)) : Bool :=
  match r with
  | .ok f => l.all fun e => f e.1.toList == e.2
  | .error _ => false

/-- **C77** A label that contains the one asked for elsewhere than at the start gives a wrong key. -/
theorem map_inside_fails :
    (load anyCheck "dV[ab]=3\n".toList >>= fun r => readMap intNum r "V".toList fun _ => none).toOption.isSome = true ∧
    hasEntries (load anyCheck "dV[ab]=3\n".toList >>= fun r => readMap intNum r "V".toList fun _ => none)
      [("ab", none), ("[ab", some 3)] = true := by
  decide +kernel

/-- **C77** An entry that is given twice gives a wrong key for the second time. -/
theorem map_repeated_fails :
    hasEntries (load anyCheck "V[a]=3\nV[a]=4\n".toList >>= fun r => readMap intNum r "V".toList fun _ => none)
      [("a", some 3), ("a]@", some 4)] = true := by
  decide +kernel

/-- **C77** A label with brackets in the wrong order is not refused. -/
theorem map_malformed_fails :
    hasEntries (load anyCheck "V]a[=3\n".toList >>= fun r => readMap intNum r "V".toList fun _ => none) [("a", some 3)] = true := by
  decide +kernel

/-- **C77** An entry without a key after the label is refused, if the label itself has the brackets. -/
theorem map_keyless (num : Str → Out Int) (label : Str) (h : '[' ∈ label) (h' : ']' ∈ label) (tail v : Str) (ht : tail.length ≤ 1)
    (val : Str → Option Int) : mapEntry label num val (label ++ tail, v) = throwOut := by
  unfold mapEntry
  have e1 : label <:+: label ++ tail := ⟨[], tail, by simp⟩
  have e2 : '[' ∈ label ++ tail := List.mem_append_left _ h
  have e3 : ']' ∈ label ++ tail := List.mem_append_left _ h'
  have e4 : (label ++ tail).drop (label.length + 1) = [] := List.drop_eq_nil_of_le (by rw [List.length_append]; omega)
  simp only [e1, e2, e3, e4, not_true_eq_false, if_false, if_true]

/-! ## The hypotheses are met -/

example : (mapEntry "V[a]".toList intNum (fun _ => none) ("V[a]x".toList, "3".toList)).toOption.isNone = true := by decide +kernel

/-- A file with a matrix, a map and a number. -/
def sample : List Line :=
  [.vec "M".toList ["2".toList, "3".toList, "1".toList, "2".toList, "3".toList, "4".toList, "5".toList, "6".toList],
   .text "V[a]".toList "7".toList, .text "V[bc]".toList "-8".toList, .text "n".toList "9".toList]

/-- A checker that does not count the numbers of `M`. -/
def matCheck : Check := ⟨fun _ => true, fun _ _ => true, fun l _ => some (l = "M".toList)⟩

example : ((load matCheck (render sample) >>= fun r => readMatrix (fun s => realMatrix intNum s ⟨0, 0, []⟩) r "M".toList).toOption.map
    fun x => (x.1.nrow, x.1.ncol, x.1.data)) = some (2, 3, [1, 4, 2, 5, 3, 6]) := by decide +kernel

example : hasEntries (load matCheck (render sample) >>= fun r => readMap intNum r "V".toList fun _ => none)
    [("a", some 7), ("bc", some (-8)), ("n", none)] = true := by decide +kernel

example : ((load matCheck (render sample) >>= fun r => readValue asSize r "n=".toList).toOption.map (·.1)) = some 9 := by decide +kernel

example : MatrixText (fun s => Nat.ofDigitChars 10 s 0) (["1", "2", "5", "6"].map String.toList) 1 2 (Matrix.of fun _ j => 5 + j.1) := by
  refine ⟨by decide, by decide, ["5".toList, "6".toList], rfl, by decide, ?_⟩
  intro i j
  rcases i with ⟨i, hi⟩
  rcases j with ⟨j, hj⟩
  have : i = 0 := by omega
  subst this
  rcases (by omega : j = 0 ∨ j = 1) with rfl | rfl <;> rfl

end Verif.InputNg
