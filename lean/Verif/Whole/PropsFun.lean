import Verif.Whole.ModelFun
import Verif.Whole.SpecFun
import Verif.Whole.PropsReal
import Verif.Ainur.PropsFun
import Verif.StrUtil.Props

/-!
# Whole program: src/Ainur/test.cpp
-/

namespace Verif.Whole.Fun

open Verif.StrUtil Verif.Whole.Input

/-! ## What the entries of the vector stand for -/

/-- The text is read as it stands: it is not a call, or it is a call whose argument is not a number yet. -/
def Unresolved (w : Text) : Prop :=
  w.head? ≠ some '(' ∨ ∃ a x, w = '(' :: (a ++ [')']) ++ ('(' :: (x ++ [')'])) ∧ ')' ∉ a ∧ x ≠ [] ∧ isAfloat x = false

/-- The table in this file gives `y` at `x`: in the first line that has `x` in its first column. -/
def TableGives {Q : Type} (N : Ainur.Num Q) (disk : Text → Option Text) (name : Text) (x y : Q) : Prop :=
  ∃ pre line post, disk name = some (Ainur.linesText (pre ++ line :: post)) ∧ (∀ l ∈ pre ++ line :: post, Ainur.GoodLine 0 1 l) ∧
    Ainur.Gives N 0 1 line x y ∧ ∀ l ∈ pre, ∀ z, ¬ Ainur.Gives N 0 1 l x z

/-- The number that an entry stands for, once `%t` is replaced by `0.300000`: a number, or a call of a function that is given by a table. -/
inductive EntryIs {Q : Type} (N : Ainur.Num Q) (disk : Text → Option Text) (funs : List Text) : Text → Q → Prop
  | number (w t : Text) : Replaced "%t".toList "0.300000".toList w t → isAfloat t = true → EntryIs N disk funs w (N.ofText t)
  | table (w name t : Text) (y : Q) :
      Replaced "%t".toList "0.300000".toList w (Ainur.funTextShort name ++ ('(' :: (t ++ [')']))) → isAfloat t = true →
      ',' ∉ name → ')' ∉ name → Ainur.funTextShort name ∈ funs → TableGives N disk name (N.ofText t) y →
      isAfloat (N.text y) = true → EntryIs N disk funs w (N.ofText (N.text y))

/-! ## The values of labels -/

theorem holds_index {s : Ainur.State} {k v : Str} (h : Holds s k v) :
    ∃ x a, Ainur.storageIndexByName s k = some x ∧ s.vars[x]? = some a ∧ a.value = v := by
  unfold Holds at h
  cases hf : s.vars.find? (fun a => decide (a.key = k)) with
  | none => rw [hf] at h; cases h
  | some a =>
    rw [hf] at h
    obtain ⟨hp, i, hi, hia, hj⟩ := List.find?_eq_some_iff_getElem.1 hf
    refine ⟨i, a, ?_, by rw [List.getElem?_eq_getElem hi, hia], by simpa using h⟩
    unfold Ainur.storageIndexByName
    rw [List.findIdx?_eq_some_iff_getElem]
    exact ⟨hi, by rw [hia]; exact hp, fun j hj' => by simpa using hj j hj'⟩

theorem readAs_ok {α : Type} (conv : List Str → Str → Out α) {s : Ainur.State} {k v : Str} (h : Holds s k v) (hv : ¬ Ainur.NoValue v) :
    ∃ u, readAs conv s k = (conv s.funs v).map fun t => (t, { s with used := u }) := by
  obtain ⟨x, a, h1, h2, h3⟩ := holds_index h
  refine ⟨s.used.modify x (· + 1), ?_⟩
  unfold readAs
  rw [h1]
  simp only [h2, h3]
  have : Ainur.isEmptyValue v = false := by
    simp only [Ainur.isEmptyValue, decide_eq_false_iff_not]
    rintro (e | e)
    · exact hv (.inl (List.length_eq_zero_iff.1 e))
    · exact hv (.inr e)
  rw [this]
  cases conv s.funs v <;> rfl

theorem unresolved_value (fs : Ainur.Files) (funs : List Str) {w : Str} (h : Unresolved w) : Ainur.valueFromFunction fs funs w = .ok w := by
  rcases h with h | ⟨a, x, rfl, ha, hx, hf⟩
  · exact Ainur.valueFromFunction_plain fs funs w h
  · unfold Ainur.valueFromFunction
    simp only [Ainur.nameValue_call a x ha hx]
    rw [if_neg hx, if_pos (by simp [hf])]

theorem unresolved_string (fs : Ainur.Files) (funs : List Str) {w : Str} (h : Unresolved w) :
    Ainur.convertString fs funs w = .ok (Ainur.strip w) := by
  unfold Ainur.convertString Ainur.strip
  rw [unresolved_value fs funs h]
  simp only [bind, Except.bind, pure, Except.pure]
  split <;> rfl

theorem afloat_head {t : Str} (h : isAfloat t = true) : t.head? ≠ some '(' := fun e =>
  (Ainur.isAfloat_paren t h '(' (List.mem_of_head? e)).1 rfl

theorem replaceAll_of {w t : Str} (h : Replaced "%t".toList "0.300000".toList w t) : replaceAll w "%t".toList timeText = some t := by
  obtain ⟨u, h1, h2⟩ := replaceAll_spec w "%t".toList timeText (by decide)
  rw [h1, Replaced.unique (by decide) h h2]

theorem resolve_table {Q : Type} [DecidableEq Q] (N : Ainur.Num Q) (fuel : Nat) (disk : Str → Option Str) (funs : List Str)
    (name t : Str) (ht : isAfloat t = true) (hc : ',' ∉ name) (hb : ')' ∉ name) (hf : Ainur.funTextShort name ∈ funs)
    (lines : List Str) (hd : disk name = some (Ainur.linesText lines)) (hg : ∀ l ∈ lines, Ainur.GoodLine 0 1 l)
    (hl : lines.length + 2 ≤ fuel) :
    resolve N fuel disk funs (Ainur.funTextShort name ++ ('(' :: (t ++ [')']))) =
      (Ainur.callFun (Ainur.tableOf N 0 1 lines) (N.ofText t)).map N.text := by
  have hm := Ainur.makeFun_ok N disk _ name _ 0 1 (Ainur.parseFun_short name hc) lines hd hg fuel hl
  have hne : t ≠ [] := by rintro rfl; revert ht; decide
  have hv : Ainur.getFunctionNameValue (Ainur.funTextShort name ++ ('(' :: (t ++ [')']))) = (Ainur.funTextShort name, t) :=
    Ainur.nameValue_call _ t (by simp [hb]) hne
  have hdel : Ainur.deleteEnclosing t '(' ')' = t := by
    have hin : ∀ c ∈ t, c ≠ '(' ∧ c ≠ ')' := Ainur.isAfloat_paren t ht
    cases t with
    | nil => rfl
    | cons c r =>
      have h1 := (hin c (by simp)).1
      have h2 : (c :: r).getLast? ≠ some ')' := fun e => (hin ')' (List.mem_of_getLast? e)).2 rfl
      unfold Ainur.deleteEnclosing
      simp [h1, h2]
  unfold resolve
  simp only [hv]
  rw [if_neg hne, if_neg (by simp [ht]), if_neg (by simp [hf])]
  simp only [hm, hdel, Ainur.atofQ, ht, if_true, bind, Except.bind, pure, Except.pure]
  cases Ainur.callFun (Ainur.tableOf N 0 1 lines) (N.ofText t) <;> rfl

/-- The tables of the functions that are called fit in the budget. -/
def Fits (disk : Str → Option Str) (fuel : Nat) : Prop := ∀ name lines, disk name = some (Ainur.linesText lines) → lines.length + 2 ≤ fuel

theorem entryAt_ok {Q : Type} [DecidableEq Q] (N : Ainur.Num Q) (fuel : Nat) (disk : Str → Option Str) (funs : List Str) {w : Str} {q : Q}
    (hb : Fits disk fuel) (h : EntryIs N disk funs w q) : entryAt N fuel disk funs w = .ok q := by
  cases h with
  | number t hr ht =>
    unfold entryAt
    rw [replaceAll_of hr]
    have : resolve N fuel disk funs t = .ok t := by
      unfold resolve Ainur.getFunctionNameValue
      by_cases h1 : t.length < 4
      · simp [h1]
      · rw [if_neg h1, if_pos (Or.inl (afloat_head ht))]
        simp
    simp only [this, bind, Except.bind, Ainur.atofQ, ht, if_true]
  | table name t y hr ht hc hp hf hg hy =>
    obtain ⟨pre, line, post, hd, hgood, hgive, hpre⟩ := hg
    unfold entryAt
    rw [replaceAll_of hr]
    simp only [resolve_table N fuel disk funs name t ht hc hp hf _ hd hgood (hb _ _ hd),
      Ainur.callFun_first N 0 1 pre post line _ y hgive hpre, bind, Except.bind, Except.map, Ainur.atofQ, hy, if_true]

theorem mapM_all {α β : Type} (f : α → Out β) {ws : List α} {qs : List β} (h : List.Forall₂ (fun w q => f w = .ok q) ws qs) :
    ws.mapM f = .ok qs := by
  induction h with
  | nil => rfl
  | cons h1 _ ih => rw [List.mapM_cons, h1, ih]; rfl

theorem numbers_eq {Q : Type} (pr : Q → Str) (v : List Q) : numbers pr v = numberLines pr v := by
  match v with
  | [] => simp [numbers, numberLines]
  | [a] => simp [numbers, numberLines]
  | [a, b] =>
    have : Nat.toDigits 10 2 = ['2'] := by decide
    simp [numbers, numberLines, this]
  | a :: b :: c :: v => simp [numbers, numberLines]

/-! ## What is printed -/

/-- The input gives the four labels these values. -/
structure Given (s : Ainur.State) (n : Nat) (model useit vec rest : Text) (ws : List Text) : Prop where
  sites : Holds s "TotalNumberOfSites".toList (decimal n)
  small : n ≤ 2147483647
  hasModel : Holds s "Model".toList model
  hasUseit : Holds s "useit".toList useit
  hasVec : Holds s "myvector".toList vec
  model_ : ¬ Ainur.NoValue model ∧ Unresolved model
  useit_ : ¬ Ainur.NoValue useit ∧ Unresolved useit
  vec_ : Ainur.squeeze vec = Ainur.vectorText ws ++ rest
  some_ : ws ≠ []
  cells : ∀ w ∈ ws, Ainur.IsCell w ∧ Unresolved w
  dots : Ainur.NoEllipsis ws

theorem vec_has {vec rest : Str} {ws : List Str} (h2 : Ainur.squeeze vec = Ainur.vectorText ws ++ rest) : ¬ Ainur.NoValue vec := by
  intro hv
  rcases hv with rfl | rfl
  · simp [Ainur.squeeze, Ainur.vectorText] at h2
  · simp [Ainur.squeeze, Ainur.white, Ainur.vectorText] at h2

theorem decimal_has (n : Nat) : ¬ Ainur.NoValue (decimal n) := by
  have h1 : decimal (n : Int) = Nat.toDigits 10 n := by simp [decimal]
  rw [h1]
  rintro (e | e)
  · exact Ainur.digits_ne n e
  · have := isDigit_toDigits n '\x00' (by rw [e]; simp)
    revert this; decide

/-- How the program ends, given the numbers of the entries, if they have one. -/
def lastLines {Q : Type} (pr : Q → Str) (before : Str) : Out (List Q) → Run
  | .error b => ⟨before, .of b⟩
  | .ok v => ⟨before ++ numberLines pr v, .code 0⟩

theorem readVector_ok {Q : Type} [DecidableEq Q] (N : Ainur.Num Q) (fuel : Nat) (disk : Str → Option Str) (pr : Q → Str) {s : Ainur.State}
    {n : Nat} {model useit vec rest : Str} {ws : List Str} (h : Given s n model useit vec rest ws) (before : Str) :
    readVector N fuel disk pr s before = lastLines pr before (ws.mapM (entryAt N fuel disk s.funs)) := by
  obtain ⟨u, e⟩ := readAs_ok (fun funs t => Ainur.convertVector textElem (Ainur.filesOf N fuel disk) funs t []) h.hasVec (vec_has h.vec_)
  have hw : Ainur.convertVector textElem (Ainur.filesOf N fuel disk) s.funs vec [] = .ok ws := by
    rw [Ainur.vector_spec textElem _ s.funs vec rest ws [] h.some_ (fun w hw => (h.cells w hw).1) h.vec_ h.dots]
    rw [Real.mapM_ok _ id ws ?_]
    · simp
    · intro w hw
      unfold Ainur.entry
      rw [unresolved_value _ s.funs (h.cells w hw).2]
      rfl
  simp only [hw] at e
  unfold readVector
  rw [e]
  simp only [Except.map]
  cases ws.mapM (entryAt N fuel disk s.funs) with
  | error b => rfl
  | ok v => simp only [lastLines, numbers_eq]

theorem given_used {s : Ainur.State} {n : Nat} {model useit vec rest : Str} {ws : List Str} (h : Given s n model useit vec rest ws)
    (u : List Nat) : Given { s with used := u } n model useit vec rest ws :=
  ⟨h.sites, h.small, h.hasModel, h.hasUseit, h.hasVec, h.model_, h.useit_, h.vec_, h.some_, h.cells, h.dots⟩

theorem readUseit_ok {Q : Type} [DecidableEq Q] (N : Ainur.Num Q) (fuel : Nat) (disk : Str → Option Str) (pr : Q → Str) {s : Ainur.State}
    {n : Nat} {model useit vec rest : Str} {ws : List Str} (h : Given s n model useit vec rest ws) (before : Str) :
    readUseit N fuel disk pr s before =
      lastLines pr (before ++ Ainur.strip useit ++ ['\n']) (ws.mapM (entryAt N fuel disk s.funs)) := by
  obtain ⟨u, e⟩ := readAs_ok (Ainur.convertString (Ainur.filesOf N fuel disk)) h.hasUseit h.useit_.1
  rw [unresolved_string _ _ h.useit_.2] at e
  unfold readUseit
  rw [e]
  exact readVector_ok N fuel disk pr (given_used h u) _

theorem readModel_ok {Q : Type} [DecidableEq Q] (N : Ainur.Num Q) (fuel : Nat) (disk : Str → Option Str) (pr : Q → Str) {s : Ainur.State}
    {n : Nat} {model useit vec rest : Str} {ws : List Str} (h : Given s n model useit vec rest ws) (before : Str) :
    readModel N fuel disk pr s before =
      lastLines pr (before ++ Ainur.strip model ++ ['\n'] ++ Ainur.strip useit ++ ['\n']) (ws.mapM (entryAt N fuel disk s.funs)) := by
  obtain ⟨u, e⟩ := readAs_ok (Ainur.convertString (Ainur.filesOf N fuel disk)) h.hasModel h.model_.1
  rw [unresolved_string _ _ h.model_.2] at e
  unfold readModel
  rw [e]
  exact readUseit_ok N fuel disk pr (given_used h u) _

theorem body_vector {Q : Type} [DecidableEq Q] (N : Ainur.Num Q) (fuel : Nat) (disk : Str → Option Str) (pr : Q → Str) {s : Ainur.State}
    {n : Nat} {model useit vec rest : Str} {ws : List Str} (h : Given s n model useit vec rest ws) :
    body N fuel disk pr s =
      lastLines pr (firstLines n (Ainur.strip model) (Ainur.strip useit)) (ws.mapM (entryAt N fuel disk s.funs)) := by
  obtain ⟨u, e⟩ := readAs_ok (convertInt (Ainur.filesOf N fuel disk)) h.sites (decimal_has n)
  have hsmall := h.small
  have hsz : Ainur.toSize (n : Int) = n := by
    unfold Ainur.toSize
    omega
  rw [Real.convertInt_ok _ _ _ (by omega) (by omega)] at e
  unfold body
  rw [e]
  simp only [Except.map]
  rw [hsz, readModel_ok N fuel disk pr (given_used h u)]
  rfl

/-- The files can be read, and are accepted as one file in the Ainur format. -/
structure Accepted {Q : Type} [DecidableEq Q] (N : Ainur.Num Q) (fuel : Nat) (disk : Str → Option Str) (args : List Str) (s : Ainur.State) :
    Prop where
  some_ : args ≠ []
  texts : ∃ ts : List Str, args.map disk = ts.map some ∧ Ainur.ainur (Ainur.filesOf N fuel disk) ts.flatten = .ok s

theorem main_body {Q : Type} [DecidableEq Q] (N : Ainur.Num Q) (fuel : Nat) (disk : Str → Option Str) (pr : Q → Str) {args : List Str}
    {s : Ainur.State} (h : Accepted N fuel disk args s) : main N fuel disk pr args = body N fuel disk pr s := by
  obtain ⟨ts, h1, h2⟩ := h.texts
  unfold main
  rw [if_neg h.some_, Real.readFiles_ok disk args ts h1]
  simp only [h2]

/-- **C154** If the input gives the four labels, the program prints the number and the two texts as they stand, then how many entries the
vector has and, if there are two, the numbers that they stand for at `t = 0.3`; it returns zero. -/
theorem fun_prints {Q : Type} [DecidableEq Q] (N : Ainur.Num Q) (fuel : Nat) (disk : Str → Option Str) (pr : Q → Str) (args : List Str)
    (s : Ainur.State) (h : Accepted N fuel disk args s) (n : Nat) (model useit vec rest : Text) (ws : List Text)
    (hg : Given s n model useit vec rest ws) (hb : Fits disk fuel) (qs : List Q) (hq : List.Forall₂ (EntryIs N disk s.funs) ws qs) :
    main N fuel disk pr args = ⟨firstLines n (Ainur.strip model) (Ainur.strip useit) ++ numberLines pr qs, .code 0⟩ := by
  rw [main_body N fuel disk pr h, body_vector N fuel disk pr hg,
    mapM_all _ (hq.imp fun w q hwq => entryAt_ok N fuel disk s.funs hb hwq)]
  rfl

/-! ## More tables -/

theorem native_more {fs fs' : Ainur.Files} (h : ∀ c, fs.make c = true → fs'.make c = true) {funs : List Str} {line : Str}
    {r : Str × List Str} (hr : Ainur.procNativeMacro fs funs line = .ok r) : Ainur.procNativeMacro fs' funs line = .ok r := by
  unfold Ainur.procNativeMacro at hr ⊢
  split at hr
  · split at hr
    · cases hr
    · rename_i h1 h2
      rw [if_pos h1, if_neg h2]
      simp only at hr ⊢
      split at hr
      · rename_i h3
        rw [if_pos h3]; exact hr
      · rename_i h3
        rw [if_neg h3]
        split at hr
        · rename_i h4
          rw [if_pos (h _ h4)]; exact hr
        · cases hr
  · cases hr

theorem expandVar_more {fs fs' : Ainur.Files} (h : ∀ c, fs.make c = true → fs'.make c = true) {i : Nat} {r t : Ainur.State × Bool}
    (hr : Ainur.expandVar fs i r = .ok t) : Ainur.expandVar fs' i r = .ok t := by
  unfold Ainur.expandVar at hr ⊢
  split at hr
  · rename_i u a hu ha
    simp only [hu, ha]
    split at hr
    · rename_i h0
      rw [if_pos h0]; exact hr
    · rename_i h0
      rw [if_neg h0]
      cases hm : Ainur.expandOneValue r.1 a.value with
      | error b => rw [hm] at hr; cases hr
      | ok m =>
        rw [hm] at hr
        simp only [bind, Except.bind] at hr ⊢
        split at hr
        · rename_i h1
          rw [if_pos h1]; exact hr
        · rename_i h1
          rw [if_neg h1]
          by_cases h2 : m.2.head? = some '!'
          · simp only [h2, if_true] at hr ⊢
            cases hp : Ainur.procNativeMacro fs r.1.funs m.2 with
            | error b => rw [hp] at hr; cases hr
            | ok p =>
              rw [hp] at hr
              rw [native_more h hp]
              exact hr
          · simp only [h2, if_false] at hr ⊢
            exact hr
  · cases hr

theorem foldlM_more {α β : Type} {f g : β → α → Out β} (h : ∀ b a c, f b a = .ok c → g b a = .ok c) (l : List α) (b c : β)
    (hf : l.foldlM f b = .ok c) : l.foldlM g b = .ok c := by
  induction l generalizing b with
  | nil => exact hf
  | cons a l ih =>
    rw [List.foldlM_cons] at hf ⊢
    cases hb : f b a with
    | error e => rw [hb] at hf; cases hf
    | ok d =>
      rw [hb] at hf
      rw [h b a d hb]
      exact ih d hf

theorem expandLoop_more {fs fs' : Ainur.Files} (h : ∀ c, fs.make c = true → fs'.make c = true) (n : Nat) (s t : Ainur.State)
    (hr : Ainur.expandLoop fs n s = .ok t) : Ainur.expandLoop fs' n s = .ok t := by
  induction n generalizing s with
  | zero =>
    unfold Ainur.expandLoop at hr ⊢
    cases he : Ainur.expandMacros fs s with
    | error b => rw [he] at hr; cases hr
    | ok r =>
      rw [he] at hr
      rw [show Ainur.expandMacros fs' s = .ok r from foldlM_more (fun b a c => expandVar_more h) _ _ _ he]
      exact hr
  | succ n ih =>
    unfold Ainur.expandLoop at hr ⊢
    cases he : Ainur.expandMacros fs s with
    | error b => rw [he] at hr; cases hr
    | ok r =>
      rw [he] at hr
      rw [show Ainur.expandMacros fs' s = .ok r from foldlM_more (fun b a c => expandVar_more h) _ _ _ he]
      obtain ⟨r1, r2⟩ := r
      cases r2 with
      | false => exact hr
      | true => exact ih r1 hr

/-- **C154** An input that is accepted is accepted, with the same values, when more tables can be read. -/
theorem ainur_more {fs fs' : Ainur.Files} (h : ∀ c, fs.make c = true → fs'.make c = true) (text : Str) (s : Ainur.State)
    (hr : Ainur.ainur fs text = .ok s) : Ainur.ainur fs' text = .ok s := by
  unfold Ainur.ainur at hr ⊢
  cases h1 : Ainur.lexical text with
  | error b => rw [h1] at hr; cases hr
  | ok u =>
    rw [h1] at hr
    simp only [bind, Except.bind] at hr ⊢
    cases h2 : (Ainur.phraseParse text).1.foldlM Ainur.Stmt.act Ainur.State.init with
    | error b => rw [h2] at hr; cases hr
    | ok s1 =>
      rw [h2] at hr
      simp only at hr ⊢
      cases h3 : Ainur.checkRest (Ainur.phraseParse text).2 with
      | error b => rw [h3] at hr; cases hr
      | ok u =>
        rw [h3] at hr
        simp only at hr ⊢
        unfold Ainur.initMacros at hr ⊢
        simp only [bind, Except.bind] at hr ⊢
        cases h4 : Ainur.declare s1 "function".toList Ainur.fromFile ('!' :: Ainur.fromFile) with
        | error b => rw [h4] at hr; cases hr
        | ok s2 =>
          rw [h4] at hr
          exact expandLoop_more h 101 s2 s hr

/-! ## The files that come with the program -/

/-- The name of the table. -/
def tableName : Text := "function.txt".toList

/-- An entry of the vector, after the macros. -/
def callText : Text := "(\"function.txt\")(%t)".toList

/-- The vector, after the macros. -/
def callVector : Text := "[(\"function.txt\")(%t), (\"function.txt\")(%t)]".toList

/-- Only this table can be read. -/
def onlyTable : Ainur.Files := ⟨fun c => decide (c = Ainur.funTextShort tableName), fun _ _ => none⟩

instance (s : Ainur.State) (k v : Str) : Decidable (Holds s k v) :=
  inferInstanceAs (Decidable ((s.vars.find? fun a => a.key = k).map (·.value) = some v))

/-- What is needed of the state. -/
def shippedOk : Out Ainur.State → Bool
  | .error _ => false
  | .ok s => decide (Holds s "TotalNumberOfSites".toList "16".toList) && decide (Holds s "Model".toList "\"HubbardOneBand\"".toList) &&
      decide (Holds s "useit".toList callText) && decide (Holds s "myvector".toList callVector) &&
      decide (s.funs = [Ainur.funTextShort tableName])

theorem shipped_computed : shippedOk (Ainur.ainur onlyTable (prelude ++ input0)) = true := by decide +kernel

theorem unresolved_call : Unresolved callText :=
  .inr ⟨"\"function.txt\"".toList, "%t".toList, by decide, by decide, by decide, by decide⟩

theorem shipped_given : ∃ s, Ainur.ainur onlyTable (prelude ++ input0) = .ok s ∧ s.funs = [Ainur.funTextShort tableName] ∧
    Given s 16 "\"HubbardOneBand\"".toList callText callVector [] [callText, callText] := by
  have h := shipped_computed
  cases hs : Ainur.ainur onlyTable (prelude ++ input0) with
  | error b => rw [hs] at h; cases h
  | ok s =>
    rw [hs] at h
    simp only [shippedOk, Bool.and_eq_true, decide_eq_true_eq] at h
    obtain ⟨⟨⟨⟨h1, h2⟩, h3⟩, h4⟩, h5⟩ := h
    refine ⟨s, rfl, h5, ?_⟩
    have hcell : Ainur.IsCell callText := ⟨by decide, by decide⟩
    refine ⟨h1, by decide, h2, h3, h4, ⟨by decide, .inl (by decide)⟩, ⟨by decide, unresolved_call⟩, by decide +kernel, by simp, ?_, ?_⟩
    · intro w hw
      have : w = callText := by simpa using hw
      rw [this]
      exact ⟨hcell, unresolved_call⟩
    · intro a b e
      simp only [List.cons.injEq, and_true] at e
      rw [← e.2]
      decide

theorem call_replaced : Replaced "%t".toList "0.300000".toList callText
    (Ainur.funTextShort tableName ++ ('(' :: ("0.300000".toList ++ [')']))) := by
  obtain ⟨t, h1, h2⟩ := replaceAll_spec callText "%t".toList "0.300000".toList (by decide)
  have h3 : replaceAll callText "%t".toList "0.300000".toList =
      some (Ainur.funTextShort tableName ++ ('(' :: ("0.300000".toList ++ [')']))) := by decide +kernel
  rw [h1] at h3
  rw [← Option.some.inj h3]
  exact h2

/-- The disk has the two files that come with the program, and a table with these lines. -/
structure Shipped (disk : Str → Option Str) (lines : List Str) : Prop where
  first : disk "prelude.ain".toList = some prelude
  second : disk "input0.ain".toList = some input0
  table : disk tableName = some (Ainur.linesText lines)
  good : ∀ l ∈ lines, Ainur.GoodLine 0 1 l

/-- The arguments. -/
def shippedArgs : List Str := ["prelude.ain".toList, "input0.ain".toList]

theorem shipped_accepted {Q : Type} [DecidableEq Q] (N : Ainur.Num Q) (fuel : Nat) {disk : Str → Option Str} {lines : List Str}
    (h : Shipped disk lines) (hf : lines.length + 2 ≤ fuel) :
    ∃ s, Accepted N fuel disk shippedArgs s ∧ s.funs = [Ainur.funTextShort tableName] ∧
      Given s 16 "\"HubbardOneBand\"".toList callText callVector [] [callText, callText] := by
  obtain ⟨s, h1, h2, h3⟩ := shipped_given
  refine ⟨s, ⟨by decide, [prelude, input0], ?_, ?_⟩, h2, h3⟩
  · simp only [shippedArgs, List.map_cons, List.map_nil, h.first, h.second]
  · have : [prelude, input0].flatten = prelude ++ input0 := by simp only [List.flatten_cons, List.flatten_nil, List.append_nil]
    rw [this]
    refine ainur_more ?_ _ _ h1
    intro c hc
    have hc' : c = Ainur.funTextShort tableName := by simpa [onlyTable] using hc
    subst hc'
    simp only [Ainur.filesOf,
      Ainur.makeFun_ok N disk _ tableName _ 0 1 (Ainur.parseFun_short tableName (by decide)) lines h.table h.good fuel hf]

/-- The lines that are printed before the numbers. -/
def shippedLines : Text := firstLines 16 "HubbardOneBand".toList callText

theorem shipped_lines : firstLines 16 (Ainur.strip "\"HubbardOneBand\"".toList) (Ainur.strip callText) = shippedLines := by
  have h1 : Ainur.strip "\"HubbardOneBand\"".toList = "HubbardOneBand".toList := by decide
  have h2 : Ainur.strip callText = callText := by decide
  rw [h1, h2]; rfl

theorem call_entry {Q : Type} [DecidableEq Q] (N : Ainur.Num Q) (fuel : Nat) {disk : Str → Option Str} {lines : List Str}
    (h : Shipped disk lines) (hf : lines.length + 2 ≤ fuel) :
    entryAt N fuel disk [Ainur.funTextShort tableName] callText =
      ((Ainur.callFun (Ainur.tableOf N 0 1 lines) (N.ofText "0.300000".toList)).map N.text >>= Ainur.atofQ N) := by
  unfold entryAt
  rw [replaceAll_of call_replaced]
  simp only
  rw [resolve_table N fuel disk _ tableName "0.300000".toList (by decide) (by decide) (by decide) (by simp) lines h.table h.good hf]

theorem shipped_main {Q : Type} [DecidableEq Q] (N : Ainur.Num Q) (fuel : Nat) {disk : Str → Option Str} (pr : Q → Str) {lines : List Str}
    (h : Shipped disk lines) (hf : lines.length + 2 ≤ fuel) : main N fuel disk pr shippedArgs =
      lastLines pr shippedLines ([callText, callText].mapM (entryAt N fuel disk [Ainur.funTextShort tableName])) := by
  obtain ⟨s, h1, h2, h3⟩ := shipped_accepted N fuel h hf
  rw [main_body N fuel disk pr h1, body_vector N fuel disk pr h3, shipped_lines, h2]

/-- **C154** With the files that come with the program and any table, the program prints twice the number that the table has for `0.3`: the
second column of the first line that has `0.3` in its first column, rounded as `std::to_string` rounds it. -/
theorem fun_shipped {Q : Type} [DecidableEq Q] (N : Ainur.Num Q) (fuel : Nat) (disk : Str → Option Str) (pr : Q → Str)
    (pre : List Str) (line : Str) (post : List Str) (h : Shipped disk (pre ++ line :: post)) (hf : pre.length + post.length + 3 ≤ fuel) (y : Q)
    (hy : Ainur.Gives N 0 1 line (N.ofText "0.300000".toList) y)
    (hp : ∀ l ∈ pre, ∀ z, ¬ Ainur.Gives N 0 1 l (N.ofText "0.300000".toList) z) (ht : isAfloat (N.text y) = true) :
    main N fuel disk pr shippedArgs =
      ⟨shippedLines ++ numberLines pr [N.ofText (N.text y), N.ofText (N.text y)], .code 0⟩ := by
  have hf' : (pre ++ line :: post).length + 2 ≤ fuel := by simp; omega
  rw [shipped_main N fuel pr h hf']
  have e := call_entry N fuel h hf'
  rw [Ainur.callFun_first N 0 1 pre post line _ y hy hp] at e
  simp only [Except.map, bind, Except.bind, Ainur.atofQ, ht, if_true] at e
  simp only [List.mapM_cons, List.mapM_nil, e, bind, Except.bind, pure, Except.pure]
  rfl

/-- **C154** If the table has something for `0.3` whose text is not a number (`inf`, for instance), the program ends with an exception after
the first three lines. -/
theorem fun_notNumber {Q : Type} [DecidableEq Q] (N : Ainur.Num Q) (fuel : Nat) (disk : Str → Option Str) (pr : Q → Str)
    (pre : List Str) (line : Str) (post : List Str) (h : Shipped disk (pre ++ line :: post)) (hf : pre.length + post.length + 3 ≤ fuel) (y : Q)
    (hy : Ainur.Gives N 0 1 line (N.ofText "0.300000".toList) y)
    (hp : ∀ l ∈ pre, ∀ z, ¬ Ainur.Gives N 0 1 l (N.ofText "0.300000".toList) z) (ht : isAfloat (N.text y) = false) :
    main N fuel disk pr shippedArgs = ⟨shippedLines, .uncaught⟩ := by
  have hf' : (pre ++ line :: post).length + 2 ≤ fuel := by simp; omega
  rw [shipped_main N fuel pr h hf']
  have e := call_entry N fuel h hf'
  rw [Ainur.callFun_first N 0 1 pre post line _ y hy hp] at e
  simp only [Except.map, bind, Except.bind, Ainur.atofQ, ht] at e
  simp only [List.mapM_cons, e, bind, Except.bind]
  rfl

/-- **C154, violated part** If the table has nothing for `0.3`, the program reads past the end of the table: there is no message. -/
theorem fun_absent_fails {Q : Type} [DecidableEq Q] (N : Ainur.Num Q) (fuel : Nat) (disk : Str → Option Str) (pr : Q → Str)
    (lines : List Str) (h : Shipped disk lines) (hf : lines.length + 2 ≤ fuel)
    (hp : ∀ l ∈ lines, ∀ z, ¬ Ainur.Gives N 0 1 l (N.ofText "0.300000".toList) z) :
    main N fuel disk pr shippedArgs = ⟨shippedLines, .undefined⟩ := by
  rw [shipped_main N fuel pr h hf]
  have e := call_entry N fuel h hf
  rw [Ainur.callFun_none N 0 1 lines _ hp] at e
  simp only [List.mapM_cons, e, bind, Except.bind, ubOut, Except.map]
  rfl

/-- **C154** Without arguments the program returns one; with a file that cannot be opened it ends with an exception, and prints nothing. -/
theorem fun_noFile {Q : Type} [DecidableEq Q] (N : Ainur.Num Q) (fuel : Nat) (disk : Str → Option Str) (pr : Q → Str) :
    main N fuel disk pr [] = ⟨[], .code 1⟩ ∧
      ∀ args, (∃ a ∈ args, disk a = none) → main N fuel disk pr args = ⟨[], .uncaught⟩ := by
  refine ⟨rfl, ?_⟩
  rintro args ⟨a, ha, hd⟩
  have hr : Real.readFiles disk args = throwOut := by
    induction args with
    | nil => cases ha
    | cons b bs ih =>
      unfold Real.readFiles
      cases hb : disk b with
      | none => rfl
      | some t =>
        rcases List.mem_cons.1 ha with rfl | ha
        · rw [hd] at hb; cases hb
        · rw [ih ha]; rfl
  unfold main
  rw [if_neg (by rintro rfl; cases ha), hr]
  rfl

/-! ## A table that is not there -/

/-- `ainur` up to the expansion of the macros. -/
def beforeMacros (text : Str) : Out Ainur.State := do
  Ainur.lexical text
  let s ← (Ainur.phraseParse text).1.foldlM Ainur.Stmt.act Ainur.State.init
  Ainur.checkRest (Ainur.phraseParse text).2
  Ainur.declare s "function".toList Ainur.fromFile ('!' :: Ainur.fromFile)

theorem ainur_split (fs : Ainur.Files) (text : Str) : Ainur.ainur fs text = (beforeMacros text >>= Ainur.expandLoop fs 101) := by
  simp only [Ainur.ainur, beforeMacros, Ainur.initMacros, Ainur.expandMacrosRecursively, bind_assoc]

/-- No table can be read. -/
def noTables : Ainur.Files := ⟨fun _ => false, fun _ _ => none⟩

/-- What is needed of the state when the macro of the table is met. -/
def tableMet : Out Ainur.State → Bool
  | .error _ => false
  | .ok s => decide (s.vars.length = 35) &&
    match (List.range 31).foldlM (fun r i => Ainur.expandVar noTables i r) (s, false) with
    | .error _ => false
    | .ok r => decide (r.1.funs = []) && decide (r.1.used[31]? = some 1) &&
      match r.1.vars[31]? with
      | none => false
      | some a => decide (Ainur.expandOneValue r.1 a.value = .ok (true, '!' :: Ainur.fromFile ++ Ainur.funTextShort tableName))

theorem tableMet_computed : tableMet (beforeMacros (prelude ++ input0)) = true := by decide +kernel

theorem shipped_noTable (fs : Ainur.Files) (h : fs.make (Ainur.funTextShort tableName) = false) :
    Ainur.ainur fs (prelude ++ input0) = throwOut := by
  have hc := tableMet_computed
  rw [ainur_split]
  cases hs : beforeMacros (prelude ++ input0) with
  | error b => rw [hs] at hc; cases hc
  | ok s =>
    rw [hs] at hc
    simp only [tableMet, Bool.and_eq_true, decide_eq_true_eq] at hc
    obtain ⟨hlen, hc⟩ := hc
    cases hr : (List.range 31).foldlM (fun r i => Ainur.expandVar noTables i r) (s, false) with
    | error b => rw [hr] at hc; cases hc
    | ok r =>
      rw [hr] at hc
      simp only [Bool.and_eq_true, decide_eq_true_eq] at hc
      obtain ⟨⟨hfun, hu⟩, hc⟩ := hc
      cases ha : r.1.vars[31]? with
      | none => rw [ha] at hc; cases hc
      | some a =>
        rw [ha] at hc
        have hm : Ainur.expandOneValue r.1 a.value = .ok (true, '!' :: Ainur.fromFile ++ Ainur.funTextShort tableName) := by
          simpa using hc
        have h1 : (List.range 31).foldlM (fun r i => Ainur.expandVar fs i r) (s, false) = .ok r :=
          foldlM_more (fun b a c => expandVar_more (fs := noTables) (fun c hc => by cases hc)) _ _ _ hr
        have h2 : Ainur.expandVar fs 31 r = throwOut := by
          have e1 : (('!' :: Ainur.fromFile ++ Ainur.funTextShort tableName).drop 1).take Ainur.fromFile.length = Ainur.fromFile := by decide
          have e2 : ('!' :: Ainur.fromFile ++ Ainur.funTextShort tableName).drop (Ainur.fromFile.length + 1) =
              Ainur.funTextShort tableName := by decide
          have h3 : Ainur.procNativeMacro fs [] ('!' :: Ainur.fromFile ++ Ainur.funTextShort tableName) = throwOut := by
            unfold Ainur.procNativeMacro
            rw [if_pos e1, if_neg (by decide)]
            simp only [e2]
            rw [if_neg (by simp), h]
            rfl
          unfold Ainur.expandVar
          simp only [hu, ha, hm, hfun, bind, Except.bind, List.cons_append, List.head?_cons, if_true] at h3 ⊢
          rw [if_neg (by decide), if_neg (by decide), h3]
          rfl
        have h4 : Ainur.expandMacros fs s = throwOut := by
          unfold Ainur.expandMacros
          rw [hlen, show List.range 35 = List.range 31 ++ 31 :: [32, 33, 34] by decide, List.foldlM_append, h1]
          simp only [bind, Except.bind, List.foldlM_cons, h2, throwOut]
        show Ainur.expandLoop fs 101 s = throwOut
        unfold Ainur.expandLoop
        rw [h4]
        rfl

/-- **C154** If the table that the input names is not there, the program ends with an exception, and prints nothing. -/
theorem fun_noTable {Q : Type} [DecidableEq Q] (N : Ainur.Num Q) (fuel : Nat) (disk : Str → Option Str) (pr : Q → Str)
    (h1 : disk "prelude.ain".toList = some prelude) (h2 : disk "input0.ain".toList = some input0) (h3 : disk tableName = none) :
    main N fuel disk pr shippedArgs = ⟨[], .uncaught⟩ := by
  unfold main
  rw [if_neg (by decide), Real.readFiles_ok disk shippedArgs [prelude, input0] (by
    simp only [shippedArgs, List.map_cons, List.map_nil, h1, h2])]
  have : [prelude, input0].flatten = prelude ++ input0 := by simp only [List.flatten_cons, List.flatten_nil, List.append_nil]
  simp only [this]
  rw [shipped_noTable]
  · rfl
  · simp only [Ainur.filesOf, Ainur.function_nofile N disk tableName (by decide) h3 fuel, throwOut]

/-! ## Concrete cases: the table that comes with the program -/

/-- `std::atof` and `std::to_string` on rational numbers: six digits after the point, the last one rounded. -/
def decNum : Ainur.Num ℚ where
  ofText t := match Cmplx.atof t with
    | .ok q => q
    | .error _ => 0
  text q :=
    let m := (q * 1000000 + 1 / 2).floor
    let digits := Nat.toDigits 10 m.natAbs
    let padded := List.replicate (7 - digits.length) '0' ++ digits
    (if m < 0 then ['-'] else []) ++ padded.take (padded.length - 6) ++ ['.'] ++ padded.drop (padded.length - 6)

/-- A disk with this table. -/
def diskOf (table : Str) (name : Str) : Option Str :=
  if name = "prelude.ain".toList then some prelude else if name = "input0.ain".toList then some input0
  else if name = tableName then some table else none

/-- The lines of src/Ainur/function.txt. -/
def tableLines : List Str := ["0 0", "0.3 0.09", "1 1", "2 4", "3 9", "4 16"].map (·.toList)

theorem good_line (a b : Str) (l : Str) (hl : ∀ c ∈ l, c ≠ '\n' ∧ c ≠ '\x00') (hs : l.length < 2048)
    (h1 : (Ainur.words l)[0]? = some a) (h2 : (Ainur.words l)[1]? = some b) (ha : isAfloat a = true) (hb : isAfloat b = true) :
    Ainur.GoodLine 0 1 l := ⟨hl, hs, .inr ⟨a, b, h1, h2, ha, hb⟩⟩

theorem tableLines_good : ∀ l ∈ tableLines, Ainur.GoodLine 0 1 l := by
  intro l hl
  simp only [tableLines, List.map_cons, List.map_nil, List.mem_cons, List.not_mem_nil, or_false] at hl
  rcases hl with rfl | rfl | rfl | rfl | rfl | rfl
  · exact good_line "0".toList "0".toList _ (by decide) (by decide) (by decide +kernel) (by decide +kernel) (by decide) (by decide)
  · exact good_line "0.3".toList "0.09".toList _ (by decide) (by decide) (by decide +kernel) (by decide +kernel) (by decide) (by decide)
  · exact good_line "1".toList "1".toList _ (by decide) (by decide) (by decide +kernel) (by decide +kernel) (by decide) (by decide)
  · exact good_line "2".toList "4".toList _ (by decide) (by decide) (by decide +kernel) (by decide +kernel) (by decide) (by decide)
  · exact good_line "3".toList "9".toList _ (by decide) (by decide) (by decide +kernel) (by decide +kernel) (by decide) (by decide)
  · exact good_line "4".toList "16".toList _ (by decide) (by decide) (by decide +kernel) (by decide +kernel) (by decide) (by decide)

theorem diskOf_shipped (lines : List Str) (h : ∀ l ∈ lines, Ainur.GoodLine 0 1 l) : Shipped (diskOf (Ainur.linesText lines)) lines :=
  ⟨by unfold diskOf; rw [if_pos rfl], by unfold diskOf; rw [if_neg (by decide), if_pos rfl],
    by unfold diskOf; rw [if_neg (by decide), if_neg (by decide), if_pos rfl], h⟩

/-- With the table that comes with the program, `0.09` is printed twice. -/
example (pr : ℚ → Str) : main decNum 9 (diskOf (Ainur.linesText tableLines)) pr shippedArgs =
    ⟨shippedLines ++ numberLines pr [9 / 100, 9 / 100], .code 0⟩ := by
  have h := fun_shipped decNum 9 (diskOf (Ainur.linesText tableLines)) pr ["0 0".toList] "0.3 0.09".toList
    ["1 1".toList, "2 4".toList, "3 9".toList, "4 16".toList] (diskOf_shipped tableLines tableLines_good) (by decide) (9 / 100)
    ⟨"0.3".toList, "0.09".toList, by decide +kernel, by decide +kernel, by decide +kernel, by decide +kernel⟩
    (by
      rintro l hl z ⟨a, b, h1, _, h2, _⟩
      rw [List.mem_singleton.1 hl, show (Ainur.words "0 0".toList)[0]? = some ['0'] by decide +kernel] at h1
      rw [← Option.some.inj h1] at h2
      revert h2; decide +kernel) (by decide +kernel)
  have e : decNum.ofText (decNum.text (9 / 100)) = 9 / 100 := by decide +kernel
  rw [e] at h
  exact h

theorem one_good (l a b : Str) (hl : ∀ c ∈ l, c ≠ '\n' ∧ c ≠ '\x00') (hs : l.length < 2048)
    (h1 : (Ainur.words l)[0]? = some a) (h2 : (Ainur.words l)[1]? = some b) (ha : isAfloat a = true) (hb : isAfloat b = true) :
    ∀ m ∈ [l], Ainur.GoodLine 0 1 m := by
  intro m hm
  rw [List.mem_singleton.1 hm]
  exact good_line a b l hl hs h1 h2 ha hb

/-- **C154, violated part** A number is passed on as a text with six digits after the point: `0.0000001` in the table becomes zero. -/
theorem fun_small_fails (pr : ℚ → Str) : main decNum 9 (diskOf (Ainur.linesText ["0.3 0.0000001".toList])) pr shippedArgs =
    ⟨shippedLines ++ numberLines pr [0, 0], .code 0⟩ := by
  have h := fun_shipped decNum 9 (diskOf (Ainur.linesText ["0.3 0.0000001".toList])) pr [] "0.3 0.0000001".toList []
    (diskOf_shipped _ (one_good _ "0.3".toList "0.0000001".toList (by decide) (by decide) (by decide +kernel) (by decide +kernel)
      (by decide) (by decide))) (by decide) (1 / 10000000)
    ⟨"0.3".toList, "0.0000001".toList, by decide +kernel, by decide +kernel, by decide +kernel, by decide +kernel⟩
    (by intro l hl; cases hl) (by decide +kernel)
  have e : decNum.ofText (decNum.text (1 / 10000000)) = 0 := by decide +kernel
  rw [e] at h
  exact h

/-- The hypotheses of `fun_absent_fails` are met by a table without `0.3`. -/
example (pr : ℚ → Str) : main decNum 9 (diskOf (Ainur.linesText ["1 1".toList])) pr shippedArgs = ⟨shippedLines, .undefined⟩ :=
  fun_absent_fails decNum 9 _ pr ["1 1".toList]
    (diskOf_shipped _ (one_good _ ['1'] ['1'] (by decide) (by decide) (by decide +kernel) (by decide +kernel) (by decide) (by decide)))
    (by decide) (by
      rintro l hl z ⟨a, b, h1, _, h2, _⟩
      rw [List.mem_singleton.1 hl, show (Ainur.words "1 1".toList)[0]? = some ['1'] by decide +kernel] at h1
      rw [← Option.some.inj h1] at h2
      revert h2; decide +kernel)

/-- Those of `fun_notNumber`, where numbers have texts such as `inf`. -/
example (pr : ℚ → Str) : main ⟨decNum.ofText, fun _ => "inf".toList⟩ 9 (diskOf (Ainur.linesText ["0.3 1e999".toList])) pr shippedArgs =
    ⟨shippedLines, .uncaught⟩ :=
  fun_notNumber ⟨decNum.ofText, fun _ => "inf".toList⟩ 9 _ pr [] "0.3 1e999".toList []
    (diskOf_shipped _ (one_good _ "0.3".toList "1e999".toList (by decide) (by decide) (by decide +kernel) (by decide +kernel)
      (by decide) (by decide))) (by decide) _ ⟨"0.3".toList, "1e999".toList, by decide +kernel, by decide +kernel, by decide +kernel, rfl⟩
    (by intro l hl; cases hl) (by decide)

/-- Those of `fun_noTable` by a disk with the two input files alone. -/
example (pr : ℚ → Str) : main decNum 9 (fun n => if n = tableName then none else diskOf [] n) pr shippedArgs = ⟨[], .uncaught⟩ :=
  fun_noTable decNum 9 _ pr
    (by rw [if_neg (by decide)]; unfold diskOf; rw [if_pos rfl])
    (by rw [if_neg (by decide)]; unfold diskOf; rw [if_neg (by decide), if_pos rfl]) (by rw [if_pos rfl])

/-- Those of `fun_prints`, by the files that come with the program. -/
example : ∃ s, Accepted decNum 9 (diskOf (Ainur.linesText tableLines)) shippedArgs s ∧
    Given s 16 "\"HubbardOneBand\"".toList callText callVector [] [callText, callText] := by
  obtain ⟨s, h1, _, h2⟩ := shipped_accepted decNum 9 (diskOf_shipped tableLines tableLines_good) (by decide)
  exact ⟨s, h1, h2⟩

/-- Entries: `%t` itself, and a number without it. -/
example : EntryIs decNum (fun _ => none) [] "%t".toList (3 / 10) := by
  have := EntryIs.number (N := decNum) (disk := fun _ => none) (funs := []) "%t".toList "0.300000".toList
    (.step [] [] [] (by intro b c h; simp) (.done [] (by decide))) (by decide)
  rwa [show decNum.ofText "0.300000".toList = 3 / 10 by decide +kernel] at this

end Verif.Whole.Fun
