import Verif.Whole.ModelInput
import Verif.Ainur.PropsGrammar
import Verif.Ainur.PropsConvert
import Verif.InputNg.PropsValues
import Verif.Cmplx.PropsOther

/-!
# Whole program: examples/testInputNg.cpp
-/

namespace Verif.Whole.Input

open Verif.StrUtil

/-! ## What the lines of a file in the Ainur format stand for -/

/-- A line: as it is, or `!A$iB a b c …`, short for `A0B=a;`, `A1B=b;`, `A2B=c;`, … -/
inductive Line
  | asIs (s : Str)
  | expand (a b : Str) (values : List Str)

/-- The line in the file. -/
def Line.render : Line → Str
  | .asIs s => s ++ ['\n']
  | .expand a b vs => '!' :: (a ++ ('$' :: 'i' :: b) ++ (' ' :: [' '].intercalate vs) ++ ['\n'])

/-- What it stands for. -/
def Line.meaning : Line → Str
  | .asIs s => s ++ ['\n']
  | .expand a b vs => (vs.mapIdx fun i v => a ++ Nat.toDigits 10 i ++ b ++ "=".toList ++ v ++ ";\n".toList).flatten

/-- The line is well formed. -/
def Line.Ok : Line → Prop
  | .asIs s => '\n' ∉ s ∧ s.head? ≠ some '!'
  | .expand a b vs => '\n' ∉ a ∧ '$' ∉ a ∧ (∀ c ∈ b, c ≠ '\n' ∧ c ≠ ' ' ∧ c ≠ '\t') ∧ vs ≠ [] ∧
      ∀ v ∈ vs, v ≠ [] ∧ '\n' ∉ v ∧ ' ' ∉ v

/-- The file. -/
def render (ls : List Line) : Str := ls.flatMap Line.render

/-- What it stands for. -/
def meaning (ls : List Line) : Str := ls.flatMap Line.meaning

theorem newLines_eq (a b : Str) (vs : List Str) : ∀ k, newLines a b k vs =
    (vs.mapIdx fun i v => a ++ Nat.toDigits 10 (k + i) ++ b ++ "=".toList ++ v ++ ";\n".toList).flatten := by
  induction vs with
  | nil => intro k; rfl
  | cons v vs ih =>
    intro k
    simp only [newLines, ih (k + 1), List.mapIdx_cons, List.flatten_cons, Nat.add_zero]
    have : (fun i v => a ++ Nat.toDigits 10 (k + 1 + i) ++ b ++ "=".toList ++ v ++ ";\n".toList) =
        fun i v => a ++ Nat.toDigits 10 (k + (i + 1)) ++ b ++ "=".toList ++ v ++ ";\n".toList := by
      funext i v
      rw [show k + 1 + i = k + (i + 1) by omega]
    rw [this]
    simp [InputNg.ttos]

theorem replaceLine_ok (l : Line) (h : l.Ok) : ∃ t, l.render = t ++ ['\n'] ∧ '\n' ∉ t ∧ replaceLine t = .ok l.meaning := by
  cases l with
  | asIs s => exact ⟨s, rfl, h.1, by simp [replaceLine, h.2, Line.meaning]⟩
  | expand a b vs =>
    obtain ⟨h0, h3, h2, h4, h5⟩ := h
    refine ⟨'!' :: (a ++ ('$' :: 'i' :: b) ++ (' ' :: InputNg.spaced vs)), by simp [Line.render, InputNg.spaced], ?_, ?_⟩
    · have hs : '\n' ∉ InputNg.spaced vs := InputNg.not_mem_spaced vs '\n' (by decide) fun w hw => (h5 w hw).2.1
      simp only [List.mem_append, List.mem_cons]
      rintro (h1 | (h1 | h1 | h1 | h1) | h1 | h1)
      · revert h1; decide
      · exact h0 h1
      · revert h1; decide
      · revert h1; decide
      · exact (h2 _ h1).1 rfl
      · revert h1; decide
      · exact hs h1
    have ea : ∀ t : Str, (a ++ '$' :: t).takeWhile (· ≠ '$') = a := by
      intro t
      rw [List.takeWhile_append_of_pos (by intro c hc; simp; intro e; exact h3 (e ▸ hc))]; simp
    have ed : ∀ t : Str, (a ++ '$' :: t).dropWhile (· ≠ '$') = '$' :: t := by
      intro t
      rw [List.dropWhile_append_of_pos (by intro c hc; simp; intro e; exact h3 (e ▸ hc))]; simp
    have hbp : ∀ c ∈ b, (decide (c ≠ ' ' ∧ c ≠ '\t')) = true := by
      intro c hc
      simp [(h2 c hc).2.1, (h2 c hc).2.2]
    have eb : ∀ t : Str, (b ++ ' ' :: t).takeWhile (fun c => decide (c ≠ ' ' ∧ c ≠ '\t')) = b := by
      intro t
      rw [List.takeWhile_append_of_pos hbp]; simp
    have ebd : ∀ t : Str, (b ++ ' ' :: t).dropWhile (fun c => decide (c ≠ ' ' ∧ c ≠ '\t')) = ' ' :: t := by
      intro t
      rw [List.dropWhile_append_of_pos hbp]; simp
    have hsp : InputNg.spaced vs ≠ [] := by
      obtain ⟨v, vs', rfl⟩ := List.exists_cons_of_ne_nil h4
      obtain ⟨c, s, rfl⟩ := List.exists_cons_of_ne_nil (h5 v (by simp)).1
      cases vs' with
      | nil => simp [InputNg.spaced_one]
      | cons w ws => simp [InputNg.spaced_cons]
    have hsplit : split [] (InputNg.spaced vs) [' '] = some vs := by
      apply split_join vs [' '] [' '] (by simp) (by simp)
      intro v hv
      refine ⟨(h5 v hv).1, ?_⟩
      intro c hc hcc
      rw [List.mem_singleton] at hcc
      exact (h5 v hv).2.2 (hcc ▸ hc)
    unfold replaceLine
    rw [if_neg (by simp)]
    have e0 : ('!' :: (a ++ ('$' :: 'i' :: b) ++ (' ' :: InputNg.spaced vs))).drop 1 =
        a ++ '$' :: ('i' :: (b ++ ' ' :: InputNg.spaced vs)) := by simp
    rw [e0]
    simp only [ea, ed, List.drop_succ_cons, List.drop_zero, ne_eq, not_true_eq_false, if_false]
    have eb' := eb (InputNg.spaced vs)
    have ebd' := ebd (InputNg.spaced vs)
    simp only [ne_eq] at eb' ebd'
    rw [eb', ebd']
    simp only [List.drop_succ_cons, List.drop_zero, hsp, if_false, hsplit, ofThrow, bind, Except.bind, pure, Except.pure]
    rw [newLines_eq]
    simp [Line.meaning]

/-- The changed data of a file. -/
theorem changeData_ok (ls : List Line) (h : ∀ l ∈ ls, l.Ok) : changeData (render ls) = .ok (meaning ls ++ ['\n']) := by
  have key : ∃ r, (InputNg.splitIntoLines (render ls)).mapM replaceLine = .ok r ∧ r.flatten = meaning ls ++ ['\n'] := by
    induction ls with
    | nil =>
      refine ⟨[['\n']], ?_, rfl⟩
      simp [render, InputNg.splitIntoLines]; rfl
    | cons l ls ih =>
      obtain ⟨r, h1, h2⟩ := ih (fun l' hl' => h l' (by simp [hl']))
      obtain ⟨t, e, hb, hr⟩ := replaceLine_ok l (h l (by simp))
      have hsp : InputNg.splitIntoLines (render (l :: ls)) = t :: InputNg.splitIntoLines (render ls) := by
        have : render (l :: ls) = t ++ '\n' :: render ls := by simp [render, e]
        rw [this]
        unfold InputNg.splitIntoLines List.splitOn
        exact Verif.Str.splitOnP_token_delim _ _ (by intro x hx; simp; intro e; exact hb (e ▸ hx)) _ (by simp) _
      refine ⟨l.meaning :: r, ?_, by simp [h2, meaning]⟩
      rw [hsp, List.mapM_cons, hr, h1]
      rfl
  obtain ⟨r, h1, h2⟩ := key
  simp only [changeData, h1, bind, Except.bind, pure, Except.pure, h2]

theorem readFile_render (ls : List Line) (h0 : ls ≠ []) : InputNg.readFile (render ls) = render (ls ++ [.asIs []]) := by
  have hlast : (render ls).getLastD '\x00' = '\n' := by
    obtain ⟨init, l, rfl⟩ := List.eq_nil_or_concat ls |>.resolve_left h0
    obtain ⟨t, ht⟩ : ∃ t, l.render = t ++ ['\n'] := by
      cases l with
      | asIs s => exact ⟨s, rfl⟩
      | expand a b vs => exact ⟨'!' :: (a ++ ('$' :: 'i' :: b) ++ (' ' :: [' '].intercalate vs)), by simp [Line.render]⟩
    simp [render, ht, List.getLastD_eq_getLast?]
  rw [InputNg.readFile, hlast]
  simp [render, Line.render]

/-! ## Reading from a file in the Ainur format -/

theorem readAs_none {α : Type} (conv : List Str → Str → Out α) {h : List Ainur.Op} {s : Ainur.State} {k : Str} (ha : Ainur.After h s)
    (hv : ∀ v, Ainur.valueOf h k = some v → Ainur.NoValue v) : readAs conv s k = throwOut := by
  unfold readAs
  cases hx : Ainur.storageIndexByName s k with
  | none => rfl
  | some x =>
    obtain ⟨a, h1, h2⟩ := Ainur.idx_some hx
    obtain ⟨_, _, _, h3, _⟩ := ha.at_ x a h1
    rw [h2] at h3
    have h4 := hv _ h3
    simp only [h1]
    rw [if_pos]
    rcases h4 with h4 | h4 <;> simp [Ainur.isEmptyValue, h4, Ainur.zeroCharString]

theorem readAs_value {α : Type} (conv : List Str → Str → Out α) {h : List Ainur.Op} {s : Ainur.State} {k v : Str} (fs : Ainur.Files)
    (ha : Ainur.After h s) (hp : ∀ o ∈ h, o.Plain) (hv : Ainur.valueOf h k = some v) (h0 : ¬ Ainur.NoValue v) :
    ∃ s', Ainur.After (.read k :: h) s' ∧ readAs conv s k = (conv s.funs v).map fun t => (t, s') := by
  cases hx : Ainur.storageIndexByName s k with
  | none =>
    rw [ha.none_ k (Ainur.idx_none hx)] at hv
    cases hv
  | some x =>
    obtain ⟨a, h1, h2⟩ := Ainur.idx_some hx
    obtain ⟨_, _, _, h3, _⟩ := ha.at_ x a h1
    rw [h2, hv] at h3
    cases h3
    have he : Ainur.isEmptyValue a.value = false := by
      rw [Bool.eq_false_iff]
      intro e
      apply h0
      simpa [Ainur.isEmptyValue, Ainur.zeroCharString, Ainur.NoValue] using e
    obtain ⟨s', h4, h5⟩ := Ainur.op_step fs h s ha (.read k) (by
      intro o ho
      rcases List.mem_cons.1 ho with rfl | ho
      · trivial
      · exact hp o ho)
    refine ⟨s', h5, ?_⟩
    have hs : s' = { s with used := s.used.modify x (· + 1) } := by
      have hr : Ainur.readValue fs s k = (Ainur.convertString fs s.funs a.value).map fun t =>
          (t, { s with used := s.used.modify x (· + 1) }) := by
        unfold Ainur.readValue
        simp only [hx, h1, he]
        cases Ainur.convertString fs s.funs a.value <;> rfl
      have hans : Ainur.answer h (.read k) = .value (Ainur.strip a.value) := by
        simp only [Ainur.answer, hv, if_neg h0]
      rw [hans] at h4
      simp only [Ainur.Op.run, hr] at h4
      cases hc : Ainur.convertString fs s.funs a.value with
      | ok t =>
        rw [hc] at h4
        simp only [Except.map] at h4
        cases h4
        rfl
      | error b =>
        rw [hc] at h4
        cases b <;> simp [Except.map, ubOut] at h4
    unfold readAs
    simp only [hx, h1, he]
    rw [hs]
    cases conv s.funs a.value <;> rfl

theorem readText_safe (fs : Ainur.Files) {h : List Ainur.Op} {s : Ainur.State} (ha : Ainur.After h s) (hp : ∀ o ∈ h, o.Plain) :
    optional fs (.ainur s) = .code 0 := by
  obtain ⟨s', h4, _⟩ := Ainur.op_step fs h s ha (.read "mystring".toList) (by
    intro o ho
    rcases List.mem_cons.1 ho with rfl | ho
    · trivial
    · exact hp o ho)
  simp only [Ainur.Op.run] at h4
  unfold optional readText
  have : noEqual "mystring=".toList = "mystring".toList := by decide
  simp only [this]
  cases hr : Ainur.readValue fs s "mystring".toList with
  | ok v => rfl
  | error b =>
    cases b with
    | thrown => rfl
    | ub => rw [hr] at h4; simp [ubOut] at h4

/-- The declarations that the program puts before the file. -/
def imports : List (Ainur.Stmt × Str) :=
  [(.declare "integer".toList "myscalar".toList, "integer myscalar".toList),
   (.declare "vector".toList "myvector".toList, "\nvector myvector".toList),
   (.declare "string".toList "mystring".toList, "\nstring mystring".toList)]

/-- The calls that a file stands for: the declarations of the program, and then the statements of the file. -/
def calls (l : List (Ainur.Stmt × Str)) : List Ainur.Op := Ainur.fileOps (imports ++ l)

theorem name_letters (n : Str) (h0 : n ≠ []) (h : n.all Ainur.aToZ = true) : Ainur.IsName n :=
  ⟨[], n, [], by simp, by simp, h0, Ainur.letters_dec _ h, by simp⟩

theorem gap_nl : Ainur.Gap ['\n'] := .space '\n' [] (by decide) .nil

theorem type_letters (n : Str) (h0 : n ≠ []) (h : n.all Ainur.aToZ = true) : Ainur.IsType n :=
  ⟨h0, fun c hc => .inl (Ainur.letters_dec _ h c hc)⟩

theorem imports_ok : ∀ e ∈ imports, Ainur.Layout e.1 e.2 ∧ e.1.Clear := by
  intro e he
  simp only [imports, List.mem_cons, List.not_mem_nil, or_false] at he
  rcases he with rfl | rfl | rfl
  · exact ⟨.declare [] "integer".toList [' '] "myscalar".toList [] .nil (type_letters _ (by decide) (by decide)) Ainur.gap_blank
      (name_letters _ (by decide) (by decide)) (.inl (by simp)) .nil, trivial⟩
  · exact ⟨.declare ['\n'] "vector".toList [' '] "myvector".toList [] gap_nl (type_letters _ (by decide) (by decide)) Ainur.gap_blank
      (name_letters _ (by decide) (by decide)) (.inl (by simp)) .nil, trivial⟩
  · exact ⟨.declare ['\n'] "string".toList [' '] "mystring".toList [] gap_nl (type_letters _ (by decide) (by decide)) Ainur.gap_blank
      (name_letters _ (by decide) (by decide)) (.inl (by simp)) .nil, trivial⟩

theorem layout_nl {st : Ainur.Stmt} {t : Str} (h : Ainur.Layout st t) : Ainur.Layout st ('\n' :: t) := by
  have hg : ∀ {g}, Ainur.Gap g → Ainur.Gap ('\n' :: g) := fun hg => .space '\n' _ (by decide) hg
  cases h with
  | assign g0 n g1 g2 v h0 h1 h2 h3 h4 => exact .assign ('\n' :: g0) n g1 g2 v (hg h0) h1 h2 h3 h4
  | declare g0 d g1 n g2 h0 h1 h2 h3 h4 h5 => exact .declare ('\n' :: g0) d g1 n g2 (hg h0) h1 h2 h3 h4 h5
  | define g0 d g1 n g2 g3 v h0 h1 h2 h3 h4 h5 h6 h7 =>
    exact .define ('\n' :: g0) d g1 n g2 g3 v (hg h0) h1 h2 h3 h4 h5 h6 h7

/-- A file in the Ainur format that the program can open: it begins with `##`, its lines are well formed, and what they stand for is a list
of statements, each with a semicolon at its end; the values have no macros and no functions. -/
structure FileOk (ls : List Line) (l : List (Ainur.Stmt × Str)) (tail : Str) : Prop where
  lines : ∀ x ∈ ls, x.Ok
  begins : ∃ t, render ls = '#' :: '#' :: t
  text : meaning ls = Ainur.fileText l tail
  layout : ∀ e ∈ l, Ainur.Layout e.1 e.2 ∧ e.1.Clear
  gap : Ainur.Gap tail
  allowed : ∀ c ∈ meaning ls, Ainur.Allowed c
  plain : ∀ e ∈ l, e.1.op.Plain ∧ e.1.op.NoMacro

theorem isAinur_ok {ls : List Line} {l : List (Ainur.Stmt × Str)} {tail : Str} (h : FileOk ls l tail) :
    isAinur (InputNg.readFile (render ls)) = true := by
  obtain ⟨t, ht⟩ := h.begins
  rw [ht]
  unfold InputNg.readFile
  cases t <;> rfl

theorem open_ok (fs : Ainur.Files) {ls : List Line} {l : List (Ainur.Stmt × Str)} {tail : Str} (h : FileOk ls l tail) :
    ((∀ a ∈ Ainur.answers [] (calls l), a = .done) → ∃ s, openIo fs (render ls) = .ok (.ainur s) ∧ Ainur.After (calls l).reverse s ∧
      ∀ o ∈ (calls l).reverse, o.Plain) ∧
    ((∃ a ∈ Ainur.answers [] (calls l), a ≠ .done) → openIo fs (render ls) = throwOut) := by
  have h0 : ls ≠ [] := by
    rintro rfl
    obtain ⟨t, ht⟩ := h.begins
    cases ht
  have hchg : changeData (InputNg.readFile (render ls)) = .ok (meaning ls ++ ['\n', '\n']) := by
    rw [readFile_render ls h0, changeData_ok _ (by
      intro x hx
      rcases List.mem_append.1 hx with hx | hx
      · exact h.lines x hx
      · rw [List.mem_singleton.1 hx]
        exact ⟨by simp, by simp⟩)]
    simp [meaning, Line.meaning]
  obtain ⟨l', tail', e1, e2, e3, e4, e5⟩ : ∃ l' tail', importText ++ (meaning ls ++ ['\n', '\n']) = Ainur.fileText (imports ++ l') tail' ∧
      calls l' = calls l ∧ (∀ e ∈ l', Ainur.Layout e.1 e.2 ∧ e.1.Clear) ∧ Ainur.Gap tail' ∧
      ∀ e ∈ l', e.1.op.Plain ∧ e.1.op.NoMacro := by
    have hi : importText = imports.flatMap (fun e => e.2 ++ [';']) ++ ['\n'] := by decide
    have h2 : Ainur.Gap ['\n', '\n'] := .space _ _ (by decide) gap_nl
    cases l with
    | nil =>
      refine ⟨[], '\n' :: (tail ++ ['\n', '\n']), ?_, rfl, by simp, .space _ _ (by decide) (Ainur.gap_append h.gap h2), by simp⟩
      rw [hi, h.text]
      simp [Ainur.fileText]
    | cons e l =>
      refine ⟨(e.1, '\n' :: e.2) :: l, tail ++ ['\n', '\n'], ?_, ?_, ?_, Ainur.gap_append h.gap h2, ?_⟩
      · rw [hi, h.text]
        simp [Ainur.fileText]
      · simp [calls, Ainur.fileOps]
      · intro x hx
        rcases List.mem_cons.1 hx with rfl | hx
        · exact ⟨layout_nl (h.layout e (by simp)).1, (h.layout e (by simp)).2⟩
        · exact h.layout x (by simp [hx])
      · intro x hx
        rcases List.mem_cons.1 hx with rfl | hx
        · exact h.plain e (by simp)
        · exact h.plain x (by simp [hx])
  have hal : ∀ c ∈ Ainur.fileText (imports ++ l') tail', Ainur.Allowed c := by
    rw [← e1]
    intro c hc
    rcases List.mem_append.1 hc with hc | hc
    · exact (show ∀ c ∈ importText, Ainur.Allowed c by decide +kernel) c hc
    · rcases List.mem_append.1 hc with hc | hc
      · exact h.allowed c hc
      · exact (show ∀ c ∈ ['\n', '\n'], Ainur.Allowed c by decide) c hc
  have hfile := Ainur.file_after fs (imports ++ l') tail' (by simp [imports]) (by
    intro e he
    rcases List.mem_append.1 he with he | he
    · exact imports_ok e he
    · exact e3 e he) e4 hal (by
    intro e he
    rcases List.mem_append.1 he with he | he
    · simp only [imports, List.mem_cons, List.not_mem_nil, or_false] at he
      rcases he with rfl | rfl | rfl <;> exact ⟨by simp [Ainur.Stmt.op, Ainur.Op.Plain], by simp only [Ainur.Stmt.op]; decide⟩
    · exact e5 e he)
  change ((∀ a ∈ Ainur.answers [] (calls l'), a = .done) → _) ∧ ((∃ a ∈ Ainur.answers [] (calls l'), a ≠ .done) → _) at hfile
  rw [← e1] at hfile
  have hopen : openIo fs (render ls) = (do
      let s ← Ainur.ainur fs (importText ++ (meaning ls ++ ['\n', '\n']))
      return .ainur s) := by
    unfold openIo
    simp only [isAinur_ok h, if_true, hchg]
    rfl
  rw [e2] at hfile
  rw [hopen]
  constructor
  · intro hd
    obtain ⟨s, h1, h2, h3⟩ := hfile.1 hd
    change Ainur.After (calls l').reverse s at h2
    change ∀ o ∈ (calls l').reverse, o.Plain at h3
    rw [e2] at h2 h3
    exact ⟨s, by rw [h1]; rfl, h2, h3⟩
  · intro hd
    rw [hfile.2 hd]
    rfl

theorem numeral_cell {n : Cmplx.Numeral} (h : n.Ok) : Ainur.IsCell n.text ∧ n.text.head? ≠ some '(' ∧ n.text.take 3 ≠ "...".toList := by
  have hc : ∀ c ∈ n.text, c ≠ ',' ∧ c ≠ '[' ∧ c ≠ ']' ∧ Ainur.white c = false ∧ c ≠ '(' := by
    intro c hc
    rcases Cmplx.numeral_chars h c hc with hd | hd
    · refine ⟨?_, ?_, ?_, ?_, ?_⟩
      · rintro rfl; exact absurd hd (by decide)
      · rintro rfl; exact absurd hd (by decide)
      · rintro rfl; exact absurd hd (by decide)
      · unfold Ainur.white
        rw [decide_eq_false]
        intro hm
        simp only [List.mem_cons, List.not_mem_nil, or_false] at hm
        rcases hm with rfl | rfl | rfl | rfl | rfl | rfl <;> exact absurd hd (by decide)
      · rintro rfl; exact absurd hd (by decide)
    · simp only [List.mem_cons, List.not_mem_nil, or_false] at hd
      rcases hd with rfl | rfl | rfl | rfl | rfl <;> decide
  have hdig : ∀ {d : Str} {c : Char}, DigitsOf d → c ∈ d → c ≠ '.' := by
    intro d c hd hm e
    subst e
    exact absurd (hd '.' hm) (by decide)
  have hne : n.text ≠ [] := by
    intro e
    simp only [Cmplx.Numeral.text, List.append_eq_nil_iff] at e
    rcases h.some_digit with h1 | ⟨d, h1, _⟩
    · exact h1 e.1.1.2
    · rw [h1] at e
      exact absurd e.1.2 (by simp [Cmplx.fracText])
  refine ⟨⟨hne, fun c h1 => ⟨(hc c h1).1, (hc c h1).2.1, (hc c h1).2.2.1, (hc c h1).2.2.2.1⟩⟩, ?_, ?_⟩
  · intro e
    exact (hc '(' (List.mem_of_mem_head? e)).2.2.2.2 rfl
  · intro e
    cases hs : n.sign with
    | plus => simp [Cmplx.Numeral.text, hs, Cmplx.Sign.text] at e
    | minus => simp [Cmplx.Numeral.text, hs, Cmplx.Sign.text] at e
    | none =>
      cases hw : n.whole with
      | cons c w =>
        have := hdig h.whole (c := c) (by simp [hw])
        simp only [Cmplx.Numeral.text, hs, Cmplx.Sign.text, hw, List.nil_append, List.cons_append, List.take_succ_cons] at e
        exact this (List.cons.inj e).1
      | nil =>
        rcases h.some_digit with h1 | ⟨d, h1, h2⟩
        · exact h1 hw
        · obtain ⟨c, d', rfl⟩ := List.exists_cons_of_ne_nil h2
          have := hdig (h.frac _ h1) (c := c) (by simp)
          simp only [Cmplx.Numeral.text, hs, Cmplx.Sign.text, hw, h1, Cmplx.fracText, List.nil_append, List.cons_append,
            List.take_succ_cons] at e
          exact this (List.cons.inj (List.cons.inj e).2).1

theorem convertVector_numerals (fs : Ainur.Files) (funs : List Str) (text rest : Str) (ns : List Cmplx.Numeral) (h0 : ns ≠ [])
    (hn : ∀ n ∈ ns, n.Ok) (ht : Ainur.squeeze text = Ainur.vectorText (ns.map Cmplx.Numeral.text) ++ rest) :
    Ainur.convertVector realElem fs funs text [] = .ok (ns.map Cmplx.Numeral.value) := by
  have hmem : ∀ w ∈ ns.map Cmplx.Numeral.text, ∃ n : Cmplx.Numeral, n.Ok ∧ w = n.text := by
    intro w hw
    obtain ⟨n, h1, rfl⟩ := List.mem_map.1 hw
    exact ⟨n, hn n h1, rfl⟩
  rw [Ainur.vector_spec realElem fs funs text rest _ [] (by simpa using h0) (by
    intro w hw
    obtain ⟨n, h1, rfl⟩ := hmem w hw
    exact (numeral_cell h1).1) ht (by
    intro a b e
    obtain ⟨n, h1, h2⟩ := hmem b (by rw [e]; simp)
    rw [h2]
    exact (numeral_cell h1).2.2)]
  clear ht h0
  induction ns with
  | nil => rfl
  | cons n ns ih =>
    have h1 := hn n (by simp)
    rw [List.map_cons, List.mapM_cons, Ainur.entry_plain realElem fs funs _ (numeral_cell h1).2.1,
      show realElem.conv n.text = .ok n.value from Cmplx.atof_spec n h1, ih (fun m hm => hn m (by simp [hm])) (by
        intro w hw
        obtain ⟨m, h2, rfl⟩ := List.mem_map.1 hw
        exact ⟨m, hn m (by simp [h2]), rfl⟩)]
    rfl

theorem decimal_plain (n : Int) : (decimal n).head? ≠ some '(' ∧ ¬ Ainur.NoValue (decimal n) := by
  have hd : ∀ c ∈ decimal n, c = '-' ∨ Verif.Str.isDigit c = true := by
    intro c hc
    unfold decimal at hc
    split at hc
    · rcases List.mem_cons.1 hc with h | h
      · exact .inl h
      · exact .inr (isDigit_toDigits _ c h)
    · exact .inr (isDigit_toDigits _ c hc)
  have hne : decimal n ≠ [] := by
    unfold decimal
    split
    · simp
    · intro e
      have := Labels.toDigits_pos n.natAbs
      rw [e] at this
      simp at this
  constructor
  · intro e
    rcases hd '(' (List.mem_of_mem_head? e) with h | h
    · exact absurd h (by decide)
    · exact absurd h (by decide)
  · rintro (h | h)
    · exact hne h
    · rcases hd '\x00' (by rw [h]; simp) with h | h
      · exact absurd h (by decide)
      · exact absurd h (by decide)

theorem vector_has {t rest : Str} {ws : List Str} (h : Ainur.squeeze t = Ainur.vectorText ws ++ rest) : ¬ Ainur.NoValue t := by
  rintro (rfl | rfl)
  · cases h
  · simp [Ainur.squeeze, Ainur.white, Ainur.vectorText] at h

/-- The file gives `myvector` a list of these numbers, with white space anywhere. -/
def GivesList (h : List Ainur.Op) (ns : List Cmplx.Numeral) : Prop :=
  ∃ t rest, Ainur.valueOf h "myvector".toList = some t ∧ ns ≠ [] ∧ (∀ n ∈ ns, n.Ok) ∧
    Ainur.squeeze t = Ainur.vectorText (ns.map Cmplx.Numeral.text) ++ rest

/-- **C140** A file in the Ainur format: the program prints the integer that the file gives to `myscalar` last, and ends well, if the file
also gives a list of numbers to `myvector`; whatever else is in the file, and whether or not `mystring` is. -/
theorem input_prints (fs : Ainur.Files) (disk : Str → Option Str) (name : Str) {ls : List Line} {l : List (Ainur.Stmt × Str)} {tail : Str}
    (hdisk : disk name = some (render ls)) (h : FileOk ls l tail) (hd : ∀ a ∈ Ainur.answers [] (calls l), a = .done)
    (n : Int) (h1 : -2147483648 ≤ n) (h2 : n ≤ 2147483647)
    (hs : Ainur.valueOf (calls l).reverse "myscalar".toList = some (decimal n)) (ns : List Cmplx.Numeral)
    (hv : GivesList (calls l).reverse ns) :
    main fs disk [name] = ⟨warning name (render ls) ++ line n name, .code 0⟩ := by
  obtain ⟨s, ho, ha, hp⟩ := (open_ok fs h).1 hd
  obtain ⟨s1, ha1, hr1⟩ := readAs_value (convertInt fs) fs ha hp hs (decimal_plain n).2
  have hc1 : convertInt fs s.funs (decimal n) = .ok n := by
    unfold convertInt
    rw [Ainur.valueFromFunction_plain fs s.funs _ (decimal_plain n).1]
    simp only [bind, Except.bind]
    rw [atoi_decimal n h1 h2]
    rfl
  obtain ⟨t, rest, hv1, hv2, hv3, hv4⟩ := hv
  have hp1 : ∀ o ∈ .read "myscalar".toList :: (calls l).reverse, o.Plain := by
    intro o ho
    rcases List.mem_cons.1 ho with rfl | ho
    · trivial
    · exact hp o ho
  obtain ⟨s2, ha2, hr2⟩ := readAs_value (fun funs t => Ainur.convertVector realElem fs funs t []) fs (k := "myvector".toList) (v := t) ha1
    hp1 hv1 (vector_has hv4)
  rw [hc1] at hr1
  rw [convertVector_numerals fs s1.funs t rest ns hv2 hv3 hv4] at hr2
  have hp2 : ∀ o ∈ .read "myvector".toList :: .read "myscalar".toList :: (calls l).reverse, o.Plain := by
    intro o ho
    rcases List.mem_cons.1 ho with rfl | ho
    · trivial
    · exact hp1 o ho
  have hopt := readText_safe fs ha2 hp2
  have e1 : readInt fs (.ainur s) "myscalar=".toList = .ok (n, .ainur s1) := by
    unfold readInt
    rw [show noEqual "myscalar=".toList = "myscalar".toList by decide]
    simp only [hr1]
    rfl
  have e2 : readReals fs (.ainur s1) "myvector".toList = .ok (ns.map Cmplx.Numeral.value, .ainur s2) := by
    unfold readReals
    simp only [hr2]
    rfl
  unfold main
  simp only [hdisk, ho]
  unfold body
  simp only [e1, e2, hopt]

/-- **C140** A file in the Ainur format that does not give `myscalar` a value: an exception ends the program, and it prints no number. -/
theorem input_noScalar (fs : Ainur.Files) (disk : Str → Option Str) (name : Str) {ls : List Line} {l : List (Ainur.Stmt × Str)} {tail : Str}
    (hdisk : disk name = some (render ls)) (h : FileOk ls l tail) (hd : ∀ a ∈ Ainur.answers [] (calls l), a = .done)
    (hs : ∀ v, Ainur.valueOf (calls l).reverse "myscalar".toList = some v → Ainur.NoValue v) :
    main fs disk [name] = ⟨warning name (render ls), .uncaught⟩ := by
  obtain ⟨s, ho, ha, hp⟩ := (open_ok fs h).1 hd
  have hr1 := readAs_none (convertInt fs) ha hs
  have e1 : readInt fs (.ainur s) "myscalar=".toList = throwOut := by
    unfold readInt
    rw [show noEqual "myscalar=".toList = "myscalar".toList by decide]
    simp only [hr1]
    rfl
  unfold main
  simp only [hdisk, ho]
  unfold body
  simp only [e1]
  rfl

/-- **C140** A file in the Ainur format that gives a value to a name that is not declared, or that declares a name again: an exception ends
the program, and it prints no number. -/
theorem input_refused (fs : Ainur.Files) (disk : Str → Option Str) (name : Str) {ls : List Line} {l : List (Ainur.Stmt × Str)} {tail : Str}
    (hdisk : disk name = some (render ls)) (h : FileOk ls l tail) (hd : ∃ a ∈ Ainur.answers [] (calls l), a ≠ .done) :
    main fs disk [name] = ⟨warning name (render ls), .uncaught⟩ := by
  have ho := (open_ok fs h).2 hd
  have h0 : ls ≠ [] := by
    rintro rfl
    obtain ⟨t, ht⟩ := h.begins
    cases ht
  have hchg : (changeData (InputNg.readFile (render ls))).isOk = true := by
    rw [readFile_render ls h0, changeData_ok _ (by
      intro x hx
      rcases List.mem_append.1 hx with hx | hx
      · exact h.lines x hx
      · rw [List.mem_singleton.1 hx]
        exact ⟨by simp, by simp⟩)]
    rfl
  unfold main
  simp only [hdisk, ho, isAinur_ok h, hchg]
  rfl

/-! ## The other format -/

theorem isAinur_no {s : Str} (hb : s.take 2 ≠ "##".toList) : isAinur (InputNg.readFile s) = false := by
  unfold InputNg.readFile
  match s, hb with
  | [], _ => rfl
  | [a], _ =>
    by_cases e : a = '#'
    · subst e; rfl
    · simp [isAinur, e]
  | a :: b :: t, hb =>
    have : ¬ (a = '#' ∧ b = '#') := by
      rintro ⟨rfl, rfl⟩
      exact hb rfl
    cases hc : isAinur (a :: b :: t ++ [(a :: b :: t).getLastD '\x00']) with
    | false => rfl
    | true =>
      exfalso
      unfold isAinur at hc
      split at hc
      · rename_i heq
        simp only [List.cons_append, List.cons.injEq] at heq
        exact this ⟨heq.1, heq.2.1⟩
      · cases hc

theorem noWarning {s name : Str} (hb : s.take 2 ≠ "##".toList) : warning name s = [] := by
  simp [warning, isAinur_no hb]

/-- The three calls of the program. -/
def threeCalls : List InputNg.Call := [.text "myscalar".toList true, .vec "myvector".toList, .text "mystring".toList true]

theorem open_plain (fs : Ainur.Files) {ls : List InputNg.Line} (h : InputNg.FileOk check ls) (hk : InputNg.KindsApart ls) (h0 : ls ≠ [])
    (hb : (InputNg.render ls).take 2 ≠ "##".toList) :
    ∃ r, openIo fs (InputNg.render ls) = .ok (.plain r) ∧
      InputNg.runCalls r threeCalls = .ok (InputNg.answers ls [] threeCalls) := by
  obtain ⟨r, h1, h2⟩ := InputNg.loadFile_ok check ls h hk h0 threeCalls (by
    intro c hc
    simp only [threeCalls, List.mem_cons, List.not_mem_nil, or_false] at hc
    rcases hc with rfl | rfl | rfl <;> exact ⟨by decide, by decide, by decide⟩)
  refine ⟨r, ?_, h2⟩
  unfold openIo
  simp only [isAinur_no hb]
  unfold InputNg.loadFile at h1
  rw [h1]
  rfl

/-- One call out of several. -/
theorem run_cons {r : InputNg.Readable} {c : InputNg.Call} {cs : List InputNg.Call} {o : Option InputNg.Answer} {os : List (Option InputNg.Answer)}
    (h : InputNg.runCalls r (c :: cs) = .ok (o :: os)) :
    (∃ a r', o = some a ∧ c.run r = .ok (a, r') ∧ InputNg.runCalls r' cs = .ok os) ∨
      (o = none ∧ c.run r = throwOut ∧ InputNg.runCalls r cs = .ok os) := by
  unfold InputNg.runCalls at h
  cases hc : c.run r with
  | ok p =>
    obtain ⟨a, r'⟩ := p
    rw [hc] at h
    simp only [bind, Except.bind, pure, Except.pure] at h
    cases hr : InputNg.runCalls r' cs with
    | ok as =>
      rw [hr] at h
      simp only [Except.ok.injEq, List.cons.injEq] at h
      exact .inl ⟨a, r', h.1.symm, rfl, by rw [hr, h.2]⟩
    | error b => rw [hr] at h; cases h
  | error b =>
    rw [hc] at h
    cases b with
    | ub => simp [ubOut] at h
    | thrown =>
      simp only [bind, Except.bind, pure, Except.pure] at h
      cases hr : InputNg.runCalls r cs with
      | ok as =>
        rw [hr] at h
        simp only [Except.ok.injEq, List.cons.injEq] at h
        exact .inr ⟨h.1.symm, rfl, by rw [h.2]⟩
      | error b => rw [hr] at h; cases h

theorem mapM_numerals (ns : List Cmplx.Numeral) (hn : ∀ x ∈ ns, x.Ok) :
    (ns.map Cmplx.Numeral.text).mapM Cmplx.stringToReal = .ok (ns.map Cmplx.Numeral.value) := by
  induction ns with
  | nil => rfl
  | cons n ns ih =>
    rw [List.map_cons, List.mapM_cons, Cmplx.stringToReal_spec n (hn n (by simp)), ih (fun m hm => hn m (by simp [hm]))]
    rfl

/-- **C140** A file in the other format: the program prints the integer that the first `myscalar=` gives, and ends well, if there is also a
line with `myvector` and its numbers. -/
theorem input_plain (fs : Ainur.Files) (disk : Str → Option Str) (name : Str) {ls : List InputNg.Line}
    (hdisk : disk name = some (InputNg.render ls)) (h : InputNg.FileOk ⟨fun _ => true, fun _ _ => true, fun _ _ => some false⟩ ls) (hk : InputNg.KindsApart ls)
    (hb : (InputNg.render ls).take 2 ≠ "##".toList)
    (n : Int) (h1 : -2147483648 ≤ n) (h2 : n ≤ 2147483647) (more : List Str)
    (hs : InputNg.occ (InputNg.texts ls) "myscalar".toList = decimal n :: more) (count : Str) (ns : List Cmplx.Numeral) (hn : ∀ x ∈ ns, x.Ok)
    (more' : List (List Str))
    (hv : InputNg.occ (InputNg.vecs ls) "myvector".toList = (count :: ns.map Cmplx.Numeral.text) :: more') :
    main fs disk [name] = ⟨line n name, .code 0⟩ := by
  have h0 : ls ≠ [] := by
    rintro rfl
    simp [InputNg.occ, InputNg.texts] at hs
  obtain ⟨r, ho, hr⟩ := open_plain fs h hk h0 hb
  have ea1 : InputNg.answer ls [] (.text "myscalar".toList true) = some (.text (decimal n)) := by
    simp only [InputNg.answer, hs]
    simp [InputNg.movedText]
  have ea2 : InputNg.answer ls [.text "myscalar".toList true] (.vec "myvector".toList) = some (.vec (ns.map Cmplx.Numeral.text)) := by
    simp only [InputNg.answer, hv]
    simp [InputNg.movedVec]
  simp only [threeCalls, InputNg.answers, List.nil_append] at hr
  rw [ea1, ea2] at hr
  rcases run_cons hr with ⟨a, r1, e1, e2, e3⟩ | ⟨e1, _⟩
  · cases e1
    rcases run_cons e3 with ⟨a, r2, f1, f2, f3⟩ | ⟨f1, _⟩
    · cases f1
      have g1 : InputNg.readline r "myscalar".toList = .ok (decimal n, r1) := by
        simp only [InputNg.Call.run] at e2
        cases hq : InputNg.readline r "myscalar".toList with
        | ok p =>
          rw [hq] at e2
          simp only [bind, Except.bind, pure, Except.pure, Except.ok.injEq, Prod.mk.injEq, InputNg.Answer.text.injEq] at e2
          rw [← e2.1, ← e2.2]
        | error b => rw [hq] at e2; cases e2
      have g2 : InputNg.readVector r1 "myvector".toList = .ok (ns.map Cmplx.Numeral.text, r2) := by
        simp only [InputNg.Call.run] at f2
        cases hq : InputNg.readVector r1 "myvector".toList with
        | ok p =>
          rw [hq] at f2
          simp only [bind, Except.bind, pure, Except.pure, Except.ok.injEq, Prod.mk.injEq, InputNg.Answer.vec.injEq] at f2
          rw [← f2.1, ← f2.2]
        | error b => rw [hq] at f2; cases f2
      have g3 : optional fs (.plain r2) = .code 0 := by
        unfold optional readText
        rw [show "mystring=".toList = "mystring".toList ++ ['='] by decide]
        simp only [InputNg.readline_equal r2 "mystring".toList (by decide) (by decide)]
        have hnot : InputNg.readline r2 "mystring".toList ≠ .error .ub := by
          intro hq
          rcases run_cons f3 with ⟨a, r3, _, q1, _⟩ | ⟨_, q1, _⟩
          · simp only [InputNg.Call.run, hq] at q1
            cases q1
          · simp only [InputNg.Call.run, hq] at q1
            cases q1
        cases hq : InputNg.readline r2 "mystring".toList with
        | ok p => rfl
        | error b =>
          cases b with
          | thrown => rfl
          | ub => exact absurd hq hnot
      have k1 : readInt fs (.plain r) "myscalar=".toList = .ok (n, .plain r1) := by
        unfold readInt
        rw [show "myscalar=".toList = "myscalar".toList ++ ['='] by decide]
        simp only [InputNg.readValue_spec, InputNg.readline_equal r "myscalar".toList (by decide) (by decide), g1]
        simp only [bind, Except.bind, InputNg.asInt_spec n h1 h2, pure, Except.pure]
      have k2 : readReals fs (.plain r1) "myvector".toList = .ok (ns.map Cmplx.Numeral.value, .plain r2) := by
        unfold readReals
        simp only [g2, bind, Except.bind, mapM_numerals ns hn, pure, Except.pure]
      unfold main
      simp only [hdisk, ho, noWarning hb]
      unfold body
      simp only [k1, k2, g3, List.nil_append]
    · cases f1
  · cases e1

/-- **C140** A file in the other format without `myscalar`: an exception ends the program, and it prints nothing. -/
theorem input_plain_noScalar (fs : Ainur.Files) (disk : Str → Option Str) (name : Str) {ls : List InputNg.Line}
    (hdisk : disk name = some (InputNg.render ls)) (h : InputNg.FileOk ⟨fun _ => true, fun _ _ => true, fun _ _ => some false⟩ ls) (hk : InputNg.KindsApart ls)
    (hb : (InputNg.render ls).take 2 ≠ "##".toList) (h0 : ls ≠ [])
    (hs : InputNg.occ (InputNg.texts ls) "myscalar".toList = []) : main fs disk [name] = ⟨[], .uncaught⟩ := by
  obtain ⟨r, ho, hr⟩ := open_plain fs h hk h0 hb
  have ea1 : InputNg.answer ls [] (.text "myscalar".toList true) = none := by
    simp only [InputNg.answer, hs]
    rfl
  simp only [threeCalls, InputNg.answers, List.nil_append] at hr
  rw [ea1] at hr
  rcases run_cons hr with ⟨a, r1, e1, _⟩ | ⟨_, e2, _⟩
  · cases e1
  · have g1 : InputNg.readline r "myscalar".toList = throwOut := by
      simp only [InputNg.Call.run] at e2
      cases hq : InputNg.readline r "myscalar".toList with
      | ok p => rw [hq] at e2; cases e2
      | error b =>
        rw [hq] at e2
        cases b with
        | thrown => rfl
        | ub => cases e2
    have k1 : readInt fs (.plain r) "myscalar=".toList = throwOut := by
      unfold readInt
      rw [show "myscalar=".toList = "myscalar".toList ++ ['='] by decide]
      simp only [InputNg.readValue_spec, InputNg.readline_equal r "myscalar".toList (by decide) (by decide), g1]
      rfl
    unfold main
    simp only [hdisk, ho, noWarning hb]
    unfold body
    simp only [k1]
    rfl

/-- **C140** A file in the other format that cannot be loaded: nothing is printed. -/
theorem input_plain_refused (fs : Ainur.Files) (disk : Str → Option Str) (name : Str) {contents : Str} (hdisk : disk name = some contents)
    (hb : contents.take 2 ≠ "##".toList) (b : Bad) (ho : openIo fs contents = .error b) : main fs disk [name] = ⟨[], .of b⟩ := by
  simp only [main, hdisk, ho, isAinur_no hb]
  simp

/-- **C140** Without exactly one argument the program returns 1; a file that cannot be opened ends it with an exception. -/
theorem input_usage (fs : Ainur.Files) (disk : Str → Option Str) (args : List Str) :
    (args.length ≠ 1 → main fs disk args = ⟨[], .code 1⟩) ∧
    ∀ name, disk name = none → main fs disk [name] = ⟨[], .uncaught⟩ := by
  constructor
  · intro h
    match args, h with
    | [], _ => rfl
    | [a], h => exact absurd rfl h
    | _ :: _ :: _, _ => rfl
  · intro name h
    simp [main, h]

/-- **C140** The extension of a file is what follows its last period; the warning is printed for Ainur files named `….inp` only. -/
theorem extension_spec (a b : Str) (h : '.' ∉ b) : extensionOf (a ++ '.' :: b) = b ∧ extensionOf b = [] := by
  constructor
  · unfold extensionOf
    rw [if_neg (by simp)]
    have : (a ++ '.' :: b).reverse = b.reverse ++ '.' :: a.reverse := by simp
    rw [this, List.takeWhile_append_of_pos (by
      intro c hc
      simp only [ne_eq, decide_not, Bool.not_eq_true', decide_eq_false_iff_not]
      rintro rfl
      exact h (by simpa using hc))]
    simp
  · unfold extensionOf
    rw [if_pos]
    rw [List.all_eq_true]
    intro c hc
    simp only [ne_eq, decide_not, Bool.not_eq_true', decide_eq_false_iff_not]
    rintro rfl
    exact h hc

/-! ## Files -/

/-- No functions from files. -/
def noFiles : Ainur.Files := ⟨fun _ => false, fun _ _ => none⟩

/-- A disk with one file. -/
def disk1 (contents : Str) : Str → Option Str := fun n => if n = "f.ain".toList then some contents else none

/-- **C140** A file that does not end with the end of a line is refused, since its last character is read twice. -/
theorem input_lastLine_fails :
    main noFiles (disk1 "##A\nmyscalar=3;\nmyvector=[1,2];\n".toList) ["f.ain".toList] = ⟨line 3 "f.ain".toList, .code 0⟩ ∧
    main noFiles (disk1 "##A\nmyscalar=3;\nmyvector=[1,2];".toList) ["f.ain".toList] = ⟨[], .uncaught⟩ := by
  decide +kernel

/-- The hypotheses of `input_plain_refused` are met: a vector with too few numbers. -/
example : ("myvector 3 1\n".toList).take 2 ≠ "##".toList ∧ openIo noFiles "myvector 3 1\n".toList = .error .thrown := by
  refine ⟨by decide, ?_⟩
  have : (match openIo noFiles "myvector 3 1\n".toList with | .error .thrown => true | _ => false) = true := by decide +kernel
  split at this <;> simp_all

/-- A file in the Ainur format, with a line that stands for an assignment. -/
def sampleLines : List Line :=
  [.asIs "##A".toList, .asIs "integer a0b;".toList, .expand ['a'] ['b'] ["7".toList], .asIs "myscalar=-3;".toList,
   .asIs "myvector = [1, 2.5];".toList]

/-- Its statements. -/
def sampleStmts : List (Ainur.Stmt × Str) :=
  [(.declare "integer".toList "a0b".toList, "##A\ninteger a0b".toList), (.assign "a0b".toList "7".toList, "\na0b=7".toList),
   (.assign "myscalar".toList "-3".toList, "\nmyscalar=-3".toList),
   (.assign "myvector".toList "[1, 2.5]".toList, "\nmyvector = [1, 2.5]".toList)]

theorem not_splits {n : Str} (h : '_' ∉ n) (a b : Str) : ¬ Ainur.Splits n a b := by
  rintro ⟨u, c, r, e1, e2, _, _, h2, h3, _⟩
  obtain ⟨x, u', rfl⟩ := List.exists_cons_of_ne_nil h2
  apply h
  rw [e1, e2, h3 x (by simp)]
  simp

theorem name_a0b : Ainur.IsName "a0b".toList :=
  ⟨[], ['a'], ['0', 'b'], rfl, by simp, by decide, Ainur.letters_dec _ (by decide), fun c hc =>
    (Ainur.nameChar_iff c).1 (List.all_eq_true.1 (show "0b".toList.all Ainur.nameChar = true by decide) c hc)⟩

theorem sample_ok : FileOk sampleLines sampleStmts ['\n'] where
  lines := by
    intro x hx
    simp only [sampleLines, List.mem_cons, List.not_mem_nil, or_false] at hx
    rcases hx with rfl | rfl | rfl | rfl | rfl <;> simp [Line.Ok]
  begins := ⟨_, rfl⟩
  text := by decide +kernel
  layout := by
    intro e he
    simp only [sampleStmts, List.mem_cons, List.not_mem_nil, or_false] at he
    rcases he with rfl | rfl | rfl | rfl
    · exact ⟨.declare "##A\n".toList "integer".toList [' '] "a0b".toList []
        (.comment "#A".toList '\n' [] (by unfold Ainur.IsEol; decide) (.inr rfl) .nil)
        (type_letters _ (by decide) (by decide)) Ainur.gap_blank name_a0b (.inl (by simp)) .nil, trivial⟩
    · exact ⟨.assign ['\n'] "a0b".toList [] [] "7".toList gap_nl name_a0b .nil .nil ⟨by decide, by decide⟩,
        not_splits (by decide), by intro c hc; cases hc; decide⟩
    · exact ⟨.assign ['\n'] "myscalar".toList [] [] "-3".toList gap_nl (name_letters _ (by decide) (by decide)) .nil .nil ⟨by decide, by decide⟩,
        not_splits (by decide), by intro c hc; cases hc; decide⟩
    · exact ⟨.assign ['\n'] "myvector".toList [' '] [' '] "[1, 2.5]".toList gap_nl (name_letters _ (by decide) (by decide)) Ainur.gap_blank
        Ainur.gap_blank ⟨by decide, by decide⟩, not_splits (by decide), by intro c hc; cases hc; decide⟩
  gap := gap_nl
  allowed := by decide +kernel
  plain := by
    intro e he
    simp only [sampleStmts, List.mem_cons, List.not_mem_nil, or_false] at he
    rcases he with rfl | rfl | rfl | rfl <;> exact ⟨by simp [Ainur.Stmt.op, Ainur.Op.Plain], by simp only [Ainur.Stmt.op]; decide⟩

/-- The hypotheses of `input_prints` are met by this file. -/
example : main noFiles (fun _ => some (render sampleLines)) ["x.inp".toList] =
    ⟨warning "x.inp".toList (render sampleLines) ++ line (-3) "x.inp".toList, .code 0⟩ :=
  input_prints noFiles _ "x.inp".toList rfl sample_ok (by decide +kernel) (-3) (by decide) (by decide) (by decide +kernel)
    [⟨.none, ['1'], none, none⟩, ⟨.none, ['2'], some ['5'], none⟩]
    ⟨"[1, 2.5]".toList, [], by decide +kernel, by simp, by
      intro n hn
      simp only [List.mem_cons, List.not_mem_nil, or_false] at hn
      rcases hn with rfl | rfl
      · exact ⟨by unfold DigitsOf; decide, by simp, by simp, by simp⟩
      · refine ⟨by unfold DigitsOf; decide, ?_, by simp, by simp⟩
        intro d hd; cases hd; unfold DigitsOf; decide, by decide +kernel⟩

/-- So are those of `input_refused`, by a file that gives a value to a name without declaration. -/
example : FileOk [.asIs "##A".toList, .asIs "a=1;".toList] [(.assign "a".toList "1".toList, "##A\na=1".toList)] ['\n'] ∧
    (∃ a ∈ Ainur.answers [] (calls [(.assign "a".toList "1".toList, "##A\na=1".toList)]), a ≠ .done) := by
  refine ⟨⟨?_, ⟨_, rfl⟩, by decide +kernel, ?_, gap_nl, by decide +kernel, ?_⟩, .refused, by decide +kernel, by simp⟩
  · intro x hx
    simp only [List.mem_cons, List.not_mem_nil, or_false] at hx
    rcases hx with rfl | rfl <;> simp [Line.Ok]
  · intro e he
    rw [List.mem_singleton.1 he]
    exact ⟨.assign "##A\n".toList "a".toList [] [] "1".toList
      (.comment "#A".toList '\n' [] (by unfold Ainur.IsEol; decide) (.inr rfl) .nil)
      (name_letters _ (by decide) (by decide)) .nil .nil ⟨by decide, by decide⟩, not_splits (by decide), by intro c hc; cases hc; decide⟩
  · intro e he
    rw [List.mem_singleton.1 he]
    exact ⟨by simp [Ainur.Stmt.op, Ainur.Op.Plain], by simp only [Ainur.Stmt.op]; decide⟩

/-- The hypotheses of `input_plain` are met. -/
example : InputNg.FileOk check [.text "myscalar".toList "42".toList, .vec "myvector".toList ["1".toList, "7".toList]] ∧
    InputNg.occ (InputNg.texts [.text "myscalar".toList "42".toList, .vec "myvector".toList ["1".toList, "7".toList]]) "myscalar".toList =
      [decimal 42] ∧
    main noFiles (disk1 "myscalar=42\nmyvector 1 7\n".toList) ["f.ain".toList] = ⟨line 42 "f.ain".toList, .code 0⟩ := by
  refine ⟨⟨?_, trivial, fun _ => rfl, fun _ _ => rfl, by decide⟩, by decide +kernel, by decide +kernel⟩
  intro x hx
  simp only [List.mem_cons, List.not_mem_nil, or_false] at hx
  rcases hx with rfl | rfl
  · refine ⟨⟨⟨'m', _, rfl, by simp [InputNg.NumberChar]⟩, by simp only [InputNg.Plain]; decide⟩, by decide, ⟨'4', _, rfl, by simp only [InputNg.Plain]; decide⟩, by simp only [InputNg.Plain]; decide⟩
  · refine ⟨⟨⟨'m', _, rfl, by simp [InputNg.NumberChar]⟩, by simp only [InputNg.Plain]; decide⟩, by decide, ?_, "1".toList, ["7".toList], 1, rfl, by simp, by decide +kernel, .inr ⟨rfl, rfl⟩⟩
    intro n hn
    simp only [List.mem_cons, List.not_mem_nil, or_false] at hn
    rcases hn with rfl | rfl
    · exact ⟨⟨'1', _, rfl, by simp [InputNg.NumberChar]⟩, by simp only [InputNg.Plain]; decide⟩
    · exact ⟨⟨'7', _, rfl, by simp [InputNg.NumberChar]⟩, by simp only [InputNg.Plain]; decide⟩

end Verif.Whole.Input
