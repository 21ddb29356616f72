import Verif.Ainur.ModelFun
import Verif.StrUtil.Props
import Verif.Labels.Props

/-!
# Functions read from files (C106)
-/

namespace Verif.Ainur

open Verif.Str Verif.StrUtil

/-- The text of a file with the given lines (with an empty one at the end if the text ends with the end of a line). -/
def linesText (lines : List Str) : Str := ['\n'].intercalate lines

/-- The words of a line. -/
def words (line : Str) : List Str := (line.splitOnP (· = ' ')).filter (· ≠ [])

/-- A line that is empty, or has numbers in both columns, and is not too long. -/
structure GoodLine (cx cy : Nat) (line : Str) : Prop where
  chars : ∀ c ∈ line, c ≠ '\n' ∧ c ≠ '\x00'
  short : line.length < 2048
  cols : line = [] ∨ ∃ a b, (words line)[cx]? = some a ∧ (words line)[cy]? = some b ∧ isAfloat a = true ∧
    isAfloat b = true

theorem emptyLine_iff (s : Str) : emptyLine s = true ↔ s = [] := by
  unfold emptyLine
  constructor
  · intro h
    cases s with
    | nil => rfl
    | cons c s =>
      simp only [List.all_cons, Bool.and_eq_true] at h
      have h1 := h.1
      by_cases h2 : c = ' '
      · subst h2; simp at h1
      · simp [h2] at h1
  · rintro rfl; rfl

/-- The pairs that the lines give. -/
def tableOf {Q : Type} (N : Num Q) (cx cy : Nat) (lines : List Str) : List (Q × Q) :=
  lines.filterMap fun line =>
    match (words line)[cx]?, (words line)[cy]? with
    | some a, some b => some (N.ofText a, N.ofText b)
    | _, _ => none

theorem split_words (line : Str) : split [] line [' '] = some (words line) := by
  rw [split_spec]
  have : (fun c => decide (c ∈ [' '])) = fun c => decide (c = ' ') := by funext c; simp
  rw [this]; rfl

theorem readRow_good {Q : Type} (N : Num Q) {cx cy : Nat} {line : Str} (g : GoodLine cx cy line) (hne : line ≠ []) :
    ∃ p, readRow N cx cy line = .ok p ∧ tableOf N cx cy [line] = [p] := by
  obtain ⟨a, b, ha, hb, fa, fb⟩ := g.cols.resolve_left hne
  have l1 : cx < (words line).length := (List.getElem?_eq_some_iff.1 ha).1
  have l2 : cy < (words line).length := (List.getElem?_eq_some_iff.1 hb).1
  refine ⟨(N.ofText a, N.ofText b), ?_, by simp [tableOf, ha, hb]⟩
  unfold readRow
  rw [split_words]
  simp only []
  rw [if_neg (by omega)]
  simp only [column, ha, hb, atofQ, fa, fb, if_true]
  rfl

theorem tableOf_cons {Q : Type} (N : Num Q) (cx cy : Nat) (line : Str) (lines : List Str) :
    tableOf N cx cy (line :: lines) = tableOf N cx cy [line] ++ tableOf N cx cy lines := by
  unfold tableOf
  rw [← List.filterMap_append]
  rfl

theorem takeWhile_all {p : Char → Bool} {l : Str} (h : ∀ c ∈ l, p c = true) : l.takeWhile p = l := by
  have := List.takeWhile_append_of_pos (l₂ := []) h
  simpa using this

theorem getline_last {l : Str} (h : ∀ c ∈ l, c ≠ '\n') (hl : l.length < 2048) :
    getline maxLine ⟨l, false, false⟩ = (l, ⟨[], true, decide (l = [])⟩) := by
  have e : l.takeWhile (· ≠ '\n') = l := takeWhile_all fun c hc => by simpa using h c hc
  unfold getline
  simp only [Bool.or_self, Bool.false_eq_true, if_false, e]
  rw [if_pos (show l.length < maxLine from hl)]
  simp

theorem getline_next {l r : Str} (h : ∀ c ∈ l, c ≠ '\n') (hl : l.length < 2048) :
    getline maxLine ⟨l ++ '\n' :: r, false, false⟩ = (l, ⟨r, false, false⟩) := by
  have e : (l ++ '\n' :: r).takeWhile (· ≠ '\n') = l := by
    rw [List.takeWhile_append_of_pos (fun c hc => by simpa using h c hc)]
    simp
  unfold getline
  simp only [Bool.or_self, Bool.false_eq_true, if_false, e]
  rw [if_pos (show l.length < maxLine from hl)]
  simp

theorem cstr {l : Str} (h : ∀ c ∈ l, c ≠ '\x00') : l.takeWhile (· ≠ '\x00') = l :=
  takeWhile_all fun c hc => by simpa using h c hc

theorem readLoop_eof {Q : Type} (N : Num Q) (cx cy fuel : Nat) (r : Str) (f : Bool) (acc : List (Q × Q)) :
    readLoop N cx cy (fuel + 1) ⟨r, true, f⟩ acc = some (.ok acc) := by
  rw [readLoop]; rfl

theorem readLoop_step {Q : Type} (N : Num Q) {cx cy : Nat} {line : Str} (g : GoodLine cx cy line) (fuel : Nat)
    {st st' : Stream} (he : st.eof = false) (hg : getline maxLine st = (line, st')) (acc : List (Q × Q)) :
    readLoop N cx cy (fuel + 1) st acc = readLoop N cx cy fuel st' (acc ++ tableOf N cx cy [line]) := by
  have hc := cstr fun c hc => (g.chars c hc).2
  rw [readLoop, if_neg (by simp [he])]
  simp only [hg, hc]
  by_cases hr : line = []
  · rw [if_pos ((emptyLine_iff _).2 hr)]
    simp [tableOf, hr, words]
  · obtain ⟨p, hp, ht⟩ := readRow_good N g hr
    rw [if_neg (fun e => hr ((emptyLine_iff _).1 e)), hp, ht]

theorem fileText_cons (r s : Str) (lines : List Str) :
    linesText (r :: s :: lines) = r ++ '\n' :: linesText (s :: lines) := by
  simp [linesText, List.intercalate, List.intersperse]

theorem readLoop_rows {Q : Type} (N : Num Q) {cx cy : Nat} (lines : List Str)
    (h : ∀ l ∈ lines, GoodLine cx cy l) (hne : lines ≠ []) (fuel : Nat) (hf : lines.length + 1 ≤ fuel)
    (acc : List (Q × Q)) :
    readLoop N cx cy fuel ⟨linesText lines, false, false⟩ acc = some (.ok (acc ++ tableOf N cx cy lines)) := by
  induction lines generalizing fuel acc with
  | nil => exact absurd rfl hne
  | cons r lines ih =>
    have g := h r (by simp)
    obtain ⟨fuel, rfl⟩ : ∃ k, fuel = k + 1 := ⟨fuel - 1, by simp at hf; omega⟩
    cases lines with
    | nil =>
      have e : linesText [r] = r := by simp [linesText, List.intercalate]
      rw [e, readLoop_step N g fuel rfl (getline_last (fun c hc => (g.chars c hc).1) g.short)]
      obtain ⟨fuel, rfl⟩ : ∃ k, fuel = k + 1 := ⟨fuel - 1, by simp at hf; omega⟩
      rw [readLoop_eof]
    | cons s lines =>
      rw [fileText_cons, readLoop_step N g fuel rfl (getline_next (fun c hc => (g.chars c hc).1) g.short),
        ih (fun x hx => h x (List.mem_cons_of_mem _ hx)) (by simp) fuel (by simp at hf ⊢; omega)]
      rw [tableOf_cons N cx cy r (s :: lines), List.append_assoc]

theorem readData_rows {Q : Type} (N : Num Q) {cx cy : Nat} (lines : List Str)
    (h : ∀ l ∈ lines, GoodLine cx cy l) (fuel : Nat) (hf : lines.length + 2 ≤ fuel) :
    readData N fuel cx cy (some (linesText lines)) = some (.ok (tableOf N cx cy lines)) := by
  unfold readData
  by_cases hne : lines = []
  · subst hne
    have : linesText [] = linesText [[]] := rfl
    simp only []
    rw [this, readLoop_rows N [[]] (by
      intro r hr; simp at hr; subst hr
      exact ⟨by simp, by simp, .inl rfl⟩) (by simp) fuel (by simpa using hf)]
    simp [tableOf, words]
  · simp only []
    rw [readLoop_rows N lines h hne fuel (by omega)]
    simp

/-! ## The arguments -/

theorem deleteEnclosing_both (s : Str) (b e : Char) : deleteEnclosing (b :: (s ++ [e])) b e = s := by
  have hl : (b :: (s ++ [e])).getLast? = some e := by simp [List.getLast?_cons]
  unfold deleteEnclosing
  simp only [hl]
  simp

theorem toSize_nat (n : Nat) (h : n ≤ 2147483647) : toSize n = n := by
  unfold toSize
  omega

/-- The text of a function with all its arguments. -/
def funText (name : Str) (cx cy : Nat) : Str :=
  '(' :: ([','].intercalate ['"' :: (name ++ ['"']), "space".toList, Nat.toDigits 10 cx, Nat.toDigits 10 cy] ++ [')'])

/-- The text of a function with the name of the file. -/
def funTextShort (name : Str) : Str := '(' :: ('"' :: (name ++ ['"']) ++ [')'])

theorem digits_comma (n : Nat) : ',' ∉ Nat.toDigits 10 n := fun h =>
  absurd (isDigit_toDigits n ',' h) (by decide)

theorem digits_ne (n : Nat) : Nat.toDigits 10 n ≠ [] := fun h => by
  have := Labels.toDigits_pos n; rw [h] at this; simp at this

theorem parseFun_long (name : Str) (cx cy : Nat) (hn : ',' ∉ name) (hx : cx ≤ 2147483647) (hy : cy ≤ 2147483647) :
    parseFun (funText name cx cy) = .ok ⟨name, [' '], cx, cy⟩ := by
  have hs := split_join ['"' :: (name ++ ['"']), "space".toList, Nat.toDigits 10 cx, Nat.toDigits 10 cy] [','] [',']
    (by simp) (by simp) (by
      intro t ht
      simp only [List.mem_cons, List.not_mem_nil, or_false] at ht
      rcases ht with rfl | rfl | rfl | rfl
      · refine ⟨by simp, fun c hc hm => ?_⟩
        have : c = ',' := by simpa using hm
        subst this
        simp at hc
        exact hn hc
      · exact ⟨by decide, by decide⟩
      · exact ⟨digits_ne cx, fun c hc hm => digits_comma cx ((by simpa using hm : c = ',') ▸ hc)⟩
      · exact ⟨digits_ne cy, fun c hc hm => digits_comma cy ((by simpa using hm : c = ',') ▸ hc)⟩)
  unfold parseFun funText
  rw [deleteEnclosing_both, hs]
  simp only [columnArg, List.getElem?_cons_succ, List.getElem?_cons_zero, Labels.atoi_digits cx hx,
    Labels.atoi_digits cy hy, toSize_nat cx hx, toSize_nat cy hy, List.head?_cons, Option.getD_some, setSeparator,
    if_true]
  rw [deleteEnclosing_both]
  rfl

theorem parseFun_short (name : Str) (hn : ',' ∉ name) : parseFun (funTextShort name) = .ok ⟨name, [' '], 0, 1⟩ := by
  have hs := split_join ['"' :: (name ++ ['"'])] [','] [','] (by simp) (by simp) (by
      intro t ht
      simp only [List.mem_cons, List.not_mem_nil, or_false] at ht
      subst ht
      refine ⟨by simp, fun c hc hm => ?_⟩
      have : c = ',' := by simpa using hm
      subst this
      simp at hc
      exact hn hc)
  have e : [','].intercalate ['"' :: (name ++ ['"'])] = '"' :: (name ++ ['"']) := by simp [List.intercalate]
  rw [e] at hs
  unfold parseFun funTextShort
  rw [deleteEnclosing_both, hs]
  simp only [columnArg, List.head?_nil, Option.getD_none, setSeparator, if_true, deleteEnclosing_both]
  rfl

/-! ## The function -/

theorem makeFun_ok {Q : Type} (N : Num Q) (disk : Str → Option Str) (args name sep : Str) (cx cy : Nat)
    (hp : parseFun args = .ok ⟨name, sep, cx, cy⟩) (lines : List Str) (hd : disk name = some (linesText lines))
    (h : ∀ l ∈ lines, GoodLine cx cy l) (fuel : Nat) (hf : lines.length + 2 ≤ fuel) :
    makeFun N fuel disk args = some (.ok (tableOf N cx cy lines)) := by
  unfold makeFun
  rw [hp]
  simp only []
  rw [hd, readData_rows N lines h fuel hf]

/-- The line of a file gives the value `y` at `x`. -/
def Gives {Q : Type} (N : Num Q) (cx cy : Nat) (line : Str) (x y : Q) : Prop :=
  ∃ a b, (words line)[cx]? = some a ∧ (words line)[cy]? = some b ∧ N.ofText a = x ∧ N.ofText b = y

theorem mem_tableOf {Q : Type} (N : Num Q) (cx cy : Nat) (lines : List Str) (p : Q × Q) :
    p ∈ tableOf N cx cy lines ↔ ∃ l ∈ lines, Gives N cx cy l p.1 p.2 := by
  unfold tableOf Gives
  rw [List.mem_filterMap]
  constructor
  · rintro ⟨l, hl, h⟩
    refine ⟨l, hl, ?_⟩
    split at h
    · next a b ha hb =>
      simp only [Option.some.injEq] at h
      exact ⟨a, b, ha, hb, by rw [← h], by rw [← h]⟩
    · simp at h
  · rintro ⟨l, hl, a, b, ha, hb, e1, e2⟩
    exact ⟨l, hl, by simp [ha, hb, e1, e2]⟩

theorem callFun_first {Q : Type} [DecidableEq Q] (N : Num Q) (cx cy : Nat) (pre post : List Str) (line : Str) (x y : Q)
    (hg : Gives N cx cy line x y) (hp : ∀ l ∈ pre, ∀ z, ¬ Gives N cx cy l x z) :
    callFun (tableOf N cx cy (pre ++ line :: post)) x = .ok y := by
  obtain ⟨a, b, ha, hb, e1, e2⟩ := hg
  have e : tableOf N cx cy (pre ++ line :: post) = tableOf N cx cy pre ++ (x, y) :: tableOf N cx cy post := by
    unfold tableOf
    rw [List.filterMap_append, List.filterMap_cons]
    simp [ha, hb, e1, e2]
  have hn : (tableOf N cx cy pre).find? (fun p => decide (p.1 = x)) = none := by
    rw [List.find?_eq_none]
    intro p hm he
    obtain ⟨l, hl, hgl⟩ := (mem_tableOf N cx cy pre p).1 hm
    have : p.1 = x := by simpa using he
    exact hp l hl p.2 (this ▸ hgl)
  unfold callFun
  rw [e, List.find?_append, hn]
  simp

theorem callFun_none {Q : Type} [DecidableEq Q] (N : Num Q) (cx cy : Nat) (lines : List Str) (x : Q)
    (hp : ∀ l ∈ lines, ∀ z, ¬ Gives N cx cy l x z) : callFun (tableOf N cx cy lines) x = ubOut := by
  have hn : (tableOf N cx cy lines).find? (fun p => decide (p.1 = x)) = none := by
    rw [List.find?_eq_none]
    intro p hm he
    obtain ⟨l, hl, hgl⟩ := (mem_tableOf N cx cy lines p).1 hm
    have : p.1 = x := by simpa using he
    exact hp l hl p.2 (this ▸ hgl)
  unfold callFun
  rw [hn]

/-- **C106** A function made from the name of a file and two columns has, for each argument that is in the first column
of the file, the number in the second column of the first such line.  Empty lines are skipped, words may have any number
of blanks between them, and reading ends with or without the end of a line at the end of the file. -/
theorem function_value {Q : Type} [DecidableEq Q] (N : Num Q) (disk : Str → Option Str) (name : Str) (cx cy : Nat)
    (hn : ',' ∉ name) (hx : cx ≤ 2147483647) (hy : cy ≤ 2147483647) (lines : List Str)
    (hd : disk name = some (linesText lines)) (h : ∀ l ∈ lines, GoodLine cx cy l) (fuel : Nat)
    (hf : lines.length + 2 ≤ fuel) :
    ∃ f, makeFun N fuel disk (funText name cx cy) = some (.ok f) ∧
      ∀ pre line post x y, lines = pre ++ line :: post → Gives N cx cy line x y →
        (∀ l ∈ pre, ∀ z, ¬ Gives N cx cy l x z) → callFun f x = .ok y := by
  refine ⟨_, makeFun_ok N disk _ name _ cx cy (parseFun_long name cx cy hn hx hy) lines hd h fuel hf, ?_⟩
  rintro pre line post x y rfl hg hp
  exact callFun_first N cx cy pre post line x y hg hp

/-- **C106** With the name alone, the columns are the first two. -/
theorem function_default {Q : Type} [DecidableEq Q] (N : Num Q) (disk : Str → Option Str) (name : Str)
    (hn : ',' ∉ name) (lines : List Str) (hd : disk name = some (linesText lines)) (h : ∀ l ∈ lines, GoodLine 0 1 l)
    (fuel : Nat) (hf : lines.length + 2 ≤ fuel) :
    ∃ f, makeFun N fuel disk (funTextShort name) = some (.ok f) ∧
      ∀ pre line post x y, lines = pre ++ line :: post → Gives N 0 1 line x y →
        (∀ l ∈ pre, ∀ z, ¬ Gives N 0 1 l x z) → callFun f x = .ok y := by
  refine ⟨_, makeFun_ok N disk _ name _ 0 1 (parseFun_short name hn) lines hd h fuel hf, ?_⟩
  rintro pre line post x y rfl hg hp
  exact callFun_first N 0 1 pre post line x y hg hp

/-- **C106** A file that cannot be opened is reported. -/
theorem function_nofile {Q : Type} (N : Num Q) (disk : Str → Option Str) (name : Str) (hn : ',' ∉ name)
    (hd : disk name = none) (fuel : Nat) : makeFun N fuel disk (funTextShort name) = some throwOut := by
  unfold makeFun
  rw [parseFun_short name hn]
  simp only []
  rw [hd]
  rfl

/-! ### In the input -/

theorem isAfloat_paren (t : Str) (ht : isAfloat t = true) : ∀ c ∈ t, c ≠ '(' ∧ c ≠ ')' := by
  have key : ∀ (t : Str) (b : Bool), isAfloatLoop t b = true → ∀ c ∈ t, c ≠ '(' ∧ c ≠ ')' := by
    intro t
    induction t with
    | nil => intro b _ c hc; simp at hc
    | cons d t ih =>
      intro b h c hc
      rw [isAfloatLoop] at h
      rcases List.mem_cons.1 hc with rfl | hc
      · constructor <;> (rintro rfl; revert h; simp [isDigit])
      · split at h
        · exact ih _ h c hc
        · split at h
          · exact ih _ h c hc
          · simp at h
  exact key t false ht

theorem isAfloat_comma (t : Str) (ht : isAfloat t = true) : ∀ c ∈ t, c ≠ ',' := by
  have key : ∀ (t : Str) (b : Bool), isAfloatLoop t b = true → ∀ c ∈ t, c ≠ ',' := by
    intro t
    induction t with
    | nil => intro b _ c hc; simp at hc
    | cons d t ih =>
      intro b h c hc
      rw [isAfloatLoop] at h
      rcases List.mem_cons.1 hc with rfl | hc
      · rintro rfl; revert h; simp [isDigit]
      · split at h
        · exact ih _ h c hc
        · split at h
          · exact ih _ h c hc
          · simp at h
  exact key t false ht

theorem findBreak_skip (i : Nat) (u : Str) (hu : ')' ∉ u) (v : Str) : findBreak i (u ++ v) = findBreak (i + u.length) v := by
  induction u generalizing i with
  | nil => rfl
  | cons c u ih =>
    have h1 : c ≠ ')' := fun e => hu (by simp [e])
    rw [List.cons_append, findBreak, if_neg (by simp [h1]), ih (i + 1) (fun e => hu (by simp [e]))]
    congr 1
    simp; omega

theorem nameValue_call (u x : Str) (hu : ')' ∉ u) (hx : x ≠ []) :
    getFunctionNameValue ('(' :: (u ++ [')']) ++ ('(' :: (x ++ [')']))) = ('(' :: (u ++ [')']), x) := by
  have e : '(' :: (u ++ [')']) ++ ('(' :: (x ++ [')'])) = '(' :: (u ++ (')' :: '(' :: (x ++ [')']))) := by simp
  have hl : 0 < x.length := List.length_pos_of_ne_nil hx
  rw [e]
  unfold getFunctionNameValue
  have hlast : ('(' :: (u ++ (')' :: '(' :: (x ++ [')'])))).getLast? = some ')' := by
    rw [show '(' :: (u ++ (')' :: '(' :: (x ++ [')']))) = ('(' :: (u ++ (')' :: '(' :: x))) ++ [')'] by simp]
    exact List.getLast?_concat
  rw [if_neg (by simp; omega), if_neg (by rw [hlast]; simp)]
  have hb : findBreak 1 (('(' :: (u ++ (')' :: '(' :: (x ++ [')'])))).drop 1) = some (1 + u.length) := by
    rw [List.drop_one, List.tail_cons, findBreak_skip 1 u hu]
    simp [findBreak]
  rw [hb]
  simp only []
  congr 1
  · rw [show 1 + u.length + 1 = (('(' :: (u ++ [')']))).length by simp; omega, ← e, List.take_left]
  · rw [show 1 + u.length + 2 = (('(' :: (u ++ [')'])) ++ ['(']).length by simp; omega]
    rw [show '(' :: (u ++ (')' :: '(' :: (x ++ [')']))) = (('(' :: (u ++ [')'])) ++ ['(']) ++ (x ++ [')']) by simp]
    rw [List.drop_left]
    rw [show (('(' :: (u ++ [')'])) ++ ['('] ++ (x ++ [')'])).length - (1 + u.length) - 3 = x.length by simp; omega]
    rw [List.take_left]

/-- **C106** In the input, a variable that was given the value `!AinurFromFile("name")` is the function of that file, and
`("name")(x)` is read as the text of its value at `x`. -/
theorem input_value {Q : Type} [DecidableEq Q] (N : Num Q) (disk : Str → Option Str) (name : Str) (hn : ',' ∉ name)
    (hb : ')' ∉ name) (lines : List Str) (hd : disk name = some (linesText lines)) (h : ∀ l ∈ lines, GoodLine 0 1 l)
    (fuel : Nat) (hf : lines.length + 2 ≤ fuel) (funs : List Str) (hfun : funTextShort name ∉ funs) (t : Str)
    (ht : isAfloat t = true) (pre post : List Str) (line : Str) (y : Q) (hl : lines = pre ++ line :: post)
    (hg : Gives N 0 1 line (N.ofText t) y) (hp : ∀ l ∈ pre, ∀ z, ¬ Gives N 0 1 l (N.ofText t) z) :
    procNativeMacro (filesOf N fuel disk) funs ('!' :: fromFile ++ funTextShort name) =
        .ok (funTextShort name, funs ++ [funTextShort name]) ∧
      valueFromFunction (filesOf N fuel disk) (funs ++ [funTextShort name])
          (funTextShort name ++ ('(' :: (t ++ [')']))) = .ok (N.text y) := by
  have hm := makeFun_ok N disk _ name _ 0 1 (parseFun_short name hn) lines hd h fuel hf
  have hc := hl ▸ callFun_first N 0 1 pre post line (N.ofText t) y hg hp
  constructor
  · unfold procNativeMacro
    have e1 : (('!' :: fromFile ++ funTextShort name).drop 1).take fromFile.length = fromFile := by
      rw [List.cons_append, List.drop_one, List.tail_cons, List.take_left]
    have e2 : ('!' :: fromFile ++ funTextShort name).drop (fromFile.length + 1) = funTextShort name := by
      rw [List.cons_append, List.drop_succ_cons, List.drop_left]
    rw [if_pos e1, if_neg (by simp [funTextShort])]
    simp only [e2]
    rw [if_neg hfun]
    simp [filesOf, hm]
  · have hne : t ≠ [] := by rintro rfl; revert ht; decide
    have hq : ')' ∉ ('"' :: (name ++ ['"'])) := by simp [hb]
    have hv : getFunctionNameValue (funTextShort name ++ ('(' :: (t ++ [')']))) = (funTextShort name, t) :=
      nameValue_call _ t hq hne
    have hdel : deleteEnclosing t '(' ')' = t := by
      have hin : ∀ c ∈ t, c ≠ '(' ∧ c ≠ ')' := isAfloat_paren t ht
      cases t with
      | nil => rfl
      | cons c r =>
        have h1 := (hin c (by simp)).1
        have h2 : (c :: r).getLast? ≠ some ')' := fun e =>
          (hin ')' (List.mem_of_getLast? e)).2 rfl
        unfold deleteEnclosing
        simp [h1, h2]
    unfold valueFromFunction
    simp only [hv]
    rw [if_neg hne, if_neg (by simp [ht]), if_neg (by simp), hdel]
    simp only [filesOf, hm, atofQ, ht, if_true, hc]
    rfl

/-- **C106** A function that was not made is refused. -/
theorem unknown_function {Q : Type} [DecidableEq Q] (N : Num Q) (disk : Str → Option Str) (name : Str) (hb : ')' ∉ name)
    (fuel : Nat) (funs : List Str) (hfun : funTextShort name ∉ funs) (t : Str) (ht : isAfloat t = true) :
    valueFromFunction (filesOf N fuel disk) funs (funTextShort name ++ ('(' :: (t ++ [')']))) = throwOut := by
  have hne : t ≠ [] := by rintro rfl; revert ht; decide
  have hq : ')' ∉ ('"' :: (name ++ ['"'])) := by simp [hb]
  have hv : getFunctionNameValue (funTextShort name ++ ('(' :: (t ++ [')']))) = (funTextShort name, t) :=
    nameValue_call _ t hq hne
  unfold valueFromFunction
  simp only [hv]
  rw [if_neg hne, if_neg (by simp [ht]), if_pos hfun]

/-! ### What goes wrong -/

/-- **C106** An argument that is not in the file is undefined behaviour. -/
theorem missing_argument_fails {Q : Type} [DecidableEq Q] (N : Num Q) (disk : Str → Option Str) (name : Str)
    (hn : ',' ∉ name) (lines : List Str) (hd : disk name = some (linesText lines)) (h : ∀ l ∈ lines, GoodLine 0 1 l)
    (fuel : Nat) (hf : lines.length + 2 ≤ fuel) (x : Q) (hx : ∀ l ∈ lines, ∀ z, ¬ Gives N 0 1 l x z) :
    ∃ f, makeFun N fuel disk (funTextShort name) = some (.ok f) ∧ callFun f x = ubOut :=
  ⟨_, makeFun_ok N disk _ name _ 0 1 (parseFun_short name hn) lines hd h fuel hf, callFun_none N 0 1 lines x hx⟩

/-- **C106** A line with one word less than the last column needs is not reported: its missing word is accessed. -/
theorem short_line_fails {Q : Type} (N : Num Q) (cx cy : Nat) (line : Str) (h : (words line).length = cy) (hx : cx < cy)
    (hf : ∀ a, (words line)[cx]? = some a → isAfloat a = true) : readRow N cx cy line = ubOut := by
  unfold readRow
  rw [split_words]
  simp only []
  rw [if_neg (by omega)]
  obtain ⟨a, ha⟩ : ∃ a, (words line)[cx]? = some a := ⟨_, List.getElem?_eq_getElem (by omega)⟩
  have hb : (words line)[cy]? = none := List.getElem?_eq_none (by omega)
  simp only [column, ha, hb, atofQ, hf a ha, if_true]
  rfl

theorem words_one (line : Str) (hne : line ≠ []) (h : ' ' ∉ line) : words line = [line] := by
  have hs := split_join [line] [' '] [' '] (by simp) (by simp) (by
    intro t ht
    simp at ht; subst ht
    exact ⟨hne, fun c hc hm => h ((by simpa using hm : c = ' ') ▸ hc)⟩)
  rw [split_words] at hs
  simpa [List.intercalate] using hs

/-- **C106** With the separator `comma`, a file with commas between its columns is not read: the separator of the
function is not used, so the whole line is one word, which is not a number. -/
theorem comma_fails {Q : Type} (N : Num Q) (line : Str) (hne : line ≠ []) (h : ' ' ∉ line) (hc : ',' ∈ line)
    (hz : ∀ c ∈ line, c ≠ '\n' ∧ c ≠ '\x00') (hl : line.length < 2048) (fuel : Nat) :
    makeFun N (fuel + 1) (fun _ => some line) "(\"f\",comma)".toList = some throwOut := by
  have hp : parseFun "(\"f\",comma)".toList = .ok ⟨['f'], [','], 0, 1⟩ := by decide +kernel
  unfold makeFun
  rw [hp]
  simp only [readData]
  rw [readLoop, if_neg (by simp)]
  simp only [getline_last (fun c h => (hz c h).1) hl, cstr fun c h => (hz c h).2]
  rw [if_neg (fun e => hne ((emptyLine_iff _).1 e))]
  have hnf : isAfloat line = false := by
    cases hb : isAfloat line with
    | false => rfl
    | true => exact absurd rfl ((isAfloat_comma line hb) ',' hc)
  unfold readRow
  rw [split_words, words_one line hne h]
  simp only [List.length_cons, List.length_nil]
  rw [if_neg (by omega)]
  simp [column, atofQ, hnf, throwOut, bind, Except.bind]

/-- **C106** A line of blanks is not skipped: it is reported as too short. -/
theorem blank_line_fails {Q : Type} (N : Num Q) (n : Nat) : readRow N 0 1 (List.replicate n ' ') = throwOut ∧
    (0 < n → emptyLine (List.replicate n ' ') = false) := by
  have hw : words (List.replicate n ' ') = [] := by
    induction n with
    | zero => rfl
    | succ n ih =>
      rw [List.replicate_succ]
      unfold words at ih ⊢
      rw [List.splitOnP_cons]
      simpa using ih
  constructor
  · unfold readRow
    rw [split_words, hw]
    rfl
  · intro h
    cases hb : emptyLine (List.replicate n ' ') with
    | false => rfl
    | true =>
      have := (emptyLine_iff _).1 hb
      simp at this
      omega

/-- **C106** A line with 2048 characters or more is never left: the constructor does not end. -/
theorem long_line_fails {Q : Type} (N : Num Q) (cx cy fuel : Nat) (rest : Str) (acc : List (Q × Q)) :
    readLoop N cx cy fuel ⟨rest, false, true⟩ acc = none := by
  induction fuel with
  | zero => rfl
  | succ fuel ih =>
    rw [readLoop, if_neg (by simp)]
    simp only [getline, Bool.or_true, if_true, List.takeWhile_nil]
    rw [if_pos ((emptyLine_iff _).2 rfl)]
    exact ih

/-- **C106** The same, from the beginning of the file: the first 2047 characters are a line with two numbers. -/
theorem long_file_fails {Q : Type} (N : Num Q) (l : Str) (hl : ∀ c ∈ l, c ≠ '\n' ∧ c ≠ '\x00') (h : 2048 ≤ l.length)
    (hg : GoodLine 0 1 (l.take 2047)) (fuel : Nat) : readData N fuel 0 1 (some l) = none := by
  unfold readData
  simp only []
  cases fuel with
  | zero => rfl
  | succ fuel =>
    have e : l.takeWhile (· ≠ '\n') = l := takeWhile_all fun c hc => by simpa using (hl c hc).1
    have hgl : getline maxLine ⟨l, false, false⟩ = (l.take 2047, ⟨l.drop 2047, false, true⟩) := by
      unfold getline
      simp only [Bool.or_self, Bool.false_eq_true, if_false, e]
      rw [if_neg (show ¬ l.length < maxLine from by unfold maxLine; omega)]
      rfl
    rw [readLoop_step N hg fuel rfl hgl, long_line_fails]

/-! ### Examples -/

/-- Natural numbers as numbers. -/
def natNum : Num Nat := ⟨fun s => Nat.ofDigitChars 10 s 0, fun n => Nat.toDigits 10 n⟩

example : makeFun natNum 9 (fun _ => some "1 10\n\n2  20 7\n1 30\n".toList) "(\"f.txt\")".toList =
    some (.ok [(1, 10), (2, 20), (1, 30)]) := by decide +kernel

example : GoodLine 0 1 "2  20 7".toList := ⟨by decide, by decide, .inr ⟨['2'], "20".toList, by decide +kernel⟩⟩

example : valueFromFunction (filesOf natNum 9 fun _ => some "1 10\n\n2  20 7\n1 30\n".toList) ["(\"f.txt\")".toList]
    "(\"f.txt\")(2)".toList = .ok "20".toList := by decide +kernel

example : makeFun natNum 9 (fun _ => some "5 6 7\n8 9 10".toList) "(\"f\",space,2,0)".toList =
    some (.ok [(7, 5), (10, 8)]) := by decide +kernel

/-! ## Concrete cases of the hypotheses: a file with the rows `1 10` and `2 20`. -/

theorem good_rows : ∀ l ∈ ["1 10".toList, "2 20".toList], GoodLine 0 1 l := by
  intro l hl
  simp only [List.mem_cons, List.not_mem_nil, or_false] at hl
  rcases hl with rfl | rfl
  · exact ⟨by decide, by decide, .inr ⟨['1'], "10".toList, by decide +kernel⟩⟩
  · exact ⟨by decide, by decide, .inr ⟨['2'], "20".toList, by decide +kernel⟩⟩

example := comma_fails natNum "1,10".toList (by decide) (by decide) (by decide) (by decide) (by decide) 5
example := function_default natNum (fun _ => some (linesText ["1 10".toList, "2 20".toList])) "f.txt".toList (by decide) _ rfl good_rows 4 (by decide)
example := function_value natNum (fun _ => some (linesText ["1 10".toList, "2 20".toList])) "f.txt".toList 0 1 (by decide) (by decide) (by decide) _ rfl
  good_rows 4 (by decide)
example := function_nofile natNum (fun _ => none) "f.txt".toList (by decide) rfl 4
example := short_line_fails natNum 0 1 "7".toList (by decide +kernel) (by decide) (fun a h => by
  have e : words "7".toList = [['7']] := by decide +kernel
  rw [e] at h
  obtain rfl : ['7'] = a := by simpa using h
  decide +kernel)
example := unknown_function natNum (fun _ => none) "f.txt".toList (by decide) 4 [] (by decide) "2".toList (by decide +kernel)

end Verif.Ainur
